/-
Model of the levels of the contours of the two-dimensional posteriors, `ctr_level` (`pyRSD/rsdfit/analysis/plot.py:12-26`), and of the histograms they are drawn for, `get_2d_histogram`
(`plot.py:85-103`, called in `plot.py:298`).

Counts are exact reals.  `np.searchsorted` is used by its contract on an increasing array: the number of entries below the value.
-/
import Mathlib.Data.Real.Basic
import Mathlib.Data.List.Sort
import Mathlib.Algebra.BigOperators.Group.List.Basic

namespace Verif.Contour

noncomputable section

open Classical in
/-- `hist[::-1]` after `hist.sort()` (`plot.py:17-19`): the counts from the largest down. -/
def descending (hist : List ℝ) : List ℝ := hist.mergeSort fun a b => decide (b ≤ a)

/-- `np.cumsum(...)`, divided by the last entry (`plot.py:19-20`). -/
def cumulative (hist : List ℝ) : List ℝ :=
  (List.range hist.length).map fun k => ((descending hist).take (k + 1)).sum / (descending hist).sum

open Classical in
/-- `np.searchsorted(cum_hist, lvl)` (`plot.py:22`): the number of entries below. -/
def below (hist : List ℝ) (lvl : ℝ) : ℕ := ((cumulative hist).filter fun c => decide (c < lvl)).length

/-- `hist[-i]` of the increasing array (`plot.py:23`): `hist[-0]` is its first entry, the smallest. -/
def fromEnd (hist : List ℝ) (i : ℕ) : ℝ := if i = 0 then (descending hist).reverse.getD 0 0 else (descending hist).reverse.getD (hist.length - i) 0

/-- `ctr_level(hist, lvl)` (`plot.py:12-26`, `infinite=False`). -/
def ctrLevel (hist lvl : List ℝ) : List ℝ := (lvl.map (below hist)).reverse.map (fromEnd hist) ++ [(descending hist).getD 0 0]

/-! ### The histograms -/

/-- The dictionary `_2d_posteriors`: keyed by the unordered pair of parameters. -/
abbrev Cache (β : Type) := List ((ℕ × ℕ) × β)

/-- `tuple(sorted([index1, index2]))` -/
def pairKey (i j : ℕ) : ℕ × ℕ := (min i j, max i j)

/-- `get_2d_histogram` (`plot.py:85-103`); `H` is `np.histogram2d` of the two traces. -/
def histogram2d {β : Type} (H : List ℝ → List ℝ → β) (c : Cache β) (i j : ℕ) (t1 t2 : List ℝ) : β × Cache β :=
  match c.lookup (pairKey i j) with
  | some h => (h, c)
  | none => (H t1 t2, (pairKey i j, H t1 t2) :: c)

/-- The call in the triangle plot (`plot.py:291-298`), for the parameter of the row and that of the column: the trace of the row is not divided by its scale. -/
def trianglePanel {β : Type} (H : List ℝ → List ℝ → β) (c : Cache β) (trace : ℕ → List ℝ) (scale : ℕ → ℝ) (i j : ℕ) : β × Cache β :=
  histogram2d H c i j (trace i) ((trace j).map (· / scale j))

/-- One figure: the panels below the diagonal, in order (`plot.py:242-298`), and the histograms drawn. -/
def triangle {β : Type} (H : List ℝ → List ℝ → β) (trace : ℕ → List ℝ) (scale : ℕ → ℝ) (c : Cache β) (params : List ℕ) : List ((ℕ × ℕ) × β) × Cache β :=
  ((List.range params.length).flatMap fun a => (List.range a).map fun b => (params.getD a 0, params.getD b 0)).foldl
    (fun s p => (s.1 ++ [(p, (trianglePanel H s.2 trace scale p.1 p.2).1)], (trianglePanel H s.2 trace scale p.1 p.2).2)) ([], c)

/-- All figures (`plot.py:62-65`); the dictionary is kept from one to the next. -/
def figures {β : Type} (H : List ℝ → List ℝ → β) (trace : ℕ → List ℝ) (scale : ℕ → ℝ) : Cache β → List (List ℕ) → List ((ℕ × ℕ) × β)
  | _, [] => []
  | c, ps :: rest => (triangle H trace scale c ps).1 ++ figures H trace scale (triangle H trace scale c ps).2 rest

end

end Verif.Contour
