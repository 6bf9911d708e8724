/-
Model of the gridded transfer functions: `pyRSD/rsd/transfers/__init__.py`, `pyRSD/rsd/transfers/grid.py`.

Numbers are exact reals; a power that may be `nan` is an `Option ℝ` (`none` = nan).  The `k`, `mu` of null cells are never read (proved),
those of the other cells are taken to be numbers.  The caching of `mu_edges`, `binshape`, `mu_indices`, `in_k_range` is the subject of
`Model/Cache.lean` and is not repeated here.  The xarray coordinates of the results are the lists `muCen`, `ells`, `kcen`.
-/
import Mathlib.Data.Real.Basic
import Mathlib.Data.List.FinRange
import Mathlib.Data.List.ProdSigma
import Verif.Props.Legendre

namespace Verif.Transfers

open Verif.Legendre

noncomputable section

open Classical

/-- a number or nan -/
abbrev Val := Option ℝ

/-- `a + b`, `a * b` with nan -/
def addV : Val → Val → Val
  | some a, some b => some (a + b)
  | _, _ => none

/-- see `addV` -/
def mulV : Val → Val → Val
  | some a, some b => some (a * b)
  | _, _ => none

/-- `a / b`; division by zero is nan (in `average` it is `0/0` only: the weights are positive). -/
def divV : Val → Val → Val
  | some a, some b => if b = 0 then none else some (a / b)
  | _, _ => none

/-- `PkmuGrid` (`transfers/__init__.py:5-30`): `modes` is `none` where it is nan or infinite. -/
structure Grid (nk nmu : ℕ) where
  kcen : Fin nk → ℝ
  mucen : Fin nmu → ℝ
  k : Fin nk → Fin nmu → ℝ
  mu : Fin nk → Fin nmu → ℝ
  modes : Fin nk → Fin nmu → Option ℝ

variable {nk nmu : ℕ}

/-- `notnull` (`transfers/__init__.py:72-74`) -/
def Grid.notnull (g : Grid nk nmu) (c : Fin nk × Fin nmu) : Prop :=
  match g.modes c.1 c.2 with
  | none => False
  | some m => m > 0

/-- The cells in memory (row-major) order. -/
def cells (nk nmu : ℕ) : List (Fin nk × Fin nmu) := (List.finRange nk) ×ˢ (List.finRange nmu)

/-- The cells selected by `[self.grid.notnull]`, in the order in which numpy flattens them. -/
def Grid.valid (g : Grid nk nmu) : List (Fin nk × Fin nmu) := (cells nk nmu).filter (fun c => decide (g.notnull c))

/-- `flatk` (`transfers/__init__.py:107-109`) -/
def Grid.flatk (g : Grid nk nmu) : List ℝ := g.valid.map (fun c => g.k c.1 c.2)

/-- `flatmu` (`transfers/__init__.py:111-113`) -/
def Grid.flatmu (g : Grid nk nmu) : List ℝ := g.valid.map (fun c => g.mu c.1 c.2)

/-- The exceptions. -/
inductive TErr where
  | length        -- `ValueError` of `transfers/__init__.py:144`
  | allNull       -- `ValueError` of `grid.py:208, 302`
  | nanInRange    -- `ValueError` of `grid.py:220, 314`
  | monotone      -- `ValueError` of `grid.py:89`
  | dims          -- `ValueError` of xarray at `grid.py:310`
  deriving DecidableEq

/-- What may be assigned to `power`. -/
inductive PowerArg (nk nmu : ℕ) where
  | none
  | flat (val : List Val)
  | grid (val : Fin nk → Fin nmu → Val)

/-- Assignment to the masked cells, `toret.values[self.grid.notnull] = val`: one after the other. -/
def scatter (idx : List (Fin nk × Fin nmu)) (val : List Val) : Fin nk × Fin nmu → Val :=
  (idx.zip val).foldl (fun a cv => fun c => if c = cv.1 then cv.2 else a c) (fun _ => none)

/-- the `power` setter (`transfers/__init__.py:115-147`) -/
def setPower (g : Grid nk nmu) : PowerArg nk nmu → Except TErr (Fin nk × Fin nmu → Val)
  | .none => .ok (fun _ => none)                                                          -- lines 133-134
  | .flat val => if val.length = g.valid.length then .ok (scatter g.valid val) else .error .length      -- lines 140-144
  | .grid val => .ok (scatter g.valid (g.valid.map (fun c => val c.1 c.2)))               -- line 146

/-! ### `GriddedWedgeTransfer` -/

/-- `np.isclose(hi, 1.0)` with the default tolerances. -/
def closeToOne (hi : ℝ) : Prop := |hi - 1| ≤ 1 / 10 ^ 8 + 1 / 10 ^ 5 * 1

/-- the `mu_bounds` setter (`grid.py:41-56`), one element -/
def adjust (b : ℝ × ℝ) : ℝ × ℝ := if closeToOne b.2 then (b.1, 10005 / 10000 * b.2) else b

/-- The transfer object. `kmin`, `kmax` per bin, `none` for no limit. -/
structure Wedge (nk nmu : ℕ) where
  grid : Grid nk nmu
  muCen : List ℝ
  bounds : List (ℝ × ℝ)
  kmin : ℕ → Option ℝ
  kmax : ℕ → Option ℝ

/-- The `mu_bounds` argument: a list (which the object keeps and modifies) or a single tuple. -/
inductive BoundsArg where
  | list (l : List (ℝ × ℝ))
  | tuple (b : ℝ × ℝ)

/-- `GriddedWedgeTransfer.__init__` (`grid.py:26-39`).  The second component is the caller's argument afterwards: the setter writes
into the caller's list (`val[i] = ...`, line 55). -/
def Wedge.init (grid : Grid nk nmu) (arg : BoundsArg) (kmin kmax : ℕ → Option ℝ) : Wedge nk nmu × BoundsArg :=
  let l := match arg with
    | .list l => l
    | .tuple b => [b]
  let t : Wedge nk nmu :=
    { grid := grid, muCen := l.map (fun b => 1 / 2 * (b.1 + b.2)), bounds := l.map adjust, kmin := kmin, kmax := kmax }
  (t, match arg with
    | .list _ => .list (l.map adjust)
    | .tuple b => .tuple b)

/-- `mu_edges` (`grid.py:82-90`) -/
def muEdges (bounds : List (ℝ × ℝ)) : Except TErr (List ℝ) :=
  let toret := bounds.flatMap (fun b => [b.1, b.2])
  if (toret.zip toret.tail).all (fun p => decide (p.1 ≤ p.2)) then .ok toret else .error .monotone

/-- `np.digitize(x, edges)` for increasing edges: the number of edges not above `x`. -/
def digitize (edges : List ℝ) (x : ℝ) : ℕ := edges.countP (fun e => decide (e ≤ x))

/-- `mu_indices` (`grid.py:150-158`): row-major position in an array of shape `binshape = (Nk+2, len(mu_edges)-1+2)` (lines 142-148). -/
def muIndex (g : Grid nk nmu) (edges : List ℝ) (c : Fin nk × Fin nmu) : ℕ :=
  (c.1.val + 1) * (edges.length + 1) + digitize edges (g.mu c.1 c.2)

/-- `np.bincount(idx, weights=ws)`: one addition after the other. -/
def bincount (idx : List ℕ) (ws : List Val) : ℕ → Val :=
  (idx.zip ws).foldl (fun a p => fun x => if x = p.1 then addV (a x) p.2 else a x) (fun _ => some 0)

/-- `sum(d)` (`grid.py:160-172`): row `i`, column `b` of `[1:-1, 1:-1][..., ::2]`. -/
def sumBins (g : Grid nk nmu) (edges : List ℝ) (d : Fin nk × Fin nmu → Val) (i : Fin nk) (b : ℕ) : Val :=
  bincount (g.valid.map (muIndex g edges)) (g.valid.map d) ((i.val + 1) * (edges.length + 1) + (1 + 2 * b))

/-- the modes as a number or nan -/
def modesV (g : Grid nk nmu) (c : Fin nk × Fin nmu) : Val := g.modes c.1 c.2

/-- `average(d, w)` (`grid.py:174-189`) -/
def average (g : Grid nk nmu) (edges : List ℝ) (d w : Fin nk × Fin nmu → Val) (i : Fin nk) (b : ℕ) : Val :=
  divV (sumBins g edges (fun c => mulV (d c) (w c)) i b) (sumBins g edges w i b)

/-- `in_k_range` (`grid.py:132-140`) -/
def inKRange (g : Grid nk nmu) (kmin kmax : ℕ → Option ℝ) (i : Fin nk) (b : ℕ) : Prop :=
  (match kmin b with | none => True | some x => g.kcen i ≥ x) ∧ (match kmax b with | none => True | some x => g.kcen i ≤ x)

/-- The checks at the end of `__call__` (`grid.py:218-225`, `312-319`): `n2` columns. -/
def finish (g : Grid nk nmu) (kmin kmax : ℕ → Option ℝ) (n2 : ℕ) (out : Fin nk → ℕ → Val) : Except TErr (Fin nk → ℕ → Val) :=
  if ∃ i b, b < n2 ∧ inKRange g kmin kmax i b ∧ out i b = none then .error .nanInRange
  else .ok (fun i b => if inKRange g kmin kmax i b then out i b else none)

/-- `GriddedWedgeTransfer.__call__` (`grid.py:191-225`) -/
def Wedge.call (t : Wedge nk nmu) (power : PowerArg nk nmu) : Except TErr (Fin nk → ℕ → Val) :=
  match setPower t.grid power with
  | .error e => .error e
  | .ok p =>
    if ∀ c, p c = none then .error .allNull                           -- lines 207-208
    else
      match muEdges t.bounds with
      | .error e => .error e
      | .ok edges => finish t.grid t.kmin t.kmax t.bounds.length (average t.grid edges p (modesV t.grid))

/-! ### `GriddedMultipoleTransfer` -/

/-- The transfer object (`grid.py:228-257`).  The bounds are always `[(0, 1)]`. -/
structure Poles (nk nmu : ℕ) where
  grid : Grid nk nmu
  ells : List ℕ
  kmin : ℕ → Option ℝ
  kmax : ℕ → Option ℝ

/-- `legendre_weights` (`grid.py:272-277`) of the `b`-th multipole -/
def legendreWeight (g : Grid nk nmu) (ell : ℕ) (c : Fin nk × Fin nmu) : Val := some ((2 * ell + 1) * leg ell (g.mu c.1 c.2))

/-- `GriddedMultipoleTransfer.__call__` (`grid.py:286-319`).  `np.squeeze` of the `(Nk, 1)` array of averages has one dimension less
than needed if `Nk = 1`. -/
def Poles.call (t : Poles nk nmu) (power : PowerArg nk nmu) : Except TErr (Fin nk → ℕ → Val) :=
  match setPower t.grid power with
  | .error e => .error e
  | .ok p =>
    if ∀ c, p c = none then .error .allNull
    else
      match muEdges [adjust (0, 1)] with
      | .error e => .error e
      | .ok edges =>
        if nk = 1 then .error .dims
        else finish t.grid t.kmin t.kmax t.ells.length
          (fun i b => average t.grid edges (fun c => mulV (legendreWeight t.grid (t.ells.getD b 0) c) (p c)) (modesV t.grid) i 0)

end

end Verif.Transfers
