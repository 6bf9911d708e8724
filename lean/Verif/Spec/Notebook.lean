/-
What the interactive plots of chains should show (`pyRSD/rsdfit/plotly/mcmc.py`).
-/
import Verif.Model.Notebook
import Mathlib.Algebra.BigOperators.Group.Finset.Basic

namespace Verif.Nb

noncomputable section

/-- rounding to five decimals: a multiple of 10⁻⁵ at most half a unit away -/
def Round5 (rnd : ℝ → ℝ) : Prop := ∀ x, |rnd x - x| ≤ 5 / 10 ^ 6 ∧ ∃ n : ℤ, rnd x = n / 10 ^ 5

/-- the value `y` on a figure stands for `x` -/
def Shows (y x : ℝ) : Prop := |y - x| ≤ 5 / 10 ^ 6

/-- `W` walkers of `n` iterations, at least one walker -/
def Rect (chain : List (List ℝ)) (n : ℕ) : Prop := chain ≠ [] ∧ ∀ t ∈ chain, t.length = n

/-- a line with the points of `v` at iterations `b, b+1, ...` up to `n` -/
def IsLine (l : List ℕ × List ℝ) (b n : ℕ) (v : ℕ → ℝ) : Prop :=
  l.1.length = n - b ∧ l.2.length = n - b ∧ ∀ i, b + i < n → l.1[i]? = some (b + i) ∧ ∃ y, l.2[i]? = some y ∧ Shows y (v (b + i))

/-- the value of walker `w` at iteration `i` -/
def at' (chain : List (List ℝ)) (w i : ℕ) : ℝ := (chain.getD w []).getD i 0

/-- the average of all walkers at iteration `i` -/
def average (chain : List (List ℝ)) (i : ℕ) : ℝ := (∑ w ∈ Finset.range chain.length, at' chain w i) / chain.length

/-- the panel of a parameter: `m` walkers and the mean, under the label -/
def ShowsTraces (row : Row) (tex : Labels) (r : Res) (b m : ℕ) (name : String) : Prop :=
  row.lines.length = m ∧
  (∀ w l, row.lines[w]? = some l → IsLine l b r.iterations (at' (r.chain name) w)) ∧
  IsLine row.mean b r.iterations (average (r.chain name)) ∧
  row.title = (match tex.lookup name with | some t => t | none => name)

/-- `np.histogram`: increasing edges, and the number of samples of each bin, closed on the left, the last one on both sides -/
structure IsHistogram (xs : List ℝ) (counts : List ℕ) (edges : List ℝ) : Prop where
  len : edges.length = counts.length + 1
  inc : ∀ i, i + 1 < edges.length → edges.getD i 0 < edges.getD (i + 1) 0
  all : counts.sum = xs.length
  count : ∀ i, i < counts.length → counts.getD i 0 = xs.countP fun x =>
    decide (edges.getD i 0 ≤ x ∧ (x < edges.getD (i + 1) 0 ∨ i + 1 = counts.length ∧ x = edges.getD (i + 1) 0))

end

end Verif.Nb
