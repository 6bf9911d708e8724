/-
What C127 speaks of: samples of a bin, their mean, and the mean over the bin.
-/
import Mathlib.MeasureTheory.Integral.IntervalIntegral.Basic
import Mathlib.Data.Fintype.Basic

namespace Verif.SmoothWedge

open MeasureTheory intervalIntegral

noncomputable section

open Classical

/-- A bin whose upper end is 1 (to the tolerance of `np.isclose`) contains its upper end, every other one does not. -/
def EndsAtOne (hi : ℝ) : Prop := |hi - 1| ≤ 1 / 10 ^ 8 + 1 / 10 ^ 5

/-- Those of the equidistant samples `0, 1/N, 2/N, ..., 1` that belong to the bin. -/
def samples (N : ℕ) (lo hi : ℝ) : Finset (Fin (N + 1)) :=
  Finset.univ.filter (fun j => lo ≤ (j.val : ℝ) / N ∧ ((j.val : ℝ) / N < hi ∨ EndsAtOne hi))

/-- The plain mean over a set of samples. -/
def mean {N : ℕ} (s : Finset (Fin (N + 1))) (f : Fin (N + 1) → ℝ) : ℝ := (∑ j ∈ s, f j) / s.card

/-- The mean of a function over an interval. -/
def binMean (f : ℝ → ℝ) (lo hi : ℝ) : ℝ := (∫ x in lo..hi, f x) / (hi - lo)

end

end Verif.SmoothWedge
