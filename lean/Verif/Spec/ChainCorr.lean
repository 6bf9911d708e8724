/-
What a correlation is and what sorting may do, independently of the code.
-/
import Mathlib.Data.Real.Sqrt
import Mathlib.Algebra.BigOperators.Fin
import Mathlib.Data.List.Sort

namespace Verif.ChainCorr

/-- `r` is the correlation coefficient of two samples: with deviations from the averages, the sum of products is `r` times the product
of the root-sum-squares, neither of which vanishes. -/
def IsCorrelation {m : ℕ} (x y : Fin m → ℝ) (r : ℝ) : Prop :=
  ∃ a b : ℝ, a * m = ∑ t, x t ∧ b * m = ∑ t, y t ∧
    0 < ∑ t, (x t - a) ^ 2 ∧ 0 < ∑ t, (y t - b) ^ 2 ∧
    ∑ t, (x t - a) * (y t - b) = r * (Real.sqrt (∑ t, (x t - a) ^ 2) * Real.sqrt (∑ t, (y t - b) ^ 2))

/-- A sample that takes one value only. -/
def Constant {m : ℕ} (x : Fin m → ℝ) : Prop := ∀ s t, x s = x t

/-- A sort in decreasing order: the same rows, and the numbers (nan aside) never increase. -/
def SortsDown {A : Type} (sort : List (A × Option ℝ) → List (A × Option ℝ)) : Prop :=
  ∀ l, (sort l).Perm l ∧ ((sort l).filterMap Prod.snd).Pairwise (· ≥ ·)

end Verif.ChainCorr
