/-
Specification for C129: the mean of a Gaussian process, and the standardisation of columns.
-/
import Mathlib.Analysis.SpecialFunctions.Sqrt
import Mathlib.Analysis.SpecialFunctions.Exp

namespace Verif.SimFit

noncomputable section

/-- `f` is the mean of the Gaussian process with kernel `k`, given the values `y` with errors `σ` at the points `x`. -/
def IsMean {T : Type} {n : ℕ} (k : T → T → ℝ) (x : Fin n → T) (σ y : Fin n → ℝ) (f : T → ℝ) : Prop :=
  ∃ α : Fin n → ℝ, (∀ i, (∑ j, k (x i) (x j) * α j) + σ i ^ 2 * α i = y i) ∧ ∀ t, f t = ∑ i, k t (x i) * α i

/-- The mean of a column -/
def avg {n : ℕ} (v : Fin n → ℝ) : ℝ := (∑ i, v i) / n

open Classical in
/-- The standard deviation of a column, 1 if the column is constant -/
def spread {n : ℕ} (v : Fin n → ℝ) : ℝ := if ∀ i j, v i = v j then 1 else Real.sqrt ((∑ i, (v i - avg v) ^ 2) / n)

/-- A number in units of a column -/
def std {n : ℕ} (v : Fin n → ℝ) (x : ℝ) : ℝ := (x - avg v) / spread v

/-- The Gaussian kernel: amplitude `A`, squared lengths `l` -/
def gaussian {d : ℕ} (A : ℝ) (l : Fin d → ℝ) (x y : Fin d → ℝ) : ℝ := A * Real.exp (-(∑ a, (x a - y a) ^ 2 / l a) / 2)

end

end Verif.SimFit
