import Mathlib.Analysis.SpecialFunctions.Pow.Real
import Mathlib.Analysis.SpecialFunctions.Log.Base

/-!
# What an extrapolated power spectrum is (specification)
-/

namespace Verif.ExtrapolateSpec

noncomputable section

/-- `g` is the function `P` of `(k, mu)` between `lo` and `hi`; below `lo`, at every mu, a power of the wavenumber in units of `lo`, and above `hi` such a power with a slope that
varies with the logarithm, both with the value of `P` at the end as amplitude. -/
structure Extrapolates (P : ℝ → ℝ → ℝ) (lo hi : ℝ) (g : ℝ → ℝ → ℝ) : Prop where
  inside : ∀ k mu, lo ≤ k → k ≤ hi → g k mu = P k mu
  low : ∀ mu, ∃ a : ℝ, ∀ k, 0 < k → k < lo → g k mu = P lo mu * (k / lo) ^ a
  high : ∀ mu, ∃ a b : ℝ, ∀ k, hi < k → g k mu = P hi mu * (k / hi) ^ (a + b * Real.logb 10 (k / hi))

/-- The sum of the squares of the residuals of `amplitude * x^(a + b log10 x)` -/
def ssr (amplitude : ℝ) (x y : List ℝ) (a b : ℝ) : ℝ := (List.zipWith (fun x y => (amplitude * x ^ (a + b * Real.logb 10 x) - y) ^ 2) x y).sum

/-- A fit of the slope is a least-squares fit: if a slope has the smallest sum of squares, that of the fit is as small. -/
def LeastSquares1 (fit : ℝ → List ℝ → List ℝ → ℝ) : Prop := ∀ A x y a, (∀ c, ssr A x y a 0 ≤ ssr A x y c 0) → ssr A x y (fit A x y) 0 ≤ ssr A x y a 0

/-- The same for two parameters -/
def LeastSquares2 (fit : ℝ → List ℝ → List ℝ → ℝ × ℝ) : Prop :=
  ∀ A x y a b, (∀ c d, ssr A x y a b ≤ ssr A x y c d) → ssr A x y (fit A x y).1 (fit A x y).2 ≤ ssr A x y a b

/-- The curve of a spline goes through its knots. -/
def Interpolates (spline : List ℝ → List ℝ → ℝ → ℝ) : Prop :=
  ∀ x y : List ℝ, x.Pairwise (· < ·) → x.length = y.length → ∀ i, i < x.length → spline x y (x.getD i 0) = y.getD i 0

end

end Verif.ExtrapolateSpec
