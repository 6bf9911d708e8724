/-
What the cosmology object promises: the rms fluctuation in spheres of radius `R`.  Independent of the model.
-/
import Mathlib.Analysis.SpecialFunctions.Trigonometric.Basic
import Mathlib.MeasureTheory.Integral.IntervalIntegral.Basic

namespace Verif.Cosmo.Spec

noncomputable section

/-- the Fourier transform of a sphere of radius one -/
def topHat (x : ℝ) : ℝ := 3*(Real.sin x - x*Real.cos x)/x^3

/-- the variance of the density in spheres of radius `R`, of the wavenumbers from `1e-5` to `100` -/
def variance (P : ℝ → ℝ) (R : ℝ) : ℝ := ∫ k in (1/100000:ℝ)..100, k^2/(2*Real.pi^2) * P k * (topHat (k*R))^2

end
end Verif.Cosmo.Spec
