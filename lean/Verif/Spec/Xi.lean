/-
Specification: spherical Bessel functions as the projections of a plane wave on the Legendre polynomials, multipoles, and the angular part of a Fourier transform in three dimensions.  None of this mentions the model.
-/
import Verif.Props.Legendre
import Mathlib.Analysis.SpecialFunctions.Trigonometric.Basic

namespace Verif.Xi

open Verif.Legendre

noncomputable section

/-- the real or imaginary part of a plane wave -/
def wave (n : ℕ) (y : ℝ) : ℝ := if n % 2 = 0 then Real.cos y else Real.sin y

/-- the spherical Bessel function `jₙ(x) = (1/2) i⁻ⁿ ∫₋₁¹ exp(i x t) Lₙ(t) dt` -/
def sph (n : ℕ) (x : ℝ) : ℝ := 1/2*(-1)^(n/2) * ∫ t in (-1:ℝ)..1, wave n (x*t)*leg n t

/-- the multipole of order `ell` of a function of the cosine of an angle -/
def multipole (ell : ℕ) (F : ℝ → ℝ) : ℝ := (2*ell + 1)/2 * ∫ mu in (-1:ℝ)..1, F mu*leg ell mu

/-- the mean over all directions of `k` of `cos(k·r) F(k·n/|k|)`, where `x = |k| |r|` and `ν` is the cosine of the angle between `r` and the line of sight `n`: the polar angle `arccos μ` and the azimuth `φ` of `k` are taken about `r`.
For even `F` this is the angular part of the Fourier transform, `∫ d³k/(2π)³ P = ∫ dk k²/(2π²) (mean over directions)`. -/
def skyMean (F : ℝ → ℝ) (x ν : ℝ) : ℝ := 1/2 * ∫ μ in (-1:ℝ)..1, Real.cos (x*μ) * (1/(2*Real.pi) * ∫ φ in (0:ℝ)..(2*Real.pi), F (μ*ν + Real.sqrt (1 - μ^2)*Real.sqrt (1 - ν^2)*Real.cos φ))

end
end Verif.Xi
