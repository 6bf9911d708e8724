/-
Specification: two-point statistics of points that are displaced by a Gaussian, irrotational field (the Zel'dovich approximation).  None of this mentions the model.
-/
import Verif.Spec.Xi
import Mathlib.Analysis.SpecialFunctions.Exp
import Mathlib.Analysis.Calculus.Deriv.Basic

namespace Verif.ZelPower

open Verif.Xi

noncomputable section

/-- The correlation of the displacements of two points, a distance `r` apart, along a direction whose cosine with their separation is `ν`: `∫ d³q/(2π)³ P(q)/q² (q·n/q)² cos(q·r)`,
for a displacement field that is the gradient with `P(q)` the power spectrum of the density. -/
def dispCorr (P : ℝ → ℝ) (q0 q1 r ν : ℝ) : ℝ := 1 / (2 * Real.pi ^ 2) * ∫ q in q0..q1, P q * skyMean (fun c => c ^ 2) (q * r) ν

/-- The mean of `exp(i k·(a Ψ(x) - b Ψ(x+r)))` for Gaussian displacements with variance `v` and correlation `c` along `k`, without the part that is left at infinite distance.
`a` and `b` are the growth factors of the displacements of the two points. -/
def connected (k v c a b : ℝ) : ℝ :=
  Real.exp (-(1 / 2) * k ^ 2 * (a ^ 2 * v + b ^ 2 * v - 2 * a * b * c)) - Real.exp (-(1 / 2) * k ^ 2 * (a ^ 2 * v + b ^ 2 * v))

/-- density with density -/
def density (k v c : ℝ) : ℝ := connected k v c 1 1

/-- density with momentum, the rate of change with the logarithm of growth -/
def momentum (k v c : ℝ) : ℝ := deriv (fun a => connected k v c a 1) 1

/-- momentum with momentum -/
def momenta (k v c : ℝ) : ℝ := deriv (fun b => deriv (fun a => connected k v c a b) 1) 1

/-- The contribution of a shell of radius `r` (per unit of thickness) to the Fourier transform `∫ d³r exp(i k·r) F`, where `F` is a function of the variance and of the correlation, and `c t` is the correlation along
a direction of cosine `t` with the separation. -/
def shell (F : ℝ → ℝ → ℝ → ℝ) (k r v : ℝ) (c : ℝ → ℝ) : ℝ := 4 * Real.pi * r ^ 2 * (1 / 2 * ∫ t in (-1:ℝ)..1, Real.cos (k * r * t) * F k v (c t))

/-- the Bessel function of half-integer order, `J_{n+1/2}(x)` -/
def besselHalf (n : ℕ) (x : ℝ) : ℝ := Real.sqrt (2 * x / Real.pi) * sph n x

end
end Verif.ZelPower
