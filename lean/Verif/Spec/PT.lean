/-
Specification of the perturbation-theory kernels, independent of the code.

Two wave vectors `a` and `b` add up to `k`.  In the frame with first axis along `k` and second axis in the plane of the three, `a = (α, β, 0)` and `b = (K - α, -β, 0)`, `K = |k|`.
The line of sight `n` makes an angle of cosine `μ` with `k` and has azimuth `φ`: `n = (μ, √(1-μ²) cos φ, √(1-μ²) sin φ)`.
-/
import Mathlib.Analysis.SpecialFunctions.Integrals.Basic
import Mathlib.Analysis.SpecialFunctions.Sqrt
import Mathlib.MeasureTheory.Measure.Lebesgue.Basic
import Mathlib.MeasureTheory.Measure.Prod

namespace Verif.PTSpec

noncomputable section

/-- `|a|` -/
def na (α β : ℝ) : ℝ := Real.sqrt (α^2 + β^2)
/-- `|b|` -/
def nb (K α β : ℝ) : ℝ := Real.sqrt ((K - α)^2 + β^2)
/-- `a · b` -/
def dot (K α β : ℝ) : ℝ := α*(K - α) - β^2
/-- the cosine of the angle between `a` and `b` -/
def cosab (K α β : ℝ) : ℝ := dot K α β / (na α β * nb K α β)

/-- Second-order density kernel of standard perturbation theory, symmetrised: `5/7 + (x/2)(a/b + b/a) + (2/7) x²`, `x` the cosine between `a` and `b` -/
def F2 (K α β : ℝ) : ℝ :=
  5/7 + cosab K α β / 2 * (na α β / nb K α β + nb K α β / na α β) + 2/7 * (cosab K α β)^2
/-- Second-order velocity kernel: `3/7 + (x/2)(a/b + b/a) + (4/7) x²` -/
def G2 (K α β : ℝ) : ℝ :=
  3/7 + cosab K α β / 2 * (na α β / nb K α β + nb K α β / na α β) + 4/7 * (cosab K α β)^2
/-- Tidal kernel: `x² - 1/3` -/
def S2 (K α β : ℝ) : ℝ := (cosab K α β)^2 - 1/3

/-- `a · n` -/
def an (α β μ φ : ℝ) : ℝ := α*μ + β*(Real.sqrt (1 - μ^2) * Real.cos φ)
/-- `b · n` -/
def bn (K α β μ φ : ℝ) : ℝ := (K - α)*μ - β*(Real.sqrt (1 - μ^2) * Real.cos φ)

/-- The line-of-sight velocity of a linear mode, `(a·n)/a²`, in units of `1/K` -/
def va (K α β μ φ : ℝ) : ℝ := K * an α β μ φ / (α^2 + β^2)
/-- likewise for `b` -/
def vb (K α β μ φ : ℝ) : ℝ := K * bn K α β μ φ / ((K - α)^2 + β^2)

/-- Average over the azimuth of the line of sight around `k` -/
def avg (F : ℝ → ℝ) : ℝ := (1/(2*Real.pi)) * ∫ φ in (0:ℝ)..(2*Real.pi), F φ

/-- The first elliptic coordinate of the triangle, `(|b|+|a|)/K` -/
def uOf (K α β : ℝ) : ℝ := (nb K α β + na α β) / K
/-- The second elliptic coordinate, `(|b|-|a|)/K` -/
def vOf (K α β : ℝ) : ℝ := (nb K α β - na α β) / K

/-- The pairs of wavenumbers `(q, r)` that close a triangle with `k`, with `q + r` at most `2Q` -/
def triangle (k Q : ℝ) : Set (ℝ × ℝ) := {p | k < p.1 + p.2 ∧ p.1 + p.2 ≤ 2*Q ∧ -k < p.2 - p.1 ∧ p.2 - p.1 ≤ k}

/-- The contribution of a pair of modes to a mode-coupling integral with kernel `w` -/
def pairs (w : ℝ → ℝ → ℝ) (P P' : ℝ → ℝ) (p : ℝ × ℝ) : ℝ := p.1*p.2 * (P p.1 * P' p.2) * w p.1 p.2

/-- `∫ d³q/(2π)³ P(q) P'(r) w(q, r)`, `r = |k - q|`, in terms of the sides of the triangle: `(4π² k)⁻¹ ∫∫ q r P(q) P'(r) w(q, r) dq dr` -/
def coupling (w : ℝ → ℝ → ℝ) (P P' : ℝ → ℝ) (k Q : ℝ) : ℝ := 1/(4*Real.pi^2*k) * ∫ p in triangle k Q, pairs w P P' p

/-- `F2` in terms of the sides: `x = (k² - q² - r²)/(2qr)` -/
def F2s (k q r : ℝ) : ℝ := let x := (k^2 - q^2 - r^2)/(2*q*r); 5/7 + x/2*(q/r + r/q) + 2/7*x^2
/-- `G2` in terms of the sides -/
def G2s (k q r : ℝ) : ℝ := let x := (k^2 - q^2 - r^2)/(2*q*r); 3/7 + x/2*(q/r + r/q) + 4/7*x^2
/-- `S2` in terms of the sides -/
def S2s (k q r : ℝ) : ℝ := ((k^2 - q^2 - r^2)/(2*q*r))^2 - 1/3

end

end Verif.PTSpec
