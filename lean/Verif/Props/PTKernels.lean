/-
C93: the kernels of the perturbation-theory integrals are those of standard perturbation theory.

For every triangle `a + b = k` (`K = |k| > 0`, `a, b ≠ 0`) and every line of sight, the kernels evaluated at the elliptic coordinates of the triangle are the second-order kernels
`F2`, `G2`, `S2`, their products, and the powers of `μ` in the azimuthal average of products of line-of-sight velocities.
-/
import Verif.Lemmas.PTKernels

namespace Verif.PT

open Verif.PTSpec Real

variable {K α β : ℝ}

/-- The wavenumbers at which the integrand evaluates the spectra are the other two sides of the triangle. -/
theorem C93_integrand_sides (hK : 0 < K) : (K/2)*(uOf K α β - vOf K α β) = na α β ∧ (K/2)*(uOf K α β + vOf K α β) = nb K α β := by
  have := hK.ne'
  constructor <;> · unfold uOf vOf; field_simp; ring

/-- `F2`, `G2` and `S2` of `Kmn` are the kernels of standard perturbation theory. -/
theorem C93_second_order_kernels (hK : 0 < K) (ha : α^2 + β^2 ≠ 0) (hb : (K - α)^2 + β^2 ≠ 0) :
    PT.F2 (uOf K α β) (vOf K α β) = PTSpec.F2 K α β ∧ PT.G2 (uOf K α β) (vOf K α β) = PTSpec.G2 K α β ∧
      PT.S2 (uOf K α β) (vOf K α β) = PTSpec.S2 K α β := by
  have t := tri hK ha hb
  generalize uOf K α β = u at *
  generalize vOf K α β = v at *
  have hK0 := t.K0; have hm := t.am; have hp := t.ap
  have h2 : (u*u - v*v) = (u - v)*(u + v) := by ring
  refine ⟨?_, ?_, ?_⟩
  · simp only [PT.F2, PTSpec.F2, t.cos, t.hna, t.hnb, h2]; field_simp; ring
  · simp only [PT.G2, PTSpec.G2, t.cos, t.hna, t.hnb, h2]; field_simp; ring
  · simp only [PT.S2, PTSpec.S2, t.cos, h2]; field_simp; ring

theorem sq_sqrt_mu {μ : ℝ} (hμ : μ^2 ≤ 1) : (Real.sqrt (1 - μ^2))^2 = 1 - μ^2 := Real.sq_sqrt (by linarith)

/-- One line-of-sight velocity: the coefficient of `μ` is `k11`. -/
theorem C93_velocity_kernel (hK : 0 < K) (ha : α^2 + β^2 ≠ 0) (hb : (K - α)^2 + β^2 ≠ 0) (μ : ℝ) :
    avg (fun φ => va K α β μ φ) = PT.k11 (uOf K α β) (vOf K α β) * μ := by
  have t := tri hK ha hb
  generalize uOf K α β = u at *
  generalize vOf K α β = v at *
  have hK0 := t.K0; have hm := t.am; have hp := t.ap
  have e : (fun φ => va K α β μ φ) = fun φ => (K*α*μ/(α^2+β^2)) + (K*β*√(1-μ^2)/(α^2+β^2))*cos φ + 0*cos φ^2 + 0*cos φ^3 + 0*cos φ^4 := by
    funext φ; simp only [va, an]; field_simp; ring
  rw [e, avg_poly, t.a2, t.hα]
  simp only [PT.k11]; field_simp; ring

/-- Two velocities of the mode `a`: the coefficients of `1` and `μ²` are `h01` and `h02`. -/
theorem C93_vvdd_kernel (hK : 0 < K) (ha : α^2 + β^2 ≠ 0) (hb : (K - α)^2 + β^2 ≠ 0) {μ : ℝ} (hμ : μ^2 ≤ 1) :
    avg (fun φ => va K α β μ φ ^ 2) = PT.h01 (uOf K α β) (vOf K α β) + PT.h02 (uOf K α β) (vOf K α β) * μ^2 := by
  have t := tri hK ha hb
  generalize uOf K α β = u at *
  generalize vOf K α β = v at *
  have hK0 := t.K0; have hm := t.am; have hp := t.ap
  have e : (fun φ => va K α β μ φ ^ 2) = fun φ => (K*α*μ/(α^2+β^2))^2 + (2*K^2*α*μ*β*√(1-μ^2)/(α^2+β^2)^2)*cos φ
      + (K^2*β^2*√(1-μ^2)^2/(α^2+β^2)^2)*cos φ^2 + 0*cos φ^3 + 0*cos φ^4 := by
    funext φ; simp only [va, an]; field_simp; ring
  rw [e, avg_poly, t.a2, t.hα, t.hβ, sq_sqrt_mu hμ]
  simp only [PT.h01, PT.h02]; field_simp; ring

/-- A velocity of each mode: the coefficients of `1` and `μ²` are `h03` and `h04`. -/
theorem C93_dvdv_kernel (hK : 0 < K) (ha : α^2 + β^2 ≠ 0) (hb : (K - α)^2 + β^2 ≠ 0) {μ : ℝ} (hμ : μ^2 ≤ 1) :
    avg (fun φ => va K α β μ φ * vb K α β μ φ) = PT.h03 (uOf K α β) (vOf K α β) + PT.h04 (uOf K α β) (vOf K α β) * μ^2 := by
  have t := tri hK ha hb
  generalize uOf K α β = u at *
  generalize vOf K α β = v at *
  have hK0 := t.K0; have hm := t.am; have hp := t.ap
  have h2 : (u*u - v*v) = (u - v)*(u + v) := by ring
  have e : (fun φ => va K α β μ φ * vb K α β μ φ) = fun φ => (K^2*α*(K-α)*μ^2/((α^2+β^2)*((K-α)^2+β^2)))
      + (K^2*β*√(1-μ^2)*μ*((K-α) - α)/((α^2+β^2)*((K-α)^2+β^2)))*cos φ
      + (-(K^2*β^2*√(1-μ^2)^2/((α^2+β^2)*((K-α)^2+β^2))))*cos φ^2 + 0*cos φ^3 + 0*cos φ^4 := by
    funext φ; simp only [va, vb, an, bn]; field_simp; ring
  rw [e, avg_poly, t.a2, t.b2, t.hα, t.hβ, sq_sqrt_mu hμ]
  simp only [PT.h03, PT.h04, h2]; field_simp; ring

/-- Two velocities of each mode: the coefficients of `1`, `μ²` and `μ⁴` are `f23`, `2 f32` and `f33`, up to the common factor 8. -/
theorem C93_vvvv_kernel (hK : 0 < K) (ha : α^2 + β^2 ≠ 0) (hb : (K - α)^2 + β^2 ≠ 0) {μ : ℝ} (hμ : μ^2 ≤ 1) :
    8 * avg (fun φ => (va K α β μ φ * vb K α β μ φ)^2) =
      PT.f23 (uOf K α β) (vOf K α β) + 2 * PT.f32 (uOf K α β) (vOf K α β) * μ^2 + PT.f33 (uOf K α β) (vOf K α β) * μ^4 := by
  have t := tri hK ha hb
  generalize uOf K α β = u at *
  generalize vOf K α β = v at *
  have hK0 := t.K0; have hm := t.am; have hp := t.ap
  have h2 : (u*u - v*v) = (u - v)*(u + v) := by ring
  set D := (α^2+β^2)*((K-α)^2+β^2) with hD
  have e : (fun φ => (va K α β μ φ * vb K α β μ φ)^2) = fun φ => (K^2*α*(K-α)*μ^2/D)^2
      + (2*(K^2*α*(K-α)*μ^2/D)*(K^2*β*√(1-μ^2)*μ*((K-α) - α)/D))*cos φ
      + ((K^2/D)^2*(β^2*√(1-μ^2)^2*μ^2*((K-α) - α)^2 - 2*α*(K-α)*μ^2*(β^2*√(1-μ^2)^2)))*cos φ^2
      + (-2*(K^2*β*√(1-μ^2)*μ*((K-α) - α)/D)*(K^2*β^2*√(1-μ^2)^2/D))*cos φ^3
      + ((K^2/D)^2*((β^2)^2*(√(1-μ^2)^2)^2))*cos φ^4 := by
    funext φ; simp only [va, vb, an, bn, hD]; field_simp; ring
  rw [e, avg_poly, hD, t.a2, t.b2, t.hα, t.hβ, sq_sqrt_mu hμ]
  simp only [PT.f23, PT.f32, PT.f33, h2]; field_simp; ring

/-- Two velocities of `a` and one of `b`: the coefficients of `μ` and `μ³` are `f03` and `f30`, up to the common factor -2. -/
theorem C93_vvdv_kernel (hK : 0 < K) (ha : α^2 + β^2 ≠ 0) (hb : (K - α)^2 + β^2 ≠ 0) {μ : ℝ} (hμ : μ^2 ≤ 1) :
    -2 * avg (fun φ => va K α β μ φ ^ 2 * vb K α β μ φ) =
      PT.f03 (uOf K α β) (vOf K α β) * μ + PT.f30 (uOf K α β) (vOf K α β) * μ^3 := by
  have t := tri hK ha hb
  generalize uOf K α β = u at *
  generalize vOf K α β = v at *
  have hK0 := t.K0; have hm := t.am; have hp := t.ap
  have e : (fun φ => va K α β μ φ ^ 2 * vb K α β μ φ) = fun φ => ((K*α*μ/(α^2+β^2))^2*(K*(K-α)*μ/((K-α)^2+β^2)))
      + (K^3*(2*α*μ*β*√(1-μ^2)*(K-α)*μ - (α*μ)^2*(β*√(1-μ^2)))/((α^2+β^2)^2*((K-α)^2+β^2)))*cos φ
      + (K^3*(β^2*√(1-μ^2)^2*((K-α)*μ) - 2*α*μ*(β^2*√(1-μ^2)^2))/((α^2+β^2)^2*((K-α)^2+β^2)))*cos φ^2
      + (-(K^3*β^3*√(1-μ^2)^3/((α^2+β^2)^2*((K-α)^2+β^2))))*cos φ^3 + 0*cos φ^4 := by
    funext φ; simp only [va, vb, an, bn]; field_simp; ring
  rw [e, avg_poly, t.a2, t.b2, t.hα, t.hβ, sq_sqrt_mu hμ]
  simp only [PT.f03, PT.f30]; field_simp; ring

/-- The other kernels are products of the ones above: with `F2` or `G2` for a second-order density or velocity, and the averages for the velocities. -/
theorem C93_product_kernels (u v : ℝ) (hm : u - v ≠ 0) (hp : u + v ≠ 0) :
    PT.f00 u v = PT.F2 u v ^ 2 ∧ PT.f01 u v = PT.F2 u v * PT.G2 u v ∧ PT.f11 u v = PT.G2 u v ^ 2 ∧
    PT.f10 u v = PT.F2 u v * PT.k11 u v ∧ PT.f22 u v = PT.G2 u v * PT.k11 u v ∧
    PT.f02 u v = 2 * PT.F2 u v * PT.h03 u v ∧ PT.f20 u v = 2 * PT.F2 u v * PT.h04 u v ∧
    PT.f12 u v = 2 * PT.G2 u v * PT.h03 u v ∧ PT.f21 u v = 2 * PT.G2 u v * PT.h04 u v ∧
    PT.f31 u v = PT.h01 u v + PT.h03 u v ∧ PT.f13 u v = PT.h02 u v + PT.h04 u v := by
  have h2 : (u*u - v*v) = (u - v)*(u + v) := by ring
  refine ⟨?_, ?_, ?_, ?_, ?_, ?_, ?_, ?_, ?_, ?_, ?_⟩ <;>
    (simp only [PT.f00, PT.f01, PT.f11, PT.f10, PT.f22, PT.f02, PT.f20, PT.f12, PT.f21, PT.f31, PT.f13, PT.F2, PT.G2, PT.k11, PT.h01, PT.h02, PT.h03, PT.h04, h2]
     field_simp; ring)

/-- The hypotheses are met, and the kernels are not trivial: the right triangle with sides 3, 4, 5. -/
example : (0:ℝ) < 5 ∧ ((9/5:ℝ))^2 + (12/5)^2 ≠ 0 ∧ ((5:ℝ) - 9/5)^2 + (12/5)^2 ≠ 0 ∧ PT.F2 (uOf 5 (9/5) (12/5)) (vOf 5 (9/5) (12/5)) = 5/7 := by
  refine ⟨by norm_num, by norm_num, by norm_num, ?_⟩
  rw [(C93_second_order_kernels (by norm_num) (by norm_num) (by norm_num)).1]
  simp only [PTSpec.F2, cosab, dot]
  norm_num

end Verif.PT
