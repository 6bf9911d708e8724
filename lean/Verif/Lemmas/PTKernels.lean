/- Lemmas for C93: geometry of the triangle in elliptic coordinates, azimuthal averages of polynomials in the cosine. -/
import Verif.Model.PTKernels
import Verif.Spec.PT
import Mathlib.Tactic.FieldSimp
import Mathlib.Tactic.Positivity
import Mathlib.Tactic.LinearCombination

namespace Verif.PT

open Verif.PTSpec Real

theorem integral_cos2 : ∫ φ in (0:ℝ)..(2*π), cos φ ^ 2 = π := by
  rw [integral_cos_sq]; simp

theorem integral_cos3 : ∫ φ in (0:ℝ)..(2*π), cos φ ^ 3 = 0 := by
  rw [integral_cos_pow]; simp

theorem integral_cos4 : ∫ φ in (0:ℝ)..(2*π), cos φ ^ 4 = 3*π/4 := by
  rw [integral_cos_pow, integral_cos_sq]; simp; ring

theorem avg_poly (c0 c1 c2 c3 c4 : ℝ) :
    avg (fun φ => c0 + c1*cos φ + c2*cos φ^2 + c3*cos φ^3 + c4*cos φ^4) = c0 + c2/2 + 3*c4/8 := by
  have hc : ∀ n : ℕ, ∀ c : ℝ, IntervalIntegrable (fun φ => c * cos φ^n) MeasureTheory.volume 0 (2*π) := fun n c =>
    (continuous_const.mul (continuous_cos.pow n)).intervalIntegrable _ _
  have h0 : IntervalIntegrable (fun _ : ℝ => c0) MeasureTheory.volume 0 (2*π) := continuous_const.intervalIntegrable _ _
  have h1 : IntervalIntegrable (fun φ => c1 * cos φ) MeasureTheory.volume 0 (2*π) := by simpa using hc 1 c1
  unfold avg
  rw [intervalIntegral.integral_add (((h0.add h1).add (hc 2 c2)).add (hc 3 c3)) (hc 4 c4),
    intervalIntegral.integral_add ((h0.add h1).add (hc 2 c2)) (hc 3 c3),
    intervalIntegral.integral_add (h0.add h1) (hc 2 c2), intervalIntegral.integral_add h0 h1]
  simp only [intervalIntegral.integral_const_mul, integral_cos2, integral_cos3, integral_cos4, integral_cos, intervalIntegral.integral_const]
  have := pi_pos.ne'
  simp
  field_simp
  ring

/-- What the kernels need to know about a triangle: its sides in terms of the elliptic coordinates. -/
structure Tri (K α β u v : ℝ) : Prop where
  K0 : K ≠ 0
  am : u - v ≠ 0
  ap : u + v ≠ 0
  hα : α = K*(1 - u*v)/2
  hβ : β^2 = K^2/4*((u^2 - 1)*(1 - v^2))
  hna : na α β = K*(u - v)/2
  hnb : nb K α β = K*(u + v)/2

theorem tri {K α β : ℝ} (hK : 0 < K) (ha : α^2 + β^2 ≠ 0) (hb : (K - α)^2 + β^2 ≠ 0) :
    Tri K α β (uOf K α β) (vOf K α β) := by
  have hA : 0 < na α β := Real.sqrt_pos.2 (lt_of_le_of_ne (by positivity) (Ne.symm ha))
  have hB : 0 < nb K α β := Real.sqrt_pos.2 (lt_of_le_of_ne (by positivity) (Ne.symm hb))
  have sA : (na α β)^2 = α^2 + β^2 := Real.sq_sqrt (by positivity)
  have sB : (nb K α β)^2 = (K - α)^2 + β^2 := Real.sq_sqrt (by positivity)
  have hK0 := hK.ne'
  have huv : uOf K α β - vOf K α β = 2*na α β/K := by unfold uOf vOf; ring
  have huv' : uOf K α β + vOf K α β = 2*nb K α β/K := by unfold uOf vOf; ring
  refine ⟨hK0, ?_, ?_, ?_, ?_, ?_, ?_⟩
  · rw [huv]; positivity
  · rw [huv']; positivity
  · unfold uOf vOf; field_simp; linear_combination (-1)*sA + sB
  · unfold uOf vOf
    have hα : α = (K^2 + (na α β)^2 - (nb K α β)^2)/(2*K) := by field_simp; rw [sA, sB]; ring
    have hβ : β^2 = (na α β)^2 - ((K^2 + (na α β)^2 - (nb K α β)^2)/(2*K))^2 := by rw [← hα]; linear_combination -sA
    rw [hβ]; field_simp; ring
  · rw [huv]; field_simp
  · rw [huv']; field_simp

variable {K α β u v : ℝ}

theorem Tri.a2 (t : Tri K α β u v) : α^2 + β^2 = (K*(u - v)/2)^2 := by
  rw [t.hβ, t.hα]; ring
theorem Tri.b2 (t : Tri K α β u v) : (K - α)^2 + β^2 = (K*(u + v)/2)^2 := by
  rw [t.hβ, t.hα]; ring
theorem Tri.dot (t : Tri K α β u v) : PTSpec.dot K α β = K^2*(2 - u^2 - v^2)/4 := by
  unfold PTSpec.dot; rw [t.hβ, t.hα]; ring
theorem Tri.cos (t : Tri K α β u v) : cosab K α β = (2 - u^2 - v^2)/((u - v)*(u + v)) := by
  have := t.K0; have := t.am; have := t.ap
  unfold cosab; rw [t.dot, t.hna, t.hnb]; field_simp; ring
theorem Tri.uv2 (t : Tri K α β u v) : u*u - v*v ≠ 0 := by
  rw [show u*u - v*v = (u - v)*(u + v) by ring]; exact mul_ne_zero t.am t.ap

end Verif.PT
