/-
The kernels of the Zel'dovich integrals.
-/
import Verif.Model.ZelIntegrals
import Verif.Spec.ZelPower
import Verif.Lemmas.ZelSeries
import Verif.Props.Xi

namespace Verif.Hzpt

open Verif.Xi Verif.ZelPower intervalIntegral Real MeasureTheory

noncomputable section

theorem sph_one_poisson {x : ℝ} (hx : x ≠ 0) : sph 1 x / x = 1 / 4 * poisson 1 x := by
  rw [sph_poisson hx]; norm_num; field_simp

theorem sph_zero_poisson {x : ℝ} (hx : x ≠ 0) : sph 0 x = 1 / 2 * poisson 0 x := by
  rw [sph_poisson hx]; norm_num

theorem int_one_sub_sq : ∫ t in (-1:ℝ)..1, (1 - t ^ 2) = 4 / 3 := by
  rw [integral_sub (by simp) (Continuous.intervalIntegrable (by fun_prop) _ _)]
  simp; norm_num

/-- `2 j₁(x)/x ≤ 2/3` -/
theorem poisson_one_le (x : ℝ) : |poisson 1 x| ≤ 4 / 3 := by
  rw [← Real.norm_eq_abs, poisson, ← int_one_sub_sq]
  refine norm_integral_le_of_norm_le (by norm_num) (Filter.Eventually.of_forall fun t ht => ?_) (Continuous.intervalIntegrable (by fun_prop) _ _)
  have h0 : 0 ≤ 1 - t ^ 2 := by nlinarith [ht.1, ht.2]
  rw [norm_mul, pow_one, Real.norm_eq_abs, Real.norm_eq_abs, abs_of_nonneg h0]
  exact mul_le_of_le_one_right h0 (abs_cos_le_one _)

theorem poisson_zero_le (x : ℝ) : |poisson 0 x| ≤ 2 := by
  rw [← Real.norm_eq_abs, poisson]
  have := norm_integral_le_of_norm_le_const (a := (-1:ℝ)) (b := 1) (f := fun t : ℝ => (1 - t ^ 2) ^ 0 * cos (t * x)) (C := 1) (fun t _ => by
    rw [pow_zero, one_mul, Real.norm_eq_abs]; exact abs_cos_le_one _)
  norm_num at this ⊢
  exact this

/-- the second moment of the wave -/
theorem poisson_sub (x : ℝ) : poisson 0 x - poisson 1 x = ∫ t in (-1:ℝ)..1, t ^ 2 * cos (t * x) := by
  unfold poisson
  rw [← integral_sub (Continuous.intervalIntegrable (by fun_prop) _ _) (Continuous.intervalIntegrable (by fun_prop) _ _)]
  congr 1; funext t; ring

theorem poisson_sub_le (x : ℝ) : poisson 0 x - poisson 1 x ≤ 2 / 3 := by
  rw [poisson_sub]
  have h : ∫ t in (-1:ℝ)..1, t ^ 2 = 2 / 3 := by simp; norm_num
  rw [← h]
  refine integral_mono_on (by norm_num) (Continuous.intervalIntegrable (by fun_prop) _ _) (Continuous.intervalIntegrable (by fun_prop) _ _) fun t _ => ?_
  exact mul_le_of_le_one_right (sq_nonneg t) (cos_le_one _)

/-! ### the kernels of the code -/

theorem besselJ0_far {x : ℝ} (h : 1 / 10 ^ 4 ≤ |x|) : besselJ0 x = sph 0 x := far_zero (not_lt.2 h)
theorem besselJ1_far {x : ℝ} (h : 1 / 10 ^ 4 ≤ |x|) : besselJ1 x = sph 1 x := far_one (not_lt.2 h)

theorem besselJ1_close {x : ℝ} (hx : 0 < x) : |besselJ1 x / x - sph 1 x / x| ≤ 1 / 10 ^ 19 / 3 := by
  have h := (C110_bessel (l := 1) (f := besselJ1) rfl x).2
  rw [← sub_div, abs_div, abs_of_pos hx, div_le_iff₀ hx]
  rw [abs_of_pos hx] at h
  norm_num [Nat.doubleFactorial] at h ⊢
  linarith

theorem besselJ0_close (x : ℝ) : |besselJ0 x - sph 0 x| ≤ 1 / 10 ^ 19 := by
  have h := (C110_bessel (l := 0) (f := besselJ0) rfl x).2
  norm_num [Nat.doubleFactorial] at h ⊢
  linarith

theorem xKernel_close {x : ℝ} (hx : 0 < x) : |xKernel x - -2 * (sph 1 x / x)| ≤ 1 / 10 ^ 19 := by
  have h := besselJ1_close hx
  unfold xKernel
  rw [show -2 * besselJ1 x / x - -2 * (sph 1 x / x) = -2 * (besselJ1 x / x - sph 1 x / x) by ring, abs_mul]
  norm_num at h ⊢
  linarith

theorem yKernel_close {x : ℝ} (hx : 0 < x) : |yKernel x - (-2 * sph 0 x + 6 * (sph 1 x / x))| ≤ 4 / 10 ^ 19 := by
  have h := besselJ1_close hx
  have h0 := besselJ0_close x
  unfold yKernel
  rw [show -2 * besselJ0 x + 6 * besselJ1 x / x - (-2 * sph 0 x + 6 * (sph 1 x / x)) = -2 * (besselJ0 x - sph 0 x) + 6 * (besselJ1 x / x - sph 1 x / x) by ring]
  refine (abs_add_le _ _).trans ?_
  rw [abs_mul, abs_mul]
  norm_num at h h0 ⊢
  linarith

theorem xKernel_bound {x : ℝ} (hx : 0 < x) : |xKernel x| ≤ 1 := by
  have h := xKernel_close hx
  have hp := poisson_one_le x
  rw [sph_one_poisson hx.ne'] at h
  rw [abs_le] at *
  norm_num at h ⊢
  constructor <;> linarith [h.1, h.2, hp.1, hp.2]

theorem yKernel_bound {x : ℝ} (hx : 0 < x) : |yKernel x| ≤ 5 := by
  have h := yKernel_close hx
  have hp := poisson_one_le x
  have hq := poisson_zero_le x
  rw [sph_one_poisson hx.ne', sph_zero_poisson hx.ne'] at h
  rw [abs_le] at *
  norm_num at h ⊢
  constructor <;> linarith [h.1, h.2, hp.1, hp.2, hq.1, hq.2]

/-- the variance across the separation is not negative -/
theorem xKernel_pos {x : ℝ} (hx : 0 < x) : 0 ≤ 2 / 3 + xKernel x := by
  by_cases h : 1 / 10 ^ 4 ≤ |x|
  · unfold xKernel
    rw [besselJ1_far h, mul_div_assoc, sph_one_poisson hx.ne']
    have := (abs_le.1 (poisson_one_le x)).2
    linarith
  · rw [not_le] at h
    unfold xKernel besselJ1
    rw [if_pos h]
    rw [abs_of_pos hx] at h
    have e : 2 / 3 + -2 * (x / 3 - x ^ 3 / 30 + x ^ 5 / 840 - x ^ 7 / 45360) / x = x ^ 2 / 15 - x ^ 4 / 420 + x ^ 6 / 22680 := by field_simp; ring
    rw [e]
    have h1 : x ^ 2 ≤ 1 := by nlinarith
    have h2 : x ^ 4 ≤ x ^ 2 := by nlinarith [sq_nonneg x]
    nlinarith [pow_pos hx 6, sq_nonneg x]

/-- the variance along the separation is not negative -/
theorem xyKernel_pos {x : ℝ} (hx : 0 < x) : 0 ≤ 2 / 3 + (xKernel x + yKernel x) := by
  by_cases h : 1 / 10 ^ 4 ≤ |x|
  · unfold xKernel yKernel
    rw [besselJ1_far h, besselJ0_far h, mul_div_assoc, mul_div_assoc, sph_one_poisson hx.ne', sph_zero_poisson hx.ne']
    have := poisson_sub_le x
    linarith
  · rw [not_le] at h
    unfold xKernel yKernel besselJ1 besselJ0
    rw [if_pos h, if_pos h]
    rw [abs_of_pos hx] at h
    have e : 2 / 3 + (-2 * (x / 3 - x ^ 3 / 30 + x ^ 5 / 840 - x ^ 7 / 45360) / x + (-2 * (1 - x ^ 2 / 6 + x ^ 4 / 120 - x ^ 6 / 5040) + 6 * (x / 3 - x ^ 3 / 30 + x ^ 5 / 840 - x ^ 7 / 45360) / x)) =
      x ^ 2 / 5 - x ^ 4 / 84 + x ^ 6 / 3240 := by field_simp; ring
    rw [e]
    have h1 : x ^ 2 ≤ 1 := by nlinarith
    have h2 : x ^ 4 ≤ x ^ 2 := by nlinarith [sq_nonneg x]
    nlinarith [pow_pos hx 6, sq_nonneg x]

theorem besselJ1_meas : Measurable besselJ1 := by
  unfold besselJ1
  refine Measurable.ite (measurableSet_lt (by fun_prop) (by fun_prop)) (by fun_prop) (by fun_prop)

theorem besselJ0_meas : Measurable besselJ0 := by
  unfold besselJ0
  refine Measurable.ite (measurableSet_lt (by fun_prop) (by fun_prop)) (by fun_prop) (by fun_prop)

theorem xKernel_meas : Measurable xKernel := by
  have := besselJ1_meas
  unfold xKernel; fun_prop

theorem yKernel_meas : Measurable yKernel := by
  have := besselJ1_meas
  have := besselJ0_meas
  unfold yKernel; fun_prop

theorem qlo_le : qlo ≤ qhi := by norm_num [qlo, qhi]
theorem qlo_pos : 0 < qlo := by norm_num [qlo]

/-- products with a bounded kernel -/
theorem mul_kernel_int {P : ℝ → ℝ} (hP : IntervalIntegrable P volume qlo qhi) {K : ℝ → ℝ} (hK : Measurable K) {C r : ℝ} (hr : 0 < r) (hb : ∀ x, 0 < x → |K x| ≤ C) :
    IntervalIntegrable (fun q => P q * K (r * q)) volume qlo qhi := by
  rw [intervalIntegrable_iff_integrableOn_Ioc_of_le qlo_le] at hP ⊢
  have h := Integrable.bdd_mul (f := fun q => K (r * q)) (c := C) hP (hK.comp (measurable_const_mul r)).aestronglyMeasurable (by
    refine (ae_restrict_iff' measurableSet_Ioc).2 (Filter.Eventually.of_forall fun q hq => ?_)
    exact hb _ (mul_pos hr (qlo_pos.trans hq.1)))
  refine h.congr (Filter.Eventually.of_forall fun q => ?_)
  simp [mul_comm]

/-- the mean over the sky of the square of the cosine -/
theorem skyMean_sq (x : ℝ) {ν : ℝ} (hν : |ν| ≤ 1) : skyMean (fun c => c ^ 2) x ν = 1 / 4 * poisson 1 x + ν ^ 2 * (1 / 2 * poisson 0 x - 3 / 4 * poisson 1 x) := by
  have hν2 : 0 ≤ 1 - ν ^ 2 := by nlinarith [abs_le.1 hν]
  have inner : ∀ μ : ℝ, |μ| ≤ 1 → 1 / (2 * π) * ∫ φ in (0:ℝ)..(2 * π), (μ * ν + √(1 - μ ^ 2) * √(1 - ν ^ 2) * cos φ) ^ 2 = μ ^ 2 * ν ^ 2 + 1 / 2 * ((1 - μ ^ 2) * (1 - ν ^ 2)) := by
    intro μ hμ
    have hμ2 : 0 ≤ 1 - μ ^ 2 := by nlinarith [abs_le.1 hμ]
    have e : ∀ φ : ℝ, (μ * ν + √(1 - μ ^ 2) * √(1 - ν ^ 2) * cos φ) ^ 2 = μ ^ 2 * ν ^ 2 + 2 * (μ * ν * (√(1 - μ ^ 2) * √(1 - ν ^ 2))) * cos φ + ((1 - μ ^ 2) * (1 - ν ^ 2)) * cos φ ^ 2 := by
      intro φ
      have h1 := Real.sq_sqrt hμ2
      have h2 := Real.sq_sqrt hν2
      calc _ = μ ^ 2 * ν ^ 2 + 2 * (μ * ν * (√(1 - μ ^ 2) * √(1 - ν ^ 2))) * cos φ + (√(1 - μ ^ 2) ^ 2 * √(1 - ν ^ 2) ^ 2) * cos φ ^ 2 := by ring
        _ = _ := by rw [h1, h2]
    simp_rw [e]
    rw [integral_add (Continuous.intervalIntegrable (by fun_prop) _ _) (Continuous.intervalIntegrable (by fun_prop) _ _), integral_add (Continuous.intervalIntegrable (by fun_prop) _ _) (Continuous.intervalIntegrable (by fun_prop) _ _),
      intervalIntegral.integral_const_mul (2 * (μ * ν * (√(1 - μ ^ 2) * √(1 - ν ^ 2)))), intervalIntegral.integral_const_mul ((1 - μ ^ 2) * (1 - ν ^ 2)), integral_cos, integral_cos_sq]
    have hpi := Real.pi_pos.ne'
    simp
    field_simp
  unfold skyMean
  have e : ∫ μ in (-1:ℝ)..1, cos (x * μ) * (1 / (2 * π) * ∫ φ in (0:ℝ)..(2 * π), (μ * ν + √(1 - μ ^ 2) * √(1 - ν ^ 2) * cos φ) ^ 2) =
      ∫ μ in (-1:ℝ)..1, (ν ^ 2 * ((1 - μ ^ 2) ^ 0 * cos (μ * x)) + (1 / 2 - 3 / 2 * ν ^ 2) * ((1 - μ ^ 2) ^ 1 * cos (μ * x))) := by
    refine integral_congr fun μ hμ => ?_
    rw [Set.uIcc_of_le (by norm_num)] at hμ
    rw [inner μ (abs_le.2 ⟨hμ.1, hμ.2⟩), mul_comm x μ]
    ring
  rw [e, integral_add (Continuous.intervalIntegrable (by fun_prop) _ _) (Continuous.intervalIntegrable (by fun_prop) _ _), intervalIntegral.integral_const_mul, intervalIntegral.integral_const_mul]
  change 1 / 2 * (ν ^ 2 * poisson 0 x + (1 / 2 - 3 / 2 * ν ^ 2) * poisson 1 x) = _
  ring

end
end Verif.Hzpt
