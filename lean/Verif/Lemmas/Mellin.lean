/-
Lemmas for C111: the Mellin transform of the spherical Bessel functions.
-/
import Verif.Lemmas.Xi
import Mathlib.Analysis.SpecialFunctions.Gamma.Beta
import Mathlib.Analysis.SpecialFunctions.Gaussian.GaussianIntegral
import Mathlib.MeasureTheory.Integral.IntegralEqImproper
import Mathlib.MeasureTheory.Integral.Prod
import Mathlib.Analysis.Calculus.ParametricIntegral

namespace Verif.Xi

open MeasureTheory Set Filter Topology Complex Verif.Legendre

/-! ### the integral of Euler along a ray -/

theorem pow_exp_integrable {s : ℝ} (hs : -1 < s) {ε : ℝ} (hε : 0 < ε) : IntegrableOn (fun t : ℝ => t^s * Real.exp (-ε*t)) (Ioi 0) := by
  have := integrableOn_rpow_mul_exp_neg_mul_rpow hs one_pos hε
  simpa only [Real.rpow_one] using this

theorem ray_norm {z : ℂ} {ε u t : ℝ} (ht : 0 < t) : ‖(t:ℂ)^z * cexp (-((ε - I*u)*t))‖ = t^z.re * Real.exp (-ε*t) := by
  rw [norm_mul, norm_cpow_eq_rpow_re_of_pos ht, Complex.norm_exp]
  congr 2
  simp

theorem ray_meas (z : ℂ) (r : ℂ) : AEStronglyMeasurable (fun t : ℝ => (t:ℂ)^z * cexp (-(r*t))) (volume.restrict (Ioi 0)) := by
  refine ContinuousOn.aestronglyMeasurable (fun t ht => ?_) measurableSet_Ioi
  refine ContinuousAt.continuousWithinAt (ContinuousAt.mul ?_ (by fun_prop))
  exact ContinuousAt.cpow (by fun_prop) continuousAt_const (Or.inl ht)

theorem ray_integrable {z : ℂ} (hz : -1 < z.re) {ε : ℝ} (hε : 0 < ε) (u : ℝ) : IntegrableOn (fun t : ℝ => (t:ℂ)^z * cexp (-((ε - I*u)*t))) (Ioi 0) := by
  refine Integrable.mono' (pow_exp_integrable hz hε) (ray_meas _ _) ?_
  filter_upwards [ae_restrict_mem measurableSet_Ioi] with t ht
  rw [ray_norm ht]

theorem ray_parts {z : ℂ} (hz : 0 < z.re) {ε : ℝ} (hε : 0 < ε) (u : ℝ) :
    (ε - I*u) * ∫ t in Ioi (0:ℝ), (t:ℂ)^z * cexp (-((ε - I*u)*t)) = z * ∫ t in Ioi (0:ℝ), (t:ℂ)^(z-1) * cexp (-((ε - I*u)*t)) := by
  have i1 := ray_integrable (z := z) (by linarith) hε u
  have i2 := ray_integrable (z := z - 1) (by simp; linarith) hε u
  have hz0 : z ≠ 0 := by rintro rfl; simp at hz
  have key := integral_Ioi_of_hasDerivAt_of_tendsto (a := (0:ℝ)) (m := (0:ℂ)) (f := fun t : ℝ => (t:ℂ)^z * cexp (-((ε - I*u)*t)))
    (f' := fun t : ℝ => z*((t:ℂ)^(z-1) * cexp (-((ε - I*u)*t))) - (ε - I*u)*((t:ℂ)^z * cexp (-((ε - I*u)*t)))) ?_ ?_ ((i2.const_mul z).sub (i1.const_mul (ε - I*u))) ?_
  · rw [integral_sub (i2.const_mul z) (i1.const_mul (ε - I*u)), integral_const_mul, integral_const_mul] at key
    simp only [ofReal_zero, zero_cpow hz0, zero_mul, sub_zero] at key
    linear_combination (-1)*key
  · refine ContinuousWithinAt.mul ?_ (by fun_prop)
    exact (Complex.continuousAt_ofReal_cpow_const 0 z (Or.inl hz)).continuousWithinAt
  · intro t ht
    have h1 : HasDerivAt (fun t : ℝ => (t:ℂ)^z) (z*(t:ℂ)^(z-1)) t := by
      have := (hasDerivAt_ofReal_cpow_const' (x := t) (ne_of_gt ht) (r := z - 1) (by intro h; apply hz0; linear_combination h)).const_mul z
      simp only [sub_add_cancel] at this
      refine this.congr_of_eventuallyEq (Eventually.of_forall fun s => ?_)
      field_simp
    have h2 : HasDerivAt (fun t : ℝ => cexp (-((ε - I*u)*t))) (cexp (-((ε - I*u)*t))*(-((ε - I*u)*1))) t :=
      (((hasDerivAt_id t).ofReal_comp.const_mul (ε - I*u)).neg).cexp
    refine (h1.mul h2).congr_deriv ?_
    ring
  · rw [tendsto_zero_iff_norm_tendsto_zero]
    have := (tendsto_rpow_mul_exp_neg_mul_atTop_nhds_zero z.re ε hε)
    refine this.congr' ?_
    filter_upwards [eventually_gt_atTop 0] with t ht
    rw [ray_norm ht]

theorem ray_deriv {z : ℂ} (hz : 0 < z.re) {ε : ℝ} (hε : 0 < ε) (u : ℝ) :
    HasDerivAt (fun u : ℝ => ∫ t in Ioi (0:ℝ), (t:ℂ)^(z-1) * cexp (-((ε - I*u)*t))) (I * ∫ t in Ioi (0:ℝ), (t:ℂ)^z * cexp (-((ε - I*u)*t))) u := by
  have key := hasDerivAt_integral_of_dominated_loc_of_deriv_le (μ := volume.restrict (Ioi (0:ℝ))) (F := fun (u : ℝ) (t : ℝ) => (t:ℂ)^(z-1) * cexp (-((ε - I*u)*t)))
    (F' := fun (u : ℝ) (t : ℝ) => I*((t:ℂ)^z * cexp (-((ε - I*u)*t)))) (x₀ := u) (s := univ) (bound := fun t => t^z.re * Real.exp (-ε*t)) univ_mem
    (Eventually.of_forall fun v => ray_meas _ _) (ray_integrable (z := z - 1) (by simp; linarith) hε u) ((ray_meas z _).const_mul I) ?_ (pow_exp_integrable (by linarith) hε) ?_
  · refine key.2.congr_deriv ?_
    rw [integral_const_mul]
  · filter_upwards [ae_restrict_mem measurableSet_Ioi] with t ht v _
    rw [norm_mul, norm_I, one_mul, ray_norm ht]
  · filter_upwards [ae_restrict_mem measurableSet_Ioi] with t ht v _
    have ht0 : (t:ℂ) ≠ 0 := by exact_mod_cast (ne_of_gt ht)
    have h2 : HasDerivAt (fun v : ℝ => cexp (-((ε - I*v)*t))) (cexp (-((ε - I*v)*t))*(-((-(I*1))*t))) v :=
      (((((hasDerivAt_id v).ofReal_comp.const_mul I).const_sub (ε:ℂ)).mul_const (t:ℂ)).neg).cexp
    refine (h2.const_mul ((t:ℂ)^(z-1))).congr_deriv ?_
    rw [cpow_sub _ _ ht0, cpow_one]
    field_simp

/-- the integral of Euler with a complex rate -/
theorem gamma_ray {z : ℂ} (hz : 0 < z.re) {ε : ℝ} (hε : 0 < ε) (u : ℝ) :
    ∫ t in Ioi (0:ℝ), (t:ℂ)^(z-1) * cexp (-((ε - I*u)*t)) = Gamma z/(ε - I*u)^z := by
  have hsl : ∀ v : ℝ, (ε - I*v : ℂ) ∈ slitPlane := fun v => Or.inl (by simpa using hε)
  have hne : ∀ v : ℝ, (ε - I*v : ℂ) ≠ 0 := fun v => slitPlane_ne_zero (hsl v)
  have hd : ∀ v : ℝ, HasDerivAt (fun v : ℝ => (ε - I*v : ℂ)^z * ∫ t in Ioi (0:ℝ), (t:ℂ)^(z-1) * cexp (-((ε - I*v)*t))) 0 v := by
    intro v
    have h1 : HasDerivAt (fun v : ℝ => (ε - I*v : ℂ)) (-(I*1)) v := ((hasDerivAt_id v).ofReal_comp.const_mul I).const_sub (ε:ℂ)
    have h2 : HasDerivAt (fun v : ℝ => (ε - I*v : ℂ)^z) (z*(ε - I*v : ℂ)^(z-1)*1*(-(I*1))) v :=
      HasDerivAt.comp v (h₂ := fun w : ℂ => w^z) (HasDerivAt.cpow_const (hasDerivAt_id (ε - I*v : ℂ)) (hsl v)) h1
    refine (h2.mul (ray_deriv hz hε v)).congr_deriv ?_
    have := ray_parts hz hε v
    rw [cpow_sub _ _ (hne v), cpow_one]
    have hn := hne v
    field_simp
    linear_combination (I*(ε - I*v : ℂ)^z)*this
  have hc := is_const_of_deriv_eq_zero (fun v => (hd v).differentiableAt) (fun v => (hd v).deriv) u 0
  have h0 : ∫ t in Ioi (0:ℝ), (t:ℂ)^(z-1) * cexp (-((ε - I*(0:ℝ))*t)) = (1/ε)^z * Gamma z := by
    have := integral_cpow_mul_exp_neg_mul_Ioi hz hε
    rw [← this]
    simp
  rw [h0] at hc
  have e : (ε - I*(0:ℝ) : ℂ)^z * ((1/ε)^z * Gamma z) = Gamma z := by
    have he : (ε:ℂ) ≠ 0 := by exact_mod_cast hε.ne'
    rw [ofReal_zero, mul_zero, sub_zero, ← mul_assoc, one_div, inv_cpow _ _ (by rw [arg_ofReal_of_nonneg hε.le]; exact Real.pi_pos.ne), mul_inv_cancel₀ (by rw [Ne, cpow_eq_zero_iff]; tauto), one_mul]
  rw [e] at hc
  rw [eq_div_iff (by rw [Ne, cpow_eq_zero_iff]; have := hne u; tauto), mul_comm]
  exact hc

/-! ### derivatives and bounds of the spherical Bessel functions -/

theorem sph_deriv (n : ℕ) {x : ℝ} (hx : x ≠ 0) : HasDerivAt (sph n) (n*sph n x/x - sph (n+1) x) x ∧ HasDerivAt (sph (n+1)) (sph n x - (n+2)*sph (n+1) x/x) x := by
  induction n with
  | zero =>
    constructor
    · have h : HasDerivAt (fun y => Real.sin y/y) ((Real.cos x*x - Real.sin x*1)/x^2) x := (Real.hasDerivAt_sin x).div (hasDerivAt_id x) hx
      refine (h.congr_of_eventuallyEq ?_).congr_deriv ?_
      · filter_upwards [isOpen_ne.mem_nhds hx] with y hy using sph_zero hy
      · rw [sph_zero hx, sph_one hx]; field_simp; push_cast; ring
    · have h : HasDerivAt (fun y => (Real.sin y - y*Real.cos y)/y^2) (((Real.cos x - (1*Real.cos x + x*(-Real.sin x)))*x^2 - (Real.sin x - x*Real.cos x)*(2*x))/(x^2)^2) x := by
        refine ((Real.hasDerivAt_sin x).sub ((hasDerivAt_id x).mul (Real.hasDerivAt_cos x))).div ?_ (by positivity)
        simpa using hasDerivAt_pow 2 x
      refine (h.congr_of_eventuallyEq ?_).congr_deriv ?_
      · filter_upwards [isOpen_ne.mem_nhds hx] with y hy using sph_one hy
      · rw [sph_zero hx, sph_one hx]; field_simp; push_cast; ring
  | succ n ih =>
    obtain ⟨h1, h2⟩ := ih
    have e2 := sph_next n hx
    refine ⟨h2.congr_deriv ?_, ?_⟩
    · rw [show n+1+1 = n+2 from rfl, e2]; push_cast; field_simp; ring
    · have h : HasDerivAt (fun y => (2*n+3)*sph (n+1) y/y - sph n y) (((2*n+3)*(sph n x - (n+2)*sph (n+1) x/x)*x - (2*n+3)*sph (n+1) x*1)/x^2 - (n*sph n x/x - sph (n+1) x)) x :=
        ((h2.const_mul _).div (hasDerivAt_id x) hx).sub h1
      refine (h.congr_of_eventuallyEq ?_).congr_deriv ?_
      · filter_upwards [isOpen_ne.mem_nhds hx] with y hy using sph_next n hy
      · rw [show n+1+1 = n+2 from rfl, e2]; push_cast; field_simp; ring

theorem sph_far (n : ℕ) : (∃ C, ∀ x, 1 ≤ x → |sph n x| ≤ C/x) ∧ ∃ C, ∀ x, 1 ≤ x → |sph (n+1) x| ≤ C/x := by
  induction n with
  | zero =>
    constructor
    · refine ⟨1, fun x hx => ?_⟩
      rw [sph_zero (by linarith), abs_div, abs_of_pos (by linarith : 0 < x)]
      have := Real.abs_sin_le_one x
      gcongr
    · refine ⟨2, fun x hx => ?_⟩
      have hx0 : 0 < x := by linarith
      rw [sph_one hx0.ne', abs_div, abs_of_pos (by positivity : 0 < x^2), div_le_div_iff₀ (by positivity) hx0]
      have h1 : |Real.sin x - x*Real.cos x| ≤ 1 + x := by
        refine (abs_sub _ _).trans ?_
        rw [abs_mul, abs_of_pos hx0]
        have := Real.abs_sin_le_one x
        have := mul_le_mul_of_nonneg_left (Real.abs_cos_le_one x) hx0.le
        linarith
      nlinarith
  | succ n ih =>
    obtain ⟨⟨C, hC⟩, ⟨D, hD⟩⟩ := ih
    refine ⟨⟨D, hD⟩, (2*n+3)*D + C, fun x hx => ?_⟩
    have hx0 : 0 < x := by linarith
    rw [show n+1+1 = n+2 from rfl, sph_next n hx0.ne']
    have h1 := hC x hx
    have h2 := hD x hx
    have hD0 : 0 ≤ D := by
      have := (abs_nonneg _).trans (hD 1 le_rfl); linarith
    have e : |(2*(n:ℝ)+3)*sph (n+1) x/x| ≤ (2*n+3)*D/x := by
      rw [abs_div, abs_of_pos hx0, abs_mul, abs_of_pos (by positivity : 0 < (2*(n:ℝ)+3))]
      have : D/x ≤ D := div_le_self hD0 hx
      gcongr
      linarith
    calc _ ≤ |(2*(n:ℝ)+3)*sph (n+1) x/x| + |sph n x| := abs_sub _ _
      _ ≤ (2*n+3)*D/x + C/x := by linarith
      _ = _ := by ring

theorem wave_continuous (n : ℕ) : Continuous (wave n) := by
  unfold wave; split <;> fun_prop

theorem wave_abs (n : ℕ) (y : ℝ) : |wave n y| ≤ 1 := by
  unfold wave; split
  · exact Real.abs_cos_le_one y
  · exact Real.abs_sin_le_one y

theorem sph_continuous (n : ℕ) : Continuous (sph n) := by
  unfold sph
  refine continuous_const.mul ?_
  refine intervalIntegral.continuous_parametric_intervalIntegral_of_continuous' ?_ _ _
  exact ((wave_continuous n).comp (by fun_prop)).mul ((leg_continuous n).comp (by fun_prop))

theorem sph_bound (n : ℕ) (x : ℝ) : |sph n x| ≤ 3^n := by
  unfold sph
  have h : ‖∫ t in (-1:ℝ)..1, wave n (x*t)*leg n t‖ ≤ 3^n*|1 - (-1)| := by
    refine intervalIntegral.norm_integral_le_of_norm_le_const fun t ht => ?_
    rw [Set.uIoc_of_le (by norm_num)] at ht
    rw [norm_mul]
    have h1 := (leg_bound n (t := t) (abs_le.2 ⟨ht.1.le, ht.2⟩)).1
    have h2 := wave_abs n (x*t)
    calc _ ≤ 1*3^n := mul_le_mul h2 h1 (abs_nonneg _) (by norm_num)
      _ = _ := one_mul _
  rw [abs_mul, abs_mul, abs_pow, abs_neg, abs_one, one_pow]
  rw [Real.norm_eq_abs] at h
  norm_num at h ⊢
  linarith

/-! ### the Mellin transform in the strip where it converges absolutely -/

theorem sph_mellin_integrable (n : ℕ) {z : ℂ} (h0 : 0 < z.re) (h1 : z.re < 1) : IntegrableOn (fun t : ℝ => (t:ℂ)^(z-1) * sph n t) (Ioi 0) := by
  have meas : AEStronglyMeasurable (fun t : ℝ => (t:ℂ)^(z-1) * sph n t) (volume.restrict (Ioi 0)) := by
    refine ContinuousOn.aestronglyMeasurable (fun t ht => ?_) measurableSet_Ioi
    refine ContinuousAt.continuousWithinAt (ContinuousAt.mul ?_ (Complex.continuous_ofReal.comp (sph_continuous n)).continuousAt)
    exact ContinuousAt.cpow (by fun_prop) continuousAt_const (Or.inl ht)
  have hnorm : ∀ t : ℝ, 0 < t → ‖(t:ℂ)^(z-1) * sph n t‖ = t^(z.re-1)*|sph n t| := by
    intro t ht
    rw [norm_mul, norm_cpow_eq_rpow_re_of_pos ht, norm_real, Real.norm_eq_abs]; simp
  rw [← Ioc_union_Ioi_eq_Ioi (zero_le_one' ℝ), integrableOn_union]
  constructor
  · refine Integrable.mono' (g := fun t => t^(z.re-1)*3^n) ?_ (meas.mono_measure (Measure.restrict_mono Ioc_subset_Ioi_self le_rfl)) ?_
    · have := (intervalIntegral.intervalIntegrable_rpow' (a := 0) (b := 1) (r := z.re-1) (by linarith)).1
      exact this.mul_const _
    · filter_upwards [ae_restrict_mem measurableSet_Ioc] with t ht
      rw [hnorm t ht.1]
      have := sph_bound n t
      have : 0 ≤ t^(z.re-1) := Real.rpow_nonneg ht.1.le _
      gcongr
  · obtain ⟨C, hC⟩ := (sph_far n).1
    refine Integrable.mono' (g := fun t => C*t^(z.re-2)) ?_ (meas.mono_measure (Measure.restrict_mono (Ioi_subset_Ioi zero_le_one) le_rfl)) ?_
    · exact (integrableOn_Ioi_rpow_of_lt (by linarith) one_pos).const_mul C
    · filter_upwards [ae_restrict_mem measurableSet_Ioi] with t ht
      have ht1 : (1:ℝ) < t := ht
      have ht0 : 0 < t := by linarith
      rw [hnorm t ht0]
      have e : t^(z.re-2) = t^(z.re-1)/t := by
        rw [show z.re - 2 = z.re - 1 - 1 by ring, Real.rpow_sub_one ht0.ne']
      have : 0 ≤ t^(z.re-1) := Real.rpow_nonneg ht0.le _
      calc _ ≤ t^(z.re-1)*(C/t) := by have := hC t ht1.le; gcongr
        _ = _ := by rw [e]; ring

theorem parity_zero {f : ℝ → ℝ} (h : ∀ t, f (-t) = -f t) : ∫ t in (-1:ℝ)..1, f t = 0 := by
  have := intervalIntegral.integral_comp_neg (a := -1) (b := 1) f
  simp only [h, intervalIntegral.integral_neg, neg_neg] at this
  linarith

theorem I_pow_even {n : ℕ} (h : n % 2 = 0) : I^n = (-1)^(n/2) := by
  conv_lhs => rw [← Nat.div_add_mod n 2, h, add_zero, pow_mul, I_sq]

theorem I_pow_odd {n : ℕ} (h : n % 2 = 1) : I^n = (-1)^(n/2)*I := by
  conv_lhs => rw [← Nat.div_add_mod n 2, h, pow_succ, pow_mul, I_sq]

/-- the plane wave expansion: the projection of `exp(i x t)` on a Legendre polynomial -/
theorem plane_wave (n : ℕ) (x : ℝ) : ∫ u in (-1:ℝ)..1, (leg n u : ℂ) * cexp (I*u*x) = 2*I^n*sph n x := by
  have e : ∀ u : ℝ, (leg n u : ℂ) * cexp (I*u*x) = ((Real.cos (x*u)*leg n u : ℝ) : ℂ) + I*((Real.sin (x*u)*leg n u : ℝ) : ℂ) := by
    intro u
    rw [show I*u*x = ((x*u : ℝ) : ℂ)*I by push_cast; ring, exp_mul_I]
    push_cast
    ring
  simp only [e]
  have c1 : Continuous fun u : ℝ => Real.cos (x*u)*leg n u := (Real.continuous_cos.comp (by fun_prop)).mul (leg_continuous n)
  have c2 : Continuous fun u : ℝ => Real.sin (x*u)*leg n u := (Real.continuous_sin.comp (by fun_prop)).mul (leg_continuous n)
  have i1 : IntervalIntegrable (fun u : ℝ => ((Real.cos (x*u)*leg n u : ℝ) : ℂ)) volume (-1) 1 := (continuous_ofReal.comp c1).intervalIntegrable _ _
  have i2 : IntervalIntegrable (fun u : ℝ => I*((Real.sin (x*u)*leg n u : ℝ) : ℂ)) volume (-1) 1 := (continuous_const.mul (continuous_ofReal.comp c2)).intervalIntegrable _ _
  rw [intervalIntegral.integral_add i1 i2, intervalIntegral.integral_const_mul, intervalIntegral.integral_ofReal, intervalIntegral.integral_ofReal]
  unfold sph wave
  have hsq : ((-1:ℂ)^(n/2))*(-1)^(n/2) = 1 := by rw [← mul_pow]; norm_num
  rcases Nat.mod_two_eq_zero_or_one n with h | h
  · have z2 : ∫ u in (-1:ℝ)..1, Real.sin (x*u)*leg n u = 0 := by
      refine parity_zero fun t => ?_
      rw [leg_parity, mul_neg, Real.sin_neg, Even.neg_one_pow (Nat.even_iff.2 h)]; ring
    rw [z2, I_pow_even h]
    simp only [h, if_true]
    push_cast
    linear_combination (-(∫ u in (-1:ℝ)..1, Real.cos (x*u)*leg n u : ℝ) : ℂ)*hsq
  · have z1 : ∫ u in (-1:ℝ)..1, Real.cos (x*u)*leg n u = 0 := by
      refine parity_zero fun t => ?_
      rw [leg_parity, mul_neg, Real.cos_neg, Odd.neg_one_pow (Nat.odd_iff.2 h)]; ring
    rw [z1, I_pow_odd h]
    simp only [h, one_ne_zero, if_false]
    push_cast
    linear_combination (-I*(∫ u in (-1:ℝ)..1, Real.sin (x*u)*leg n u : ℝ) : ℂ)*hsq

theorem leg_integrable (n : ℕ) : Integrable (fun u : ℝ => (leg n u : ℂ)) (volume.restrict (uIoc (-1) 1)) := by
  rw [Set.uIoc_of_le (by norm_num)]
  have : IntervalIntegrable (fun u : ℝ => (leg n u : ℂ)) volume (-1) 1 := (continuous_ofReal.comp (leg_continuous n)).intervalIntegrable _ _
  exact this.1

/-- the transform of the damped function -/
theorem damped (n : ℕ) {z : ℂ} (hz : 0 < z.re) {ε : ℝ} (hε : 0 < ε) :
    ∫ t in Ioi (0:ℝ), (t:ℂ)^(z-1) * cexp (-(ε*t)) * (2*I^n*sph n t) = ∫ u in (-1:ℝ)..1, (leg n u : ℂ)*(Gamma z/(ε - I*u)^z) := by
  have e1 : ∀ u : ℝ, (leg n u : ℂ)*(Gamma z/(ε - I*u)^z) = ∫ t in Ioi (0:ℝ), (leg n u : ℂ)*((t:ℂ)^(z-1) * cexp (-((ε - I*u)*t))) := by
    intro u; rw [integral_const_mul, gamma_ray hz hε]
  simp only [e1]
  rw [intervalIntegral_integral_swap]
  · refine integral_congr_ae (Eventually.of_forall fun t => ?_)
    simp only
    rw [← plane_wave, ← intervalIntegral.integral_const_mul]
    refine intervalIntegral.integral_congr fun u _ => ?_
    rw [show -((ε - I*u)*t) = -(ε*t) + I*u*t by ring, Complex.exp_add]
    ring
  · have h := (leg_integrable n).mul_prod (ray_integrable (z := z - 1) (by simp; linarith) hε 0)
    refine (Integrable.bdd_mul (c := 1) (f := fun p : ℝ × ℝ => cexp (I*p.1*p.2)) h (by fun_prop) ?_).congr ?_
    · refine Eventually.of_forall fun p => ?_
      rw [show I*p.1*p.2 = ((p.1*p.2 : ℝ) : ℂ)*I by push_cast; ring, norm_exp_ofReal_mul_I]
    · refine Eventually.of_forall fun p => ?_
      simp only [Function.uncurry, ofReal_zero, mul_zero, sub_zero]
      rw [show -((ε - I*p.1)*p.2) = -(ε*p.2) + I*p.1*p.2 by ring, Complex.exp_add]
      ring

theorem inv_cpow_bound (z : ℂ) (hz : 0 < z.re) {u : ℝ} (hu : 0 < u) {w : ℂ} (hw : u ≤ ‖w‖) : ‖1/w^z‖ ≤ Real.exp (Real.pi*|z.im|)*u^(-z.re) := by
  have hw0 : w ≠ 0 := by rintro rfl; simp at hw; linarith
  rw [norm_div, norm_one, norm_cpow_of_ne_zero hw0, one_div_div, Real.rpow_neg hu.le, ← div_eq_mul_inv]
  have h1 : arg w*z.im ≤ Real.pi*|z.im| := by
    refine (le_abs_self _).trans ?_
    rw [abs_mul]
    exact mul_le_mul_of_nonneg_right (abs_arg_le_pi w) (abs_nonneg _)
  have h2 : u^z.re ≤ ‖w‖^z.re := Real.rpow_le_rpow hu.le hw hz.le
  have h3 : 0 < u^z.re := Real.rpow_pos_of_pos hu _
  gcongr

theorem im_le_norm_add (ε u : ℝ) (hu : 0 < u) : u ≤ ‖(ε - I*u : ℂ)‖ ∧ u ≤ ‖(ε + I*u : ℂ)‖ := by
  constructor
  · have := abs_im_le_norm (ε - I*u : ℂ)
    simp at this
    rwa [abs_of_pos hu] at this
  · have := abs_im_le_norm (ε + I*u : ℂ)
    simp at this
    rwa [abs_of_pos hu] at this

theorem inv_I_cpow (z : ℂ) {u : ℝ} (hu : 0 < u) : 1/(0 - I*u : ℂ)^z = (u:ℂ)^(-z)*cexp (I*(Real.pi*z/2)) ∧ 1/(0 + I*u : ℂ)^z = (u:ℂ)^(-z)*cexp (-(I*(Real.pi*z/2))) := by
  have hu0 : (u:ℂ) ≠ 0 := by exact_mod_cast hu.ne'
  constructor
  · rw [show (0 - I*u : ℂ) = u*(-I) by ring, cpow_def_of_ne_zero (mul_ne_zero hu0 (neg_ne_zero.2 I_ne_zero)), log_ofReal_mul hu (neg_ne_zero.2 I_ne_zero), log_neg_I, cpow_def_of_ne_zero hu0, one_div, ← Complex.exp_neg, ← Complex.exp_add, Complex.ofReal_log hu.le]
    congr 1
    ring
  · rw [show (0 + I*u : ℂ) = u*I by ring, cpow_def_of_ne_zero (mul_ne_zero hu0 I_ne_zero), log_ofReal_mul hu I_ne_zero, log_I, cpow_def_of_ne_zero hu0, one_div, ← Complex.exp_neg, ← Complex.exp_add, Complex.ofReal_log hu.le]
    congr 1
    ring

theorem damped_half (n : ℕ) (z : ℂ) {ε : ℝ} (hε : 0 < ε) :
    ∫ u in (-1:ℝ)..1, (leg n u : ℂ)*(Gamma z/(ε - I*u)^z) = ∫ u in (0:ℝ)..1, (leg n u : ℂ)*Gamma z*(1/(ε - I*u)^z + (-1)^n*(1/(ε + I*u)^z)) := by
  have hsl : ∀ v : ℝ, (ε - I*v : ℂ) ∈ slitPlane := fun v => Or.inl (by simpa using hε)
  have hsl' : ∀ v : ℝ, (ε + I*v : ℂ) ∈ slitPlane := fun v => Or.inl (by simpa using hε)
  have hl : Continuous fun u : ℝ => (leg n u : ℂ) := continuous_ofReal.comp (leg_continuous n)
  have hc : Continuous fun u : ℝ => (leg n u : ℂ)*(Gamma z/(ε - I*u)^z) := by
    refine hl.mul (continuous_const.div ?_ fun u => ?_)
    · exact Continuous.cpow (by fun_prop) continuous_const hsl
    · rw [Ne, cpow_eq_zero_iff]; have := slitPlane_ne_zero (hsl u); tauto
  have hc' : Continuous fun u : ℝ => (-1)^n*((leg n u : ℂ)*(Gamma z/(ε + I*u)^z)) := by
    refine continuous_const.mul (hl.mul (continuous_const.div ?_ fun u => ?_))
    · exact Continuous.cpow (by fun_prop) continuous_const hsl'
    · rw [Ne, cpow_eq_zero_iff]; have := slitPlane_ne_zero (hsl' u); tauto
  rw [← intervalIntegral.integral_add_adjacent_intervals (hc.intervalIntegrable (-1) 0) (hc.intervalIntegrable 0 1)]
  have e : ∫ u in (-1:ℝ)..0, (leg n u : ℂ)*(Gamma z/(ε - I*u)^z) = ∫ u in (0:ℝ)..1, (-1)^n*((leg n u : ℂ)*(Gamma z/(ε + I*u)^z)) := by
    have := intervalIntegral.integral_comp_neg (a := 0) (b := 1) fun u : ℝ => (leg n u : ℂ)*(Gamma z/(ε - I*u)^z)
    rw [neg_zero] at this
    rw [← this]
    refine intervalIntegral.integral_congr fun u _ => ?_
    simp only [leg_parity]
    push_cast
    rw [mul_neg, sub_neg_eq_add]
    ring
  rw [e, ← intervalIntegral.integral_add (hc'.intervalIntegrable 0 1) (hc.intervalIntegrable 0 1)]
  refine intervalIntegral.integral_congr fun u _ => ?_
  ring

/-- the Mellin transform of a spherical Bessel function, as that of a power on the unit interval -/
theorem mellin_half (n : ℕ) {z : ℂ} (h0 : 0 < z.re) (h1 : z.re < 1) :
    ∫ t in Ioi (0:ℝ), (t:ℂ)^(z-1) * (2*I^n*sph n t) = Gamma z*(cexp (I*(Real.pi*z/2)) + (-1)^n*cexp (-(I*(Real.pi*z/2)))) * ∫ u in (0:ℝ)..1, (u:ℂ)^(-z)*leg n u := by
  have int := sph_mellin_integrable n h0 h1
  have L : Tendsto (fun ε : ℝ => ∫ t in Ioi (0:ℝ), (t:ℂ)^(z-1) * cexp (-(ε*t)) * (2*I^n*sph n t)) (𝓝[>] 0) (𝓝 (∫ t in Ioi (0:ℝ), (t:ℂ)^(z-1) * (2*I^n*sph n t))) := by
    refine tendsto_integral_filter_of_dominated_convergence (fun t => 2*‖(t:ℂ)^(z-1) * sph n t‖) ?_ ?_ (int.norm.const_mul 2) ?_
    · refine Eventually.of_forall fun ε => ?_
      exact (ray_meas (z-1) (ε:ℂ)).mul ((continuous_const.mul (continuous_ofReal.comp (sph_continuous n))).aestronglyMeasurable)
    · filter_upwards [self_mem_nhdsWithin] with ε hε
      filter_upwards [ae_restrict_mem measurableSet_Ioi] with t ht
      have h1 : ‖cexp (-((ε:ℂ)*t))‖ ≤ 1 := by
        rw [show -((ε:ℂ)*t) = ((-(ε*t) : ℝ) : ℂ) by push_cast; ring, norm_exp_ofReal]
        have : 0 ≤ ε*t := mul_nonneg (le_of_lt hε) (le_of_lt ht)
        rw [Real.exp_le_one_iff]; linarith
      have h2 : ‖(t:ℂ)^(z-1) * cexp (-(ε*t)) * (2*I^n*sph n t)‖ = ‖cexp (-((ε:ℂ)*t))‖*(2*‖(t:ℂ)^(z-1) * sph n t‖) := by
        simp only [norm_mul, norm_pow, norm_I, one_pow, mul_one, RCLike.norm_ofNat]
        ring
      rw [h2]
      exact mul_le_of_le_one_left (by positivity) h1
    · refine Eventually.of_forall fun t => ?_
      have hcont : Continuous fun ε : ℝ => (t:ℂ)^(z-1) * cexp (-(ε*t)) * (2*I^n*sph n t) := by fun_prop
      have := (hcont.tendsto 0).mono_left (nhdsWithin_le_nhds (s := Ioi 0))
      simpa using this
  have R : Tendsto (fun ε : ℝ => ∫ u in (0:ℝ)..1, (leg n u : ℂ)*Gamma z*(1/(ε - I*u)^z + (-1)^n*(1/(ε + I*u)^z))) (𝓝[>] 0)
      (𝓝 (∫ u in (0:ℝ)..1, (leg n u : ℂ)*Gamma z*((u:ℂ)^(-z)*cexp (I*(Real.pi*z/2)) + (-1)^n*((u:ℂ)^(-z)*cexp (-(I*(Real.pi*z/2))))))) := by
    refine intervalIntegral.tendsto_integral_filter_of_dominated_convergence (fun u => 3^n*‖Gamma z‖*(2*Real.exp (Real.pi*|z.im|))*u^(-z.re)) ?_ ?_ ?_ ?_
    · filter_upwards [self_mem_nhdsWithin] with ε hε
      have hε0 : 0 < ε := hε
      refine Continuous.aestronglyMeasurable ?_
      have hsl : ∀ v : ℝ, (ε - I*v : ℂ) ∈ slitPlane := fun v => Or.inl (by simpa using hε0)
      have hsl' : ∀ v : ℝ, (ε + I*v : ℂ) ∈ slitPlane := fun v => Or.inl (by simpa using hε0)
      refine ((continuous_ofReal.comp (leg_continuous n)).mul continuous_const).mul (Continuous.add ?_ (continuous_const.mul ?_))
      · refine continuous_const.div (Continuous.cpow (by fun_prop) continuous_const hsl) fun u => ?_
        rw [Ne, cpow_eq_zero_iff]; have := slitPlane_ne_zero (hsl u); tauto
      · refine continuous_const.div (Continuous.cpow (by fun_prop) continuous_const hsl') fun u => ?_
        rw [Ne, cpow_eq_zero_iff]; have := slitPlane_ne_zero (hsl' u); tauto
    · refine Eventually.of_forall fun ε => Eventually.of_forall fun u hu => ?_
      rw [Set.uIoc_of_le (by norm_num)] at hu
      obtain ⟨b1, b2⟩ := im_le_norm_add ε u hu.1
      have c1 := inv_cpow_bound z h0 hu.1 b1
      have c2 := inv_cpow_bound z h0 hu.1 b2
      have c3 : ‖(leg n u : ℂ)‖ ≤ 3^n := by
        rw [norm_real]; exact (leg_bound n (by rw [abs_of_pos hu.1]; exact hu.2)).1
      have c4 : ‖(1/(ε - I*u)^z + (-1)^n*(1/(ε + I*u)^z) : ℂ)‖ ≤ 2*Real.exp (Real.pi*|z.im|)*u^(-z.re) := by
        refine (norm_add_le _ _).trans ?_
        rw [norm_mul ((-1)^n), norm_pow, norm_neg, norm_one, one_pow, one_mul]
        linarith
      rw [norm_mul, norm_mul]
      calc _ ≤ 3^n*‖Gamma z‖*(2*Real.exp (Real.pi*|z.im|)*u^(-z.re)) := by gcongr
        _ = _ := by ring
    · exact (intervalIntegral.intervalIntegrable_rpow' (by linarith)).const_mul _
    · refine Eventually.of_forall fun u hu => ?_
      rw [Set.uIoc_of_le (by norm_num)] at hu
      obtain ⟨e1, e2⟩ := inv_I_cpow z hu.1
      rw [← e1, ← e2]
      have s1 : (0 - I*u : ℂ) ∈ slitPlane := Or.inr (by simpa using hu.1.ne')
      have s2 : (0 + I*u : ℂ) ∈ slitPlane := Or.inr (by simpa using hu.1.ne')
      have t1 : Tendsto (fun ε : ℝ => (ε - I*u : ℂ)) (𝓝[>] 0) (𝓝 (0 - I*u)) := by
        have : Continuous fun ε : ℝ => (ε - I*u : ℂ) := by fun_prop
        simpa using (this.tendsto 0).mono_left (nhdsWithin_le_nhds (s := Ioi 0))
      have t2 : Tendsto (fun ε : ℝ => (ε + I*u : ℂ)) (𝓝[>] 0) (𝓝 (0 + I*u)) := by
        have : Continuous fun ε : ℝ => (ε + I*u : ℂ) := by fun_prop
        simpa using (this.tendsto 0).mono_left (nhdsWithin_le_nhds (s := Ioi 0))
      have n1 : (0 - I*u : ℂ)^z ≠ 0 := by rw [Ne, cpow_eq_zero_iff]; have := slitPlane_ne_zero s1; tauto
      have n2 : (0 + I*u : ℂ)^z ≠ 0 := by rw [Ne, cpow_eq_zero_iff]; have := slitPlane_ne_zero s2; tauto
      exact ((tendsto_const_nhds.div (t1.cpow tendsto_const_nhds s1) n1).add ((tendsto_const_nhds.div (t2.cpow tendsto_const_nhds s2) n2).const_mul _)).const_mul _
  have L' : Tendsto (fun ε : ℝ => ∫ t in Ioi (0:ℝ), (t:ℂ)^(z-1) * cexp (-(ε*t)) * (2*I^n*sph n t)) (𝓝[>] 0)
      (𝓝 (∫ u in (0:ℝ)..1, (leg n u : ℂ)*Gamma z*((u:ℂ)^(-z)*cexp (I*(Real.pi*z/2)) + (-1)^n*((u:ℂ)^(-z)*cexp (-(I*(Real.pi*z/2))))))) := by
    refine R.congr' ?_
    filter_upwards [self_mem_nhdsWithin] with ε hε
    rw [damped n h0 hε, damped_half n z hε]
  rw [tendsto_nhds_unique L L', ← intervalIntegral.integral_const_mul]
  refine intervalIntegral.integral_congr fun u _ => ?_
  ring

/-! ### moments of the Legendre polynomials on the unit interval -/

theorem moment_rec (n : ℕ) {s : ℂ} (hs : -1 < s.re) :
    (n+2)*∫ u in (0:ℝ)..1, (u:ℂ)^s*leg (n+2) u = (2*n+3)*(∫ u in (0:ℝ)..1, (u:ℂ)^(s+1)*leg (n+1) u) - (n+1)*∫ u in (0:ℝ)..1, (u:ℂ)^s*leg n u := by
  have ii : ∀ {r : ℂ} (m : ℕ), -1 < r.re → IntervalIntegrable (fun u : ℝ => (u:ℂ)^r*leg m u) volume 0 1 := fun m hr =>
    (intervalIntegral.intervalIntegrable_cpow' hr).mul_continuousOn (continuous_ofReal.comp (leg_continuous m)).continuousOn
  have hs1 : -1 < (s+1).re := by simp; linarith
  rw [← intervalIntegral.integral_const_mul, ← intervalIntegral.integral_const_mul, ← intervalIntegral.integral_const_mul, ← intervalIntegral.integral_sub ((ii (n+1) hs1).const_mul _) ((ii n hs).const_mul _)]
  refine intervalIntegral.integral_congr_ae (Eventually.of_forall fun u hu => ?_)
  rw [Set.uIoc_of_le (by norm_num)] at hu
  have hu0 : (u:ℂ) ≠ 0 := by exact_mod_cast hu.1.ne'
  rw [cpow_add _ _ hu0, cpow_one]
  have := congrArg (fun x : ℝ => (x:ℂ)) (leg_rec n u)
  push_cast at this
  linear_combination (u:ℂ)^s*this

theorem sqrt_pi_ne : ((Real.sqrt Real.pi : ℝ) : ℂ) ≠ 0 := by
  exact_mod_cast (Real.sqrt_pos.2 Real.pi_pos).ne'

theorem two_cpow_ne (s : ℂ) : (2:ℂ)^s ≠ 0 := by
  rw [Ne, cpow_eq_zero_iff]; norm_num

theorem moment_eq (n : ℕ) : (∀ s : ℂ, -1 < s.re → ∫ u in (0:ℝ)..1, (u:ℂ)^s*leg n u = (Real.sqrt Real.pi : ℝ)*2^(-s-1)*Gamma (s+1)*(Gamma (1+(s-n)/2))⁻¹*(Gamma ((s+n+3)/2))⁻¹) ∧
    ∀ s : ℂ, -1 < s.re → ∫ u in (0:ℝ)..1, (u:ℂ)^s*leg (n+1) u = (Real.sqrt Real.pi : ℝ)*2^(-s-1)*Gamma (s+1)*(Gamma (1+(s-(n+1))/2))⁻¹*(Gamma ((s+(n+1)+3)/2))⁻¹ := by
  induction n with
  | zero =>
    have gne : ∀ {s : ℂ}, 0 < s.re → Gamma s ≠ 0 := fun h => Gamma_ne_zero_of_re_pos h
    have pne : ∀ {s : ℂ}, 0 < s.re → s ≠ 0 := by rintro s h rfl; simp at h
    constructor
    · intro s hs
      have h1 : s + 1 ≠ 0 := pne (by simp; linarith)
      have e0 : ∀ u : ℝ, (u:ℂ)^s*leg 0 u = (u:ℂ)^s := fun u => by rw [show leg 0 u = 1 from rfl]; push_cast; ring
      simp only [e0]
      rw [integral_cpow (Or.inl hs), ofReal_one, one_cpow, ofReal_zero, zero_cpow h1]
      have d := Gamma_mul_Gamma_add_half (1 + s/2)
      have g2 : Gamma (2*(1+s/2)) = (s+1)*Gamma (s+1) := by
        rw [show 2*(1+s/2) = (s+1)+1 by ring, Gamma_add_one _ h1]
      have p2 : (2:ℂ)^(1 - 2*(1+s/2)) = 2^(-s-1) := by congr 1; ring
      rw [g2, p2, show 1 + s/2 + 1/2 = (s+3)/2 by ring] at d
      have n1 := gne (s := s+1) (by simp; linarith)
      have n2 := sqrt_pi_ne
      have n3 := two_cpow_ne (-s-1)
      have e : Gamma (1 + (s - (0:ℕ))/2) = Gamma (1+s/2) := by simp
      have e' : Gamma ((s + (0:ℕ) + 3)/2) = Gamma ((s+3)/2) := by simp
      rw [e, e', mul_assoc, ← mul_inv, d]
      field_simp
      ring
    · intro s hs
      have h1 : s + 1 + 1 ≠ 0 := pne (by simp; linarith)
      have e0 : ∫ u in (0:ℝ)..1, (u:ℂ)^s*leg (0+1) u = ∫ u in (0:ℝ)..1, (u:ℂ)^(s+1) := by
        refine intervalIntegral.integral_congr_ae (Eventually.of_forall fun u hu => ?_)
        rw [Set.uIoc_of_le (by norm_num)] at hu
        have hu0 : (u:ℂ) ≠ 0 := by exact_mod_cast hu.1.ne'
        rw [cpow_add _ _ hu0, cpow_one]
        rfl
      rw [e0, integral_cpow (Or.inl (by simp; linarith)), ofReal_one, one_cpow, ofReal_zero, zero_cpow h1]
      have d := Gamma_mul_Gamma_add_half ((s+1)/2)
      rw [show 2*((s+1)/2) = s+1 by ring, show (s+1)/2 + 1/2 = (s+2)/2 by ring] at d
      have hs2 : (s+2)/2 ≠ 0 := pne (by simp; linarith)
      have g : Gamma ((s+4)/2) = (s+2)/2*Gamma ((s+2)/2) := by
        rw [show (s+4)/2 = (s+2)/2 + 1 by ring, Gamma_add_one _ hs2]
      have n1 := gne (s := s+1) (by simp; linarith)
      have n2 := sqrt_pi_ne
      have n3 := two_cpow_ne (-s)
      have p : (2:ℂ)^(-s-1) = 2^(-s)/2 := by rw [cpow_sub _ _ two_ne_zero, cpow_one]
      have p' : (2:ℂ)^(1-(s+1)) = 2^(-s) := by congr 1; ring
      rw [p'] at d
      have e : Gamma (1 + (s - ((0:ℕ)+1))/2) = Gamma ((s+1)/2) := by congr 1; push_cast; ring
      have e' : Gamma ((s + ((0:ℕ)+1) + 3)/2) = Gamma ((s+4)/2) := by congr 1; push_cast; ring
      rw [e, e', g, p, mul_assoc, ← mul_inv, show Gamma ((s+1)/2)*((s+2)/2*Gamma ((s+2)/2)) = (s+2)/2*(Gamma ((s+1)/2)*Gamma ((s+2)/2)) by ring, d]
      have hs3 : s + 2 ≠ 0 := by intro h; apply hs2; rw [h, zero_div]
      have h1' : s + 1 + 1 = s + 2 := by ring
      rw [h1']
      field_simp
      ring
  | succ n ih =>
    obtain ⟨h1, h2⟩ := ih
    refine ⟨fun s hs => by rw [h2 s hs]; push_cast; ring_nf, fun s hs => ?_⟩
    have key := moment_rec n hs
    rw [h1 s hs, h2 (s+1) (by simp; linarith)] at key
    have hne : ((n:ℂ)+2) ≠ 0 := by exact_mod_cast (by omega : n + 2 ≠ 0)
    have hs1 : s + 1 ≠ 0 := by intro h; rw [eq_neg_of_add_eq_zero_left h] at hs; simp at hs
    have g1 : Gamma (s+1+1) = (s+1)*Gamma (s+1) := Gamma_add_one _ hs1
    have g2 : (Gamma ((s+n+3)/2))⁻¹ = (s+n+3)/2*(Gamma ((s+n+5)/2))⁻¹ := by
      rw [one_div_Gamma_eq_self_mul_one_div_Gamma_add_one, show (s+n+3)/2 + 1 = (s+n+5)/2 by ring]
    have g3 : (Gamma ((s-n)/2))⁻¹ = (s-n)/2*(Gamma (1+(s-n)/2))⁻¹ := by
      rw [one_div_Gamma_eq_self_mul_one_div_Gamma_add_one, show (s-n)/2 + 1 = 1 + (s-n)/2 by ring]
    have p : (2:ℂ)^(-(s+1)-1) = 2^(-s-1)/2 := by rw [show -(s+1)-1 = (-s-1)-1 by ring, cpow_sub (-s-1) 1 two_ne_zero, cpow_one]
    have a1 : 1 + (s+1-(n+1))/2 = 1 + (s-n)/2 := by ring
    have a2 : (s+1+(n+1)+3)/2 = (s+n+5)/2 := by ring
    rw [a1, a2, g1, g2, p] at key
    have a3 : 1 + (s-((n+1:ℕ)+1))/2 = (s-n)/2 := by push_cast; ring
    have a4 : (s+((n+1:ℕ)+1)+3)/2 = (s+n+5)/2 := by push_cast; ring
    rw [a3, a4, g3, show n+1+1 = n+2 from rfl]
    apply mul_left_cancel₀ hne
    rw [key]
    ring

theorem reflect_algebra {a b c T S g P Q N q w : ℂ} (hP : P ≠ 0) (t : T*S = N*Q) (r : a*b*Q = P) : a*T*(q*(2*w)*b*(g*S/P)*c) = 2*N*(q*w*(g*c)) := by
  have e : a*T*(q*(2*w)*b*(g*S/P)*c) = a*b*(T*S)*(q*(2*w)*g*c)/P := by ring
  rw [e, t, show a*b*(N*Q) = N*(a*b*Q) by ring, r]
  field_simp

theorem inv_algebra {a b s P : ℂ} (hb : b ≠ 0) (hP : P ≠ 0) (r : a*b*s = P) : b⁻¹ = a*s/P := by
  rw [eq_div_iff hP, ← r]
  field_simp

theorem reflect_trig (n : ℕ) (z : ℂ) : (cexp (I*(Real.pi*z/2)) + (-1)^n*cexp (-(I*(Real.pi*z/2))))*sin (Real.pi*((n+z)/2)) = I^n*sin (Real.pi*z) := by
  obtain ⟨E, hE⟩ : ∃ E, E = cexp (I*(Real.pi*z/2)) := ⟨_, rfl⟩
  have hE0 : E ≠ 0 := by rw [hE]; exact exp_ne_zero _
  have hN : cexp (I*(Real.pi*n/2)) = I^n := by
    rw [show I*(Real.pi*n/2) = n*(Real.pi/2*I) by ring, Complex.exp_nat_mul, Complex.exp_pi_div_two_mul_I]
  have hN0 : I^n ≠ 0 := pow_ne_zero _ I_ne_zero
  have hN2 : (-1:ℂ)^n = (I^n)^2 := by rw [← pow_mul, mul_comm, pow_mul, I_sq]
  have hN4 : (I^n)^4 = 1 := by rw [← pow_mul, mul_comm, pow_mul, I_pow_four, one_pow]
  have s1 : sin (Real.pi*((n+z)/2)) = ((I^n*E)⁻¹ - I^n*E)*I/2 := by
    rw [Complex.sin, hE, ← hN, ← Complex.exp_add, ← Complex.exp_neg]
    congr 3 <;> congr 1 <;> ring
  have s2 : sin (Real.pi*z) = ((E*E)⁻¹ - E*E)*I/2 := by
    rw [Complex.sin, hE, ← Complex.exp_add, ← Complex.exp_neg]
    congr 3 <;> congr 1 <;> ring
  rw [Complex.exp_neg, s1, s2, ← hE, hN2]
  field_simp
  linear_combination (-E^2)*hN4

/-- the Mellin transform of a spherical Bessel function, where it converges absolutely -/
theorem mellin_strip (n : ℕ) {z : ℂ} (h0 : 0 < z.re) (h1 : z.re < 1) :
    ∫ t in Ioi (0:ℝ), (t:ℂ)^(z-1) * sph n t = (Real.sqrt Real.pi : ℝ)*2^(z-2)*(Gamma ((n+z)/2)/Gamma ((3+n-z)/2)) := by
  have key := mellin_half n h0 h1
  rw [(moment_eq n).1 (-z) (by simp; linarith)] at key
  have e1 : ∫ t in Ioi (0:ℝ), (t:ℂ)^(z-1) * (2*I^n*sph n t) = 2*I^n*∫ t in Ioi (0:ℝ), (t:ℂ)^(z-1) * sph n t := by
    rw [← integral_const_mul]
    refine integral_congr_ae (Eventually.of_forall fun t => ?_)
    ring
  rw [e1] at key
  have hI : (2*I^n : ℂ) ≠ 0 := mul_ne_zero two_ne_zero (pow_ne_zero _ I_ne_zero)
  apply mul_left_cancel₀ hI
  rw [key]
  -- reflection
  have r1 := Gamma_mul_Gamma_one_sub z
  have r2 := Gamma_mul_Gamma_one_sub ((n+z)/2)
  have a1 : -z+1 = 1-z := by ring
  have a2 : 1+(-z-n)/2 = 1-(n+z)/2 := by ring
  have a3 : (-z+n+3)/2 = (3+n-z)/2 := by ring
  have a4 : (2:ℂ)^(-(-z)-1) = 2*2^(z-2) := by
    rw [show -(-z)-1 = (z-2)+1 by ring, cpow_add _ _ two_ne_zero, cpow_one]; ring
  rw [a1, a2, a3, a4]
  have hpi : (Real.pi:ℂ) ≠ 0 := by exact_mod_cast Real.pi_ne_zero
  have gz := Gamma_ne_zero_of_re_pos h0
  have g1z := Gamma_ne_zero_of_re_pos (s := 1-z) (by simp; linarith)
  have hsz : sin (Real.pi*z) ≠ 0 := by
    intro h; rw [h, div_zero] at r1; exact mul_ne_zero gz g1z r1
  have gn := Gamma_ne_zero_of_re_pos (s := (n+z)/2) (by simp; positivity)
  have inv2 : (Gamma (1-(n+z)/2))⁻¹ = Gamma ((n+z)/2)*sin (Real.pi*((n+z)/2))/Real.pi := by
    by_cases hG : Gamma (1-(n+z)/2) = 0
    · rw [hG, mul_zero] at r2
      have hs : sin (Real.pi*((n+z)/2)) = 0 := by
        rcases div_eq_zero_iff.1 r2.symm with h | h
        · exact absurd h hpi
        · exact h
      rw [hG, hs]; simp
    · have hs : sin (Real.pi*((n+z)/2)) ≠ 0 := by
        intro h; rw [h, div_zero] at r2; exact mul_ne_zero gn hG r2
      rw [eq_div_iff hs] at r2
      exact inv_algebra hG hpi r2
  rw [inv2]
  have r1' : Gamma z*Gamma (1-z)*sin (Real.pi*z) = Real.pi := by rw [r1]; field_simp
  rw [div_eq_mul_inv (Gamma ((n+z)/2))]
  exact reflect_algebra hpi (reflect_trig n z) r1'

/-! ### the Mellin transform as an improper integral -/

theorem power_sph_integrable (n : ℕ) {z : ℂ} (hz : 0 < z.re) (R : ℝ) : IntervalIntegrable (fun t : ℝ => (t:ℂ)^(z-1) * sph n t) volume 0 R :=
  (intervalIntegral.intervalIntegrable_cpow' (by simp; linarith)).mul_continuousOn (continuous_ofReal.comp (sph_continuous n)).continuousOn

theorem sph_parts (n : ℕ) {z : ℂ} (hz : 1 < z.re) {R : ℝ} (hR : 0 ≤ R) :
    ∫ t in (0:ℝ)..R, (t:ℂ)^(z-1) * sph n t = (R:ℂ)^(z-1)*sph (n+1) R + (n+3-z)*∫ t in (0:ℝ)..R, (t:ℂ)^(z-1-1) * sph (n+1) t := by
  have hz1 : 0 < (z-1).re := by simp; linarith
  have hne : z - 1 ≠ 0 := by intro h; rw [h] at hz1; simp at hz1
  have i1 := power_sph_integrable n (z := z) (by linarith) R
  have i2 := (power_sph_integrable (n+1) hz1 R).const_mul (z-1-(n+2))
  have key := intervalIntegral.integral_eq_sub_of_hasDerivAt_of_le hR (f := fun t : ℝ => (t:ℂ)^(z-1)*sph (n+1) t)
    (f' := fun t : ℝ => (t:ℂ)^(z-1) * sph n t + (z-1-(n+2))*((t:ℂ)^(z-1-1) * sph (n+1) t)) ?_ ?_ (i1.add i2)
  · rw [intervalIntegral.integral_add i1 i2, intervalIntegral.integral_const_mul] at key
    simp only [ofReal_zero, zero_cpow hne, zero_mul, sub_zero] at key
    linear_combination key
  · refine ContinuousOn.mul (fun t _ => ?_) (continuous_ofReal.comp (sph_continuous _)).continuousOn
    exact (Complex.continuousAt_ofReal_cpow_const t (z-1) (Or.inl hz1)).continuousWithinAt
  · intro t ht
    have ht0 : (t:ℂ) ≠ 0 := by exact_mod_cast ht.1.ne'
    have h1 : HasDerivAt (fun t : ℝ => (t:ℂ)^(z-1)) ((z-1)*(t:ℂ)^(z-1-1)) t := by
      have := (hasDerivAt_ofReal_cpow_const' (x := t) (ne_of_gt ht.1) (r := z - 1 - 1) (by intro h; apply hne; linear_combination h)).const_mul (z-1)
      rw [sub_add_cancel] at this
      refine this.congr_of_eventuallyEq (Eventually.of_forall fun s => ?_)
      field_simp
    have h2 := ((sph_deriv n ht.1.ne').2).ofReal_comp
    refine (h1.mul h2).congr_deriv ?_
    rw [cpow_sub _ _ ht0, cpow_one]
    push_cast
    field_simp
    ring

theorem mellin_improper (n : ℕ) {z : ℂ} (h1 : 1 < z.re) (h2 : z.re < 2) :
    Tendsto (fun R : ℝ => ∫ t in (0:ℝ)..R, (t:ℂ)^(z-1) * sph n t) atTop (𝓝 ((Real.sqrt Real.pi : ℝ)*2^(z-2)*(Gamma ((n+z)/2)/Gamma ((3+n-z)/2)))) := by
  have hz0 : 0 < (z-1).re := by simp; linarith
  have hz1 : (z-1).re < 1 := by simp; linarith
  have L := intervalIntegral_tendsto_integral_Ioi 0 (sph_mellin_integrable (n+1) hz0 hz1) tendsto_id
  rw [mellin_strip (n+1) hz0 hz1] at L
  have B : Tendsto (fun R : ℝ => (R:ℂ)^(z-1)*sph (n+1) R) atTop (𝓝 0) := by
    obtain ⟨C, hC⟩ := (sph_far n).2
    rw [tendsto_zero_iff_norm_tendsto_zero]
    have t : Tendsto (fun R : ℝ => C*R^(-(2 - z.re))) atTop (𝓝 (C*0)) := (tendsto_rpow_neg_atTop (by linarith)).const_mul C
    rw [mul_zero] at t
    refine squeeze_zero' (Eventually.of_forall fun _ => norm_nonneg _) ?_ t
    filter_upwards [eventually_ge_atTop 1] with R hR
    have hR0 : 0 < R := by linarith
    rw [norm_mul, norm_cpow_eq_rpow_re_of_pos hR0, norm_real, Real.norm_eq_abs]
    have e : R^(-(2-z.re)) = R^(z.re-1)/R := by
      rw [show -(2-z.re) = z.re - 1 - 1 by ring, Real.rpow_sub_one hR0.ne']
    have : 0 ≤ R^(z.re-1) := Real.rpow_nonneg hR0.le _
    calc _ = R^(z.re-1)*|sph (n+1) R| := by simp
      _ ≤ R^(z.re-1)*(C/R) := by have := hC R hR; gcongr
      _ = _ := by rw [e]; ring
  have T := B.add (L.const_mul ((n:ℂ)+3-z))
  have e : 0 + ((n:ℂ)+3-z)*((Real.sqrt Real.pi : ℝ)*2^(z-1-2)*(Gamma (((n+1:ℕ)+(z-1))/2)/Gamma ((3+(n+1:ℕ)-(z-1))/2))) = (Real.sqrt Real.pi : ℝ)*2^(z-2)*(Gamma ((n+z)/2)/Gamma ((3+n-z)/2)) := by
    have a1 : (((n+1:ℕ):ℂ)+(z-1))/2 = (n+z)/2 := by push_cast; ring
    have a2 : (3+((n+1:ℕ):ℂ)-(z-1))/2 = (3+n-z)/2 + 1 := by push_cast; ring
    have hpos : 0 < ((3+(n:ℂ)-z)/2).re := by
      simp
      have : (0:ℝ) ≤ n := Nat.cast_nonneg n
      linarith
    have hne : (3+(n:ℂ)-z)/2 ≠ 0 := by intro h; rw [h] at hpos; simp at hpos
    have hne' : 3+(n:ℂ)-z ≠ 0 := by intro h; apply hne; rw [h, zero_div]
    have a3 : (2:ℂ)^(z-1-2) = 2^(z-2)/2 := by rw [show z-1-2 = z-2-1 by ring, cpow_sub (z-2) 1 two_ne_zero, cpow_one]
    rw [a1, a2, a3, Gamma_add_one _ hne]
    have hg := Gamma_ne_zero_of_re_pos hpos
    obtain ⟨G, hG⟩ : ∃ G, G = Gamma ((3+(n:ℂ)-z)/2) := ⟨_, rfl⟩
    rw [← hG] at hg ⊢
    field_simp
    ring
  rw [e] at T
  refine T.congr' ?_
  filter_upwards [eventually_ge_atTop 0] with R hR
  rw [sph_parts n h1 hR]
  rfl

/-- the transform of a power -/
theorem hankel_power (n : ℕ) {z : ℂ} (h1 : 1 < z.re) (h2 : z.re < 2) {y : ℝ} (hy : 0 < y) :
    Tendsto (fun R : ℝ => ∫ t in (0:ℝ)..R, (t:ℂ)^(z-1) * sph n (t*y)) atTop (𝓝 ((y:ℂ)^(-z)*((Real.sqrt Real.pi : ℝ)*2^(z-2)*(Gamma ((n+z)/2)/Gamma ((3+n-z)/2))))) := by
  have hy0 : (y:ℂ) ≠ 0 := by exact_mod_cast hy.ne'
  have T := ((mellin_improper n h1 h2).comp (tendsto_id.atTop_mul_const hy)).const_mul ((y:ℂ)^(-z))
  refine T.congr' ?_
  filter_upwards [eventually_ge_atTop 0] with R hR
  simp only [Function.comp, id]
  have e := intervalIntegral.integral_comp_mul_right (a := 0) (b := R) (fun t : ℝ => (t:ℂ)^(z-1) * sph n t) hy.ne'
  rw [zero_mul] at e
  have e' : ∫ t in (0:ℝ)..R, ((t*y : ℝ):ℂ)^(z-1) * sph n (t*y) = (y:ℂ)^(z-1)*∫ t in (0:ℝ)..R, (t:ℂ)^(z-1) * sph n (t*y) := by
    rw [← intervalIntegral.integral_const_mul]
    refine intervalIntegral.integral_congr fun t ht => ?_
    rw [Set.uIcc_of_le hR] at ht
    rw [ofReal_mul, mul_cpow_ofReal_nonneg ht.1 hy.le]
    ring
  rw [e'] at e
  have e2 : ∫ t in (0:ℝ)..R*y, (t:ℂ)^(z-1) * sph n t = y*((y:ℂ)^(z-1)*∫ t in (0:ℝ)..R, (t:ℂ)^(z-1) * sph n (t*y)) := by
    rw [e, Complex.real_smul, ofReal_inv, mul_inv_cancel_left₀ hy0]
  obtain ⟨J, hJ⟩ : ∃ J, J = ∫ t in (0:ℝ)..R, (t:ℂ)^(z-1) * sph n (t*y) := ⟨_, rfl⟩
  rw [e2, ← hJ, cpow_sub _ _ hy0, cpow_one, cpow_neg]
  have : (y:ℂ)^z ≠ 0 := by rw [Ne, cpow_eq_zero_iff]; tauto
  field_simp

end Verif.Xi
