/-
Spherical Bessel functions: the recurrence, the closed forms, the series.
-/
import Verif.Spec.Xi
import Mathlib.Tactic
import Mathlib.Analysis.SpecialFunctions.Integrals.Basic
import Mathlib.Analysis.Complex.Exponential
import Mathlib.MeasureTheory.Integral.IntervalIntegral.IntegrationByParts

namespace Verif.Xi

open Verif.Legendre intervalIntegral

/-! ### the recurrence -/

theorem leg_neg_one_step (n : ℕ) : leg (n+2) (-1) = leg n (-1) := by
  rw [leg_parity, leg_parity, leg_one, leg_one, pow_add]; norm_num

theorem cos_step (n : ℕ) (x : ℝ) : (2*n+3) * ∫ t in (-1:ℝ)..1, Real.cos (x*t)*leg (n+1) t = x*((∫ t in (-1:ℝ)..1, Real.sin (x*t)*leg (n+2) t) - ∫ t in (-1:ℝ)..1, Real.sin (x*t)*leg n t) := by
  have hc : ∀ m, Continuous fun t => Real.sin (x*t)*leg m t := fun m => (Real.continuous_sin.comp (continuous_const.mul continuous_id)).mul (leg_continuous m)
  have hd : ∀ t, HasDerivAt (fun t => Real.cos (x*t)*(leg (n+2) t - leg n t)) (-(x*(Real.sin (x*t)*leg (n+2) t - Real.sin (x*t)*leg n t)) + (2*n+3)*(Real.cos (x*t)*leg (n+1) t)) t := by
    intro t
    have h1 : HasDerivAt (fun t => Real.cos (x*t)) (-Real.sin (x*t)*x) t := (Real.hasDerivAt_cos (x*t)).comp t (((hasDerivAt_id t).const_mul x).congr_deriv (by ring))
    refine (h1.mul ((leg_hasDerivAt (n+2) t).sub (leg_hasDerivAt n t))).congr_deriv ?_
    rw [dleg_diff]
    simp only [Pi.sub_apply]
    ring
  have hint := integral_eq_sub_of_hasDerivAt (a := -1) (b := 1) (fun t _ => hd t)
    (Continuous.intervalIntegrable (((continuous_const.mul ((hc (n+2)).sub (hc n))).neg).add (continuous_const.mul ((Real.continuous_cos.comp (continuous_const.mul continuous_id)).mul (leg_continuous (n+1))))) _ _)
  rw [leg_neg_one_step, leg_one, leg_one, sub_self, sub_self, mul_zero, mul_zero, sub_self] at hint
  rw [integral_add, integral_neg, integral_const_mul, integral_const_mul, integral_sub] at hint
  · linarith
  all_goals apply Continuous.intervalIntegrable
  · exact hc _
  · exact hc _
  · exact (continuous_const.mul ((hc (n+2)).sub (hc n))).neg
  · exact continuous_const.mul ((Real.continuous_cos.comp (continuous_const.mul continuous_id)).mul (leg_continuous (n+1)))

theorem sin_step (n : ℕ) (x : ℝ) : (2*n+3) * ∫ t in (-1:ℝ)..1, Real.sin (x*t)*leg (n+1) t = -(x*((∫ t in (-1:ℝ)..1, Real.cos (x*t)*leg (n+2) t) - ∫ t in (-1:ℝ)..1, Real.cos (x*t)*leg n t)) := by
  have hc : ∀ m, Continuous fun t => Real.cos (x*t)*leg m t := fun m => (Real.continuous_cos.comp (continuous_const.mul continuous_id)).mul (leg_continuous m)
  have hd : ∀ t, HasDerivAt (fun t => Real.sin (x*t)*(leg (n+2) t - leg n t)) (x*(Real.cos (x*t)*leg (n+2) t - Real.cos (x*t)*leg n t) + (2*n+3)*(Real.sin (x*t)*leg (n+1) t)) t := by
    intro t
    have h1 : HasDerivAt (fun t => Real.sin (x*t)) (Real.cos (x*t)*x) t := (Real.hasDerivAt_sin (x*t)).comp t (((hasDerivAt_id t).const_mul x).congr_deriv (by ring))
    refine (h1.mul ((leg_hasDerivAt (n+2) t).sub (leg_hasDerivAt n t))).congr_deriv ?_
    rw [dleg_diff]
    simp only [Pi.sub_apply]
    ring
  have hint := integral_eq_sub_of_hasDerivAt (a := -1) (b := 1) (fun t _ => hd t)
    (Continuous.intervalIntegrable ((continuous_const.mul ((hc (n+2)).sub (hc n))).add (continuous_const.mul ((Real.continuous_sin.comp (continuous_const.mul continuous_id)).mul (leg_continuous (n+1))))) _ _)
  rw [leg_neg_one_step, leg_one, leg_one, sub_self, sub_self, mul_zero, mul_zero, sub_self] at hint
  rw [integral_add, integral_const_mul, integral_const_mul, integral_sub] at hint
  · linarith
  all_goals apply Continuous.intervalIntegrable
  · exact hc _
  · exact hc _
  · exact continuous_const.mul ((hc (n+2)).sub (hc n))
  · exact continuous_const.mul ((Real.continuous_sin.comp (continuous_const.mul continuous_id)).mul (leg_continuous (n+1)))

/-- the recurrence of the spherical Bessel functions -/
theorem sph_rec (n : ℕ) (x : ℝ) : x*(sph n x + sph (n+2) x) = (2*n+3)*sph (n+1) x := by
  have e2 : (n+2)/2 = n/2 + 1 := by omega
  rcases Nat.mod_two_eq_zero_or_one n with h | h
  · have e1 : (n+1)/2 = n/2 := by omega
    have w0 : ∀ y, wave n y = Real.cos y := fun y => by unfold wave; rw [if_pos h]
    have w1 : ∀ y, wave (n+1) y = Real.sin y := fun y => by unfold wave; rw [if_neg (by omega)]
    have w2 : ∀ y, wave (n+2) y = Real.cos y := fun y => by unfold wave; rw [if_pos (by omega)]
    have := sin_step n x
    unfold sph
    simp only [w0, w1, w2, e1, e2, pow_succ]
    linear_combination (-1)*(1/2*(-1)^(n/2))*this
  · have e1 : (n+1)/2 = n/2 + 1 := by omega
    have w0 : ∀ y, wave n y = Real.sin y := fun y => by unfold wave; rw [if_neg (by omega)]
    have w1 : ∀ y, wave (n+1) y = Real.cos y := fun y => by unfold wave; rw [if_pos (by omega)]
    have w2 : ∀ y, wave (n+2) y = Real.sin y := fun y => by unfold wave; rw [if_neg (by omega)]
    have := cos_step n x
    unfold sph
    simp only [w0, w1, w2, e1, e2, pow_succ]
    linear_combination (1/2*(-1)^(n/2))*this

theorem sph_zero {x : ℝ} (hx : x ≠ 0) : sph 0 x = Real.sin x/x := by
  unfold sph wave
  have : ∀ t, HasDerivAt (fun t => Real.sin (x*t)/x) (Real.cos (x*t)*leg 0 t) t := by
    intro t
    have h1 : HasDerivAt (fun t => Real.sin (x*t)) (Real.cos (x*t)*x) t := (Real.hasDerivAt_sin (x*t)).comp t (((hasDerivAt_id t).const_mul x).congr_deriv (by ring))
    refine (h1.div_const x).congr_deriv ?_
    simp only [leg]; field_simp
  simp only [Nat.zero_mod, if_true]
  rw [integral_eq_sub_of_hasDerivAt (fun t _ => this t) (Continuous.intervalIntegrable ((Real.continuous_cos.comp (continuous_const.mul continuous_id)).mul (leg_continuous 0)) _ _)]
  rw [mul_one, mul_neg_one, Real.sin_neg]
  norm_num
  field_simp
  ring

theorem sph_one {x : ℝ} (hx : x ≠ 0) : sph 1 x = (Real.sin x - x*Real.cos x)/x^2 := by
  unfold sph wave
  have : ∀ t, HasDerivAt (fun t => Real.sin (x*t)/x^2 - t*Real.cos (x*t)/x) (Real.sin (x*t)*leg 1 t) t := by
    intro t
    have h1 : HasDerivAt (fun t => Real.sin (x*t)) (Real.cos (x*t)*x) t := (Real.hasDerivAt_sin (x*t)).comp t (((hasDerivAt_id t).const_mul x).congr_deriv (by ring))
    have h2 : HasDerivAt (fun t => Real.cos (x*t)) (-Real.sin (x*t)*x) t := (Real.hasDerivAt_cos (x*t)).comp t (((hasDerivAt_id t).const_mul x).congr_deriv (by ring))
    refine ((h1.div_const (x^2)).sub (((hasDerivAt_id t).mul h2).div_const x)).congr_deriv ?_
    simp only [leg, id]; field_simp; ring
  simp only [Nat.one_mod, one_ne_zero, if_false]
  rw [integral_eq_sub_of_hasDerivAt (fun t _ => this t) (Continuous.intervalIntegrable ((Real.continuous_sin.comp (continuous_const.mul continuous_id)).mul (leg_continuous 1)) _ _)]
  rw [mul_one, mul_neg_one, Real.sin_neg, Real.cos_neg]
  norm_num
  field_simp
  ring

theorem sph_next (n : ℕ) {x : ℝ} (hx : x ≠ 0) : sph (n+2) x = (2*n+3)*sph (n+1) x/x - sph n x := by
  have := sph_rec n x
  field_simp
  linarith

/-! ### the closed forms -/

theorem sph_two {x : ℝ} (hx : x ≠ 0) : sph 2 x = ((3 - x^2)*Real.sin x - 3*x*Real.cos x)/x^3 := by
  rw [sph_next 0 hx, sph_one hx, sph_zero hx]; push_cast; field_simp; ring

theorem sph_three {x : ℝ} (hx : x ≠ 0) : sph 3 x = ((15 - 6*x^2)*Real.sin x - (15*x - x^3)*Real.cos x)/x^4 := by
  rw [sph_next 1 hx, sph_two hx, sph_one hx]; push_cast; field_simp; ring

theorem sph_four {x : ℝ} (hx : x ≠ 0) : sph 4 x = 5*(2*x^2 - 21)*Real.cos x/x^4 + (x^4 - 45*x^2 + 105)*Real.sin x/x^5 := by
  rw [sph_next 2 hx, sph_three hx, sph_two hx]; push_cast; field_simp; ring

theorem sph_five {x : ℝ} (hx : x ≠ 0) : sph 5 x = ((15*x^4 - 420*x^2 + 945)*Real.sin x + (-x^5 + 105*x^3 - 945*x)*Real.cos x)/x^6 := by
  rw [sph_next 3 hx, sph_four hx, sph_three hx]; push_cast; field_simp; ring

theorem sph_six {x : ℝ} (hx : x ≠ 0) : sph 6 x = ((-x^6 + 210*x^4 - 4725*x^2 + 10395)*Real.sin x - (21*x*(x^4 - 60*x^2 + 495))*Real.cos x)/x^7 := by
  rw [sph_next 4 hx, sph_five hx, sph_four hx]; push_cast; field_simp; ring

theorem sph_seven {x : ℝ} (hx : x ≠ 0) : sph 7 x = ((-28*x^6 + 3150*x^4 - 62370*x^2 + 135135)*Real.sin x + (x^7 - 378*x^5 + 17325*x^3 - 135135*x)*Real.cos x)/x^8 := by
  rw [sph_next 5 hx, sph_six hx, sph_five hx]; push_cast; field_simp; ring

theorem sph_eight {x : ℝ} (hx : x ≠ 0) :
    sph 8 x = ((x^8 - 630*x^6 + 51975*x^4 - 945945*x^2 + 2027025)*Real.sin x + (9*x*(4*x^6 - 770*x^4 + 30030*x^2 - 225225))*Real.cos x)/x^9 := by
  rw [sph_next 6 hx, sph_seven hx, sph_six hx]; push_cast; field_simp; ring

/-! ### the series -/

/-- the coefficients of the cosine or the sine -/
def wcoef (n k : ℕ) : ℚ := if n % 2 = k % 2 then (-1)^(k/2)/k.factorial else 0

theorem term_re (y : ℝ) (k : ℕ) : ((y*Complex.I)^k/(k.factorial:ℂ)).re = wcoef 0 k*y^k ∧ ((y*Complex.I)^k/(k.factorial:ℂ)).im = wcoef 1 k*y^k := by
  have hk : ∀ z : ℂ, z/(k.factorial:ℂ) = ((1/(k.factorial:ℝ) : ℝ):ℂ)*z := by intro z; push_cast; ring
  rw [hk, Complex.re_ofReal_mul, Complex.im_ofReal_mul, mul_pow, ← Complex.ofReal_pow, Complex.re_ofReal_mul, Complex.im_ofReal_mul]
  rcases Nat.even_or_odd' k with ⟨m, h | h⟩
  · have : Complex.I^k = (((-1)^m : ℝ) : ℂ) := by rw [h, pow_mul, Complex.I_sq]; push_cast; ring
    rw [this, Complex.ofReal_re, Complex.ofReal_im]
    unfold wcoef
    rw [if_pos (by omega), if_neg (by omega), show k/2 = m by omega]
    push_cast
    constructor <;> ring
  · have : Complex.I^k = (((-1)^m : ℝ) : ℂ)*Complex.I := by rw [h, pow_succ, pow_mul, Complex.I_sq]; push_cast; ring
    rw [this, Complex.re_ofReal_mul, Complex.im_ofReal_mul, Complex.I_re, Complex.I_im]
    unfold wcoef
    rw [if_neg (by omega), if_pos (by omega), show k/2 = m by omega]
    push_cast
    constructor <;> ring

/-- the wave and its series -/
theorem wave_series (n : ℕ) {y : ℝ} (hy : |y| ≤ 1) : |wave n y - ∑ k ∈ Finset.range 14, (wcoef n k:ℝ)*y^k| ≤ |y|^14*(15/(87178291200*14)) := by
  have hn : ‖(y:ℂ)*Complex.I‖ = |y| := by simp
  have hb := Complex.exp_bound (x := (y:ℂ)*Complex.I) (by rw [hn]; exact hy) (n := 14) (by norm_num)
  rw [hn] at hb
  have hf : |y|^14*((Nat.succ 14 : ℕ) * ((Nat.factorial 14 : ℕ) * (14:ℕ) : ℝ)⁻¹ : ℝ) = |y|^14*(15/(87178291200*14)) := by norm_num [Nat.factorial]
  rw [hf] at hb
  have hw : ∀ n k, wcoef n k = if n % 2 = 0 then wcoef 0 k else wcoef 1 k := by
    intro n k
    unfold wcoef
    rcases Nat.mod_two_eq_zero_or_one n with h | h <;> simp [h]
  rcases Nat.mod_two_eq_zero_or_one n with h | h
  · refine le_trans ?_ ((Complex.abs_re_le_norm _).trans hb)
    rw [Complex.sub_re, Complex.exp_ofReal_mul_I_re, Complex.re_sum]
    unfold wave
    rw [if_pos h]
    refine le_of_eq ?_
    congr 2
    refine Finset.sum_congr rfl fun k _ => ?_
    rw [(term_re y k).1, hw n k, if_pos h]
  · refine le_trans ?_ ((Complex.abs_im_le_norm _).trans hb)
    rw [Complex.sub_im, Complex.exp_ofReal_mul_I_im, Complex.im_sum]
    unfold wave
    rw [if_neg (by omega)]
    refine le_of_eq ?_
    congr 2
    refine Finset.sum_congr rfl fun k _ => ?_
    rw [(term_re y k).2, hw n k, if_neg (by omega)]

/-- the moments of the Legendre polynomials -/
def mom : ℕ → ℕ → ℚ
  | 0, k => if k % 2 = 0 then 2/(k+1) else 0
  | 1, k => if k % 2 = 1 then 2/(k+2) else 0
  | n+2, k => ((2*n+3)*mom (n+1) (k+1) - (n+1)*mom n k)/(n+2)

theorem mom_eq : ∀ n k, ∫ t in (-1:ℝ)..1, t^k*leg n t = mom n k
  | 0, k => by
    simp only [leg, mul_one, integral_pow]
    unfold mom
    rcases Nat.mod_two_eq_zero_or_one k with h | h
    · rw [if_pos h, one_pow, Odd.neg_one_pow (by rw [Nat.odd_iff]; omega)]; push_cast; ring
    · rw [if_neg (by omega), one_pow, Even.neg_one_pow (by rw [Nat.even_iff]; omega)]; push_cast; ring
  | 1, k => by
    simp only [leg, ← pow_succ, integral_pow]
    unfold mom
    rcases Nat.mod_two_eq_zero_or_one k with h | h
    · rw [if_neg (by omega), one_pow, Even.neg_one_pow (by rw [Nat.even_iff]; omega)]; push_cast; ring
    · rw [if_pos h, one_pow, Odd.neg_one_pow (by rw [Nat.odd_iff]; omega)]; push_cast; ring
  | n+2, k => by
    have h1 := mom_eq (n+1) (k+1)
    have h2 := mom_eq n k
    have hi : ∀ m j, IntervalIntegrable (fun t => t^j*leg m t) MeasureTheory.volume (-1) 1 := fun m j => ((continuous_pow j).mul (leg_continuous m)).intervalIntegrable _ _
    have e : ∀ t, t^k*leg (n+2) t = (2*n+3)/(n+2)*(t^(k+1)*leg (n+1) t) - (n+1)/(n+2)*(t^k*leg n t) := by
      intro t
      simp only [leg]
      ring
    simp only [e]
    rw [integral_sub ((hi _ _).const_mul _) ((hi _ _).const_mul _), integral_const_mul, integral_const_mul, h1, h2]
    simp only [mom]
    push_cast
    ring

theorem leg_bound (n : ℕ) {t : ℝ} (ht : |t| ≤ 1) : |leg n t| ≤ 3^n ∧ |leg (n+1) t| ≤ 3^(n+1) := by
  induction n with
  | zero => simp only [leg]; norm_num; linarith
  | succ n ih =>
    refine ⟨ih.2, ?_⟩
    have hn : (0:ℝ) < n + 2 := by positivity
    have e : leg (n+1+1) t = ((2*n+3)*t*leg (n+1) t - (n+1)*leg n t)/(n+2) := rfl
    rw [e, abs_div, abs_of_pos hn, div_le_iff₀ hn]
    have h1 : |(2*n+3)*t*leg (n+1) t| ≤ (2*n+3)*(1*3^(n+1)) := by
      rw [abs_mul, abs_mul, abs_of_pos (by positivity : (0:ℝ) < 2*n+3), mul_assoc]
      exact mul_le_mul_of_nonneg_left (mul_le_mul ht ih.2 (abs_nonneg _) (by norm_num)) (by positivity)
    have h2 : |((n:ℝ)+1)*leg n t| ≤ (n+1)*3^n := by
      rw [abs_mul, abs_of_pos (by positivity : (0:ℝ) < n+1)]
      exact mul_le_mul_of_nonneg_left ih.1 (by positivity)
    refine (abs_sub _ _).trans ((add_le_add h1 h2).trans ?_)
    have : (0:ℝ) < 3^n := by positivity
    have e3 : (3:ℝ)^(n+1) = 3*3^n := by rw [pow_succ]; ring
    have e4 : (3:ℝ)^(n+1+1) = 9*3^n := by rw [pow_succ, pow_succ]; ring
    rw [e3, e4]
    nlinarith [mul_nonneg (Nat.cast_nonneg n : (0:ℝ) ≤ n) this.le]

/-- the series of the spherical Bessel functions -/
theorem sph_series (n : ℕ) {x : ℝ} (hx : |x| ≤ 1) : |sph n x - ∑ k ∈ Finset.range 14, ((1/2*(-1)^(n/2)*wcoef n k*mom n k : ℚ):ℝ)*x^k| ≤ |x|^14*(15/(87178291200*14))*3^n := by
  have hT : (∑ k ∈ Finset.range 14, ((1/2*(-1)^(n/2)*wcoef n k*mom n k : ℚ):ℝ)*x^k) = 1/2*(-1)^(n/2) * ∫ t in (-1:ℝ)..1, (∑ k ∈ Finset.range 14, (wcoef n k:ℝ)*(x*t)^k)*leg n t := by
    have : ∀ t, (∑ k ∈ Finset.range 14, (wcoef n k:ℝ)*(x*t)^k)*leg n t = ∑ k ∈ Finset.range 14, (wcoef n k:ℝ)*x^k*(t^k*leg n t) := by
      intro t
      rw [Finset.sum_mul]
      refine Finset.sum_congr rfl fun k _ => ?_
      rw [mul_pow]; ring
    simp only [this]
    have hint : ∀ k ∈ Finset.range 14, IntervalIntegrable (fun t => (wcoef n k:ℝ)*x^k*(t^k*leg n t)) MeasureTheory.volume (-1) 1 :=
      fun k _ => Continuous.intervalIntegrable (continuous_const.mul ((continuous_pow k).mul (leg_continuous n))) _ _
    rw [integral_finsetSum hint, Finset.mul_sum]
    refine Finset.sum_congr rfl fun k _ => ?_
    rw [integral_const_mul, mom_eq]
    push_cast
    ring
  have hcw : Continuous (wave n) := by
    unfold wave
    split
    · exact Real.continuous_cos
    · exact Real.continuous_sin
  have hi1 : IntervalIntegrable (fun t => wave n (x*t)*leg n t) MeasureTheory.volume (-1) 1 := ((hcw.comp (continuous_const.mul continuous_id)).mul (leg_continuous n)).intervalIntegrable _ _
  have hi2 : IntervalIntegrable (fun t => (∑ k ∈ Finset.range 14, (wcoef n k:ℝ)*(x*t)^k)*leg n t) MeasureTheory.volume (-1) 1 :=
    ((continuous_finsetSum _ fun k _ => continuous_const.mul ((continuous_const.mul continuous_id).pow k)).mul (leg_continuous n)).intervalIntegrable _ _
  rw [hT]
  unfold sph
  rw [← mul_sub, ← integral_sub hi1 hi2, abs_mul]
  have hb : ‖∫ t in (-1:ℝ)..1, (wave n (x*t)*leg n t - (∑ k ∈ Finset.range 14, (wcoef n k:ℝ)*(x*t)^k)*leg n t)‖ ≤ |x|^14*(15/(87178291200*14))*3^n*|1 - (-1)| := by
    refine norm_integral_le_of_norm_le_const fun t ht => ?_
    rw [Set.uIoc_of_le (by norm_num)] at ht
    have ht1 : |t| ≤ 1 := abs_le.2 ⟨ht.1.le, ht.2⟩
    have hxt : |x*t| ≤ |x| := by rw [abs_mul]; exact mul_le_of_le_one_right (abs_nonneg x) ht1
    rw [← sub_mul, Real.norm_eq_abs, abs_mul]
    refine mul_le_mul ?_ (leg_bound n ht1).1 (abs_nonneg _) (by positivity)
    refine (wave_series n (hxt.trans hx)).trans ?_
    exact mul_le_mul_of_nonneg_right (pow_le_pow_left₀ (abs_nonneg _) hxt 14) (by positivity)
  rw [Real.norm_eq_abs] at hb
  have h12 : |1/2*(-1:ℝ)^(n/2)| = 1/2 := by rw [abs_mul, abs_pow]; norm_num
  rw [h12]
  norm_num at hb ⊢
  linarith

end Verif.Xi
