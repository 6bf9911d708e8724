/-
Lemmas for C133.
-/
import Verif.Model.Png
import Verif.Spec.Png
import Mathlib.MeasureTheory.Integral.IntervalIntegral.FundThmCalculus
import Mathlib.Analysis.SpecialFunctions.Integrals.Basic
import Mathlib.Analysis.SpecialFunctions.Sqrt
import Mathlib.Analysis.Calculus.Deriv.ZPow
import Mathlib.Tactic.FieldSimp
import Mathlib.Tactic.Positivity

namespace Verif.Png

open MeasureTheory intervalIntegral

noncomputable section

/-- `a³` times the squared rate -/
def qt (Om Ok Ode a : ℝ) : ℝ := Om + Ok * a + Ode * a ^ 3

theorem rate2_qt (Om Ok Ode a : ℝ) (ha : a ≠ 0) : Spec.rate2 Om Ok Ode a = qt Om Ok Ode a / a ^ 3 := by
  unfold Spec.rate2 qt
  field_simp

theorem efunc_eq (c : Density) (a : ℝ) : efunc c a = Real.sqrt (Spec.rate2 c.Om0 c.Ok0 c.Ode0 a) := by
  unfold efunc Spec.rate2
  congr 1
  simp only [zpow_neg, div_eq_mul_inv]
  norm_cast
  ring

theorem qt_pos (Om Ok Ode A : ℝ) (h : Spec.Expands Om Ok Ode A) (a : ℝ) (h0 : 0 ≤ a) (hA : a ≤ A) : 0 < qt Om Ok Ode a := by
  rcases eq_or_lt_of_le h0 with h1 | h1
  · subst h1
    unfold qt
    simpa using h.1
  · have h2 := h.2 a h1 hA
    rw [rate2_qt _ _ _ _ h1.ne'] at h2
    have h3 : 0 < a ^ 3 := by positivity
    have := mul_pos h2 h3
    rwa [div_mul_cancel₀ _ h3.ne'] at this

/-- the integrand without singularity -/
def smooth (Om Ok Ode a : ℝ) : ℝ := Real.sqrt (a / qt Om Ok Ode a) ^ 3

theorem integrand_eq (c : Density) (a : ℝ) (h0 : 0 ≤ a) (hq : 0 < qt c.Om0 c.Ok0 c.Ode0 a) : integrand c a = smooth c.Om0 c.Ok0 c.Ode0 a := by
  unfold integrand smooth
  rcases eq_or_lt_of_le h0 with h1 | h1
  · subst h1
    simp
  · rw [efunc_eq, rate2_qt _ _ _ _ h1.ne', ← one_div_pow]
    congr 1
    rw [one_div, Real.sqrt_div h1.le, Real.sqrt_div hq.le, show a ^ 3 = a ^ 2 * a by ring, Real.sqrt_mul (by positivity), Real.sqrt_sq h1.le]
    have hs : Real.sqrt a ≠ 0 := (Real.sqrt_pos.2 h1).ne'
    have hs2 : Real.sqrt (qt c.Om0 c.Ok0 c.Ode0 a) ≠ 0 := (Real.sqrt_pos.2 hq).ne'
    field_simp

theorem smooth_cont (Om Ok Ode A : ℝ) (h : ∀ a, 0 ≤ a → a ≤ A → 0 < qt Om Ok Ode a) : ContinuousOn (smooth Om Ok Ode) (Set.Icc 0 A) := by
  unfold smooth
  apply ContinuousOn.pow
  apply Real.continuous_sqrt.comp_continuousOn
  apply ContinuousOn.div continuousOn_id
  · unfold qt
    fun_prop
  · intro a ha
    exact (h a ha.1 ha.2).ne'

theorem integral_eq (c : Density) (A : ℝ) (h : Spec.Expands c.Om0 c.Ok0 c.Ode0 A) (a : ℝ) (h0 : 0 ≤ a) (hA : a ≤ A) :
    ∫ t in (0 : ℝ)..a, integrand c t = ∫ t in (0 : ℝ)..a, smooth c.Om0 c.Ok0 c.Ode0 t := by
  apply integral_congr
  intro t ht
  rw [Set.uIcc_of_le h0] at ht
  exact integrand_eq c t ht.1 (qt_pos _ _ _ _ h t ht.1 (ht.2.trans hA))

/-- growth as a function of the scale factor -/
def growthAt (c : Density) (a : ℝ) : ℝ := efunc c a * ∫ t in (0 : ℝ)..a, integrand c t

theorem growth_at (c : Density) (a : ℝ) : growth c (1 / a - 1) = growthAt c a := by
  unfold growth growthAt
  rw [add_sub_cancel, one_div_one_div]

theorem growth_z (c : Density) (z : ℝ) : growth c z = growthAt c (1 / (1 + z)) := rfl

theorem smooth_pos (Om Ok Ode a : ℝ) (h0 : 0 < a) (hq : 0 < qt Om Ok Ode a) : 0 < smooth Om Ok Ode a := by
  unfold smooth
  exact pow_pos (Real.sqrt_pos.2 (div_pos h0 hq)) 3

theorem power_integral (m a : ℝ) (hm : 0 < m) (ha : 0 ≤ a) : ∫ t in (0 : ℝ)..a, Real.sqrt (t / m) ^ 3 = 2 / 5 * a * Real.sqrt (a / m) ^ 3 := by
  have hc : Continuous fun t : ℝ => Real.sqrt (t / m) ^ 3 := by fun_prop
  have hd : ∀ t ∈ Set.Ioo (0 : ℝ) a, HasDerivAt (fun t => 2 / 5 * t * Real.sqrt (t / m) ^ 3) (Real.sqrt (t / m) ^ 3) t := by
    intro t ht
    have htm : 0 < t / m := div_pos ht.1 hm
    have h1 : HasDerivAt (fun t : ℝ => t / m) (1 / m) t := (hasDerivAt_id t).div_const m
    have h2 := (h1.sqrt htm.ne').pow 3
    have h3 := ((hasDerivAt_id t).const_mul (2 / 5 : ℝ)).mul h2
    refine h3.congr_deriv ?_
    have hs : Real.sqrt (t / m) ≠ 0 := (Real.sqrt_pos.2 htm).ne'
    have hsq : Real.sqrt (t / m) ^ 2 = t / m := Real.sq_sqrt htm.le
    obtain ⟨s, hs'⟩ : ∃ s, s = Real.sqrt (t / m) := ⟨_, rfl⟩
    simp only [id, Pi.pow_apply, Function.comp]
    rw [← hs'] at hs hsq ⊢
    have ht' : t = m * s ^ 2 := by rw [hsq]; field_simp
    rw [ht']
    field_simp
    push_cast
    ring
  rw [integral_eq_sub_of_hasDerivAt_of_le ha (by fun_prop) hd (hc.intervalIntegrable _ _)]
  simp

/-- growth is bounded by that in a universe of matter only -/
theorem growth_bounds (c : Density) (A : ℝ) (h : Spec.Expands c.Om0 c.Ok0 c.Ode0 A) (a ε : ℝ) (h0 : 0 < a) (hA : a ≤ A) (hε : ε < 1)
    (hb : ∀ t, 0 ≤ t → t ≤ a → |c.Ok0 * t + c.Ode0 * t ^ 3| ≤ ε * c.Om0) :
    2 / (5 * c.Om0) * ((1 - ε) / (1 + ε) ^ 2) ≤ growthAt c a / a ∧ growthAt c a / a ≤ 2 / (5 * c.Om0) * ((1 + ε) / (1 - ε) ^ 2) := by
  have hOm := h.1
  have hε0 : 0 ≤ ε := by
    have := hb 0 le_rfl h0.le
    simp at this
    exact nonneg_of_mul_nonneg_left this hOm
  have hlo : ∀ t, 0 ≤ t → t ≤ a → (1 - ε) * c.Om0 ≤ qt c.Om0 c.Ok0 c.Ode0 t := fun t h1 h2 => by
    have := neg_le_of_abs_le (hb t h1 h2)
    unfold qt
    linarith
  have hhi : ∀ t, 0 ≤ t → t ≤ a → qt c.Om0 c.Ok0 c.Ode0 t ≤ (1 + ε) * c.Om0 := fun t h1 h2 => by
    have := le_of_abs_le (hb t h1 h2)
    unfold qt
    linarith
  have hm1 : 0 < (1 - ε) * c.Om0 := mul_pos (by linarith) hOm
  have hm2 : 0 < (1 + ε) * c.Om0 := mul_pos (by linarith) hOm
  have hci : IntervalIntegrable (smooth c.Om0 c.Ok0 c.Ode0) volume 0 a := by
    apply ContinuousOn.intervalIntegrable
    rw [Set.uIcc_of_le h0.le]
    exact smooth_cont _ _ _ _ fun t h1 h2 => lt_of_lt_of_le hm1 (hlo t h1 h2)
  have hpi : ∀ m : ℝ, IntervalIntegrable (fun t => Real.sqrt (t / m) ^ 3) volume 0 a := fun m => by
    apply Continuous.intervalIntegrable
    fun_prop
  have hI1 : 2 / 5 * a * Real.sqrt (a / ((1 + ε) * c.Om0)) ^ 3 ≤ ∫ t in (0 : ℝ)..a, smooth c.Om0 c.Ok0 c.Ode0 t := by
    rw [← power_integral _ a hm2 h0.le]
    apply integral_mono_on h0.le (hpi _) hci
    intro t ht
    unfold smooth
    apply pow_le_pow_left₀ (Real.sqrt_nonneg _)
    apply Real.sqrt_le_sqrt
    exact div_le_div_of_nonneg_left ht.1 (lt_of_lt_of_le hm1 (hlo t ht.1 ht.2)) (hhi t ht.1 ht.2)
  have hI2 : ∫ t in (0 : ℝ)..a, smooth c.Om0 c.Ok0 c.Ode0 t ≤ 2 / 5 * a * Real.sqrt (a / ((1 - ε) * c.Om0)) ^ 3 := by
    rw [← power_integral _ a hm1 h0.le]
    apply integral_mono_on h0.le hci (hpi _)
    intro t ht
    unfold smooth
    apply pow_le_pow_left₀ (Real.sqrt_nonneg _)
    apply Real.sqrt_le_sqrt
    exact div_le_div_of_nonneg_left ht.1 hm1 (hlo t ht.1 ht.2)
  have ha3 : 0 < a ^ 3 := by positivity
  have hE1 : Real.sqrt ((1 - ε) * c.Om0 / a ^ 3) ≤ efunc c a := by
    rw [efunc_eq, rate2_qt _ _ _ _ h0.ne']
    exact Real.sqrt_le_sqrt (div_le_div_of_nonneg_right (hlo a h0.le le_rfl) ha3.le)
  have hE2 : efunc c a ≤ Real.sqrt ((1 + ε) * c.Om0 / a ^ 3) := by
    rw [efunc_eq, rate2_qt _ _ _ _ h0.ne']
    exact Real.sqrt_le_sqrt (div_le_div_of_nonneg_right (hhi a h0.le le_rfl) ha3.le)
  -- the product of the two bounds
  have hprod : ∀ x y : ℝ, 0 ≤ x → 0 < y → Real.sqrt (x * c.Om0 / a ^ 3) * (2 / 5 * a * Real.sqrt (a / (y * c.Om0)) ^ 3) / a = 2 / (5 * c.Om0) * (Real.sqrt x / (Real.sqrt y * y)) := by
    intro x y hx hy
    have e1 : Real.sqrt (a ^ 3) = a * Real.sqrt a := by
      rw [show a ^ 3 = a ^ 2 * a by ring, Real.sqrt_mul (by positivity), Real.sqrt_sq h0.le]
    rw [Real.sqrt_div (by positivity), Real.sqrt_mul hx, e1, Real.sqrt_div h0.le, Real.sqrt_mul hy.le]
    have s1 : Real.sqrt a ≠ 0 := (Real.sqrt_pos.2 h0).ne'
    have s2 : Real.sqrt c.Om0 ≠ 0 := (Real.sqrt_pos.2 hOm).ne'
    have s3 : Real.sqrt y ≠ 0 := (Real.sqrt_pos.2 hy).ne'
    have q1 : Real.sqrt a ^ 2 = a := Real.sq_sqrt h0.le
    have q2 : Real.sqrt c.Om0 ^ 2 = c.Om0 := Real.sq_sqrt hOm.le
    have q3 : Real.sqrt y ^ 2 = y := Real.sq_sqrt hy.le
    obtain ⟨u, hu⟩ : ∃ u, u = Real.sqrt a := ⟨_, rfl⟩
    obtain ⟨w, hw⟩ : ∃ w, w = Real.sqrt c.Om0 := ⟨_, rfl⟩
    obtain ⟨v, hv⟩ : ∃ v, v = Real.sqrt y := ⟨_, rfl⟩
    rw [← hu] at s1 q1 ⊢
    rw [← hw] at s2 q2 ⊢
    rw [← hv] at s3 q3 ⊢
    rw [← q1, ← q2, ← q3]
    field_simp
  have hIn : 0 ≤ ∫ t in (0 : ℝ)..a, smooth c.Om0 c.Ok0 c.Ode0 t := le_trans (by positivity) hI1
  have p1 := hprod (1 - ε) (1 + ε) (by linarith) (by linarith)
  have p2 := hprod (1 + ε) (1 - ε) (by linarith) (by linarith)
  have hpos : 0 < 2 / (5 * c.Om0) := by positivity
  unfold growthAt
  rw [integral_eq c A h a h0.le hA]
  constructor
  · calc 2 / (5 * c.Om0) * ((1 - ε) / (1 + ε) ^ 2) ≤ 2 / (5 * c.Om0) * (Real.sqrt (1 - ε) / (Real.sqrt (1 + ε) * (1 + ε))) := by
          apply mul_le_mul_of_nonneg_left _ hpos.le
          apply div_le_div₀ (Real.sqrt_nonneg _)
          · apply Real.le_sqrt_of_sq_le
            nlinarith
          · positivity
          · rw [sq]
            apply mul_le_mul_of_nonneg_right _ (by linarith)
            rw [Real.sqrt_le_left (by linarith)]
            nlinarith
      _ = _ := p1.symm
      _ ≤ _ := by
          apply div_le_div_of_nonneg_right _ h0.le
          exact mul_le_mul hE1 hI1 (by positivity) (le_trans (Real.sqrt_nonneg _) hE1)
  · calc _ ≤ Real.sqrt ((1 + ε) * c.Om0 / a ^ 3) * (2 / 5 * a * Real.sqrt (a / ((1 - ε) * c.Om0)) ^ 3) / a := by
          apply div_le_div_of_nonneg_right _ h0.le
          exact mul_le_mul hE2 hI2 hIn (Real.sqrt_nonneg _)
      _ = _ := p2
      _ ≤ _ := by
          apply mul_le_mul_of_nonneg_left _ hpos.le
          have h1 : 0 < 1 - ε := by linarith
          apply div_le_div₀ (by linarith)
          · rw [Real.sqrt_le_left (by linarith)]
            nlinarith
          · positivity
          · rw [sq]
            apply mul_le_mul_of_nonneg_right _ h1.le
            apply Real.le_sqrt_of_sq_le
            nlinarith

end

end Verif.Png
