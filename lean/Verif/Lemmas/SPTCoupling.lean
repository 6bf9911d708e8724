/- Lemmas for C105: integrals of spectra with power in a band; from the directions of `q` to the sides of the triangle. -/
import Verif.Spec.SPT
import Verif.Props.PTInt
import Mathlib.MeasureTheory.Integral.Prod
import Mathlib.Analysis.SpecialFunctions.Log.NegMulLog

namespace Verif.PT

open MeasureTheory Set Verif.SPT

variable {a b K : ℝ} {P : ℝ → ℝ}

theorem band_integrable (h : Band a b P) (c d : ℝ) : IntegrableOn P (Icc c d) := by
  obtain ⟨C, hC⟩ := h.bdd
  refine Measure.integrableOn_of_bounded (M := C) (by simp) h.meas.aestronglyMeasurable (Filter.Eventually.of_forall fun q => ?_)
  rw [Real.norm_of_nonneg (h.nonneg q)]; exact hC q

/-- Integrals against a spectrum only see the band. -/
theorem band_integral (h : Band a b P) {g : ℝ → ℝ} {s : Set ℝ} (hs : MeasurableSet s) (hsub : Icc a b ⊆ s) : ∫ q in s, P q * g q = ∫ q in Icc a b, P q * g q := by
  refine setIntegral_eq_of_subset_of_forall_diff_eq_zero hs hsub fun q hq => ?_
  by_cases h0 : P q = 0
  · rw [h0, zero_mul]
  · exact absurd (h.supp q h0) hq.2

theorem band_mul (h : Band a b P) {g : ℝ → ℝ} (hg : ContinuousOn g (Icc a b)) : IntegrableOn (fun q => P q * g q) (Icc a b) :=
  (band_integrable h a b).mul_continuousOn hg isCompact_Icc

theorem band_pairs (h : Band a b P) {w : ℝ → ℝ → ℝ} (hw : ContinuousOn (fun p : ℝ × ℝ => w p.1 p.2) (Icc a b ×ˢ Icc a b)) (s : Set (ℝ × ℝ)) (hs : MeasurableSet s) :
    IntegrableOn (PTSpec.pairs w P P) s := by
  have hb : IntegrableOn (PTSpec.pairs w P P) (Icc a b ×ˢ Icc a b) := by
    obtain ⟨C, hC⟩ := h.bdd
    have hm : Measurable fun p : ℝ × ℝ => P p.1 * P p.2 := (h.meas.comp measurable_fst).mul (h.meas.comp measurable_snd)
    have i1 : IntegrableOn (fun p : ℝ × ℝ => P p.1 * P p.2) (Icc a b ×ˢ Icc a b) := by
      refine Measure.integrableOn_of_bounded (M := C*C) (isCompact_Icc.prod isCompact_Icc).measure_lt_top.ne hm.aestronglyMeasurable (Filter.Eventually.of_forall fun p => ?_)
      rw [Real.norm_of_nonneg (mul_nonneg (h.nonneg _) (h.nonneg _))]
      exact mul_le_mul (hC _) (hC _) (h.nonneg _) ((h.nonneg p.1).trans (hC p.1))
    have i2 := i1.mul_continuousOn (((continuous_fst.mul continuous_snd).continuousOn).mul hw) (isCompact_Icc.prod isCompact_Icc)
    refine i2.congr_fun (fun p _ => ?_) (measurableSet_Icc.prod measurableSet_Icc)
    simp only [PTSpec.pairs, Pi.mul_apply]; ring
  have hg : IntegrableOn (PTSpec.pairs w P P) univ := by
    refine IntegrableOn.of_forall_diff_eq_zero hb MeasurableSet.univ fun p hp => ?_
    have : P p.1 = 0 ∨ P p.2 = 0 := by
      by_contra hc
      rw [not_or] at hc
      exact hp.2 ⟨h.supp _ hc.1, h.supp _ hc.2⟩
    rcases this with e | e <;> simp [PTSpec.pairs, e]
  exact hg.mono_set (subset_univ s)

/-- the third side -/
noncomputable def rho (K q x : ℝ) : ℝ := Real.sqrt (K^2 + q^2 - 2*K*q*x)

theorem rho_image {q : ℝ} (hK : 0 < K) (hq : 0 < q) : rho K q '' Ioo (-1) 1 = Ioo |K - q| (K + q) := by
  ext r
  simp only [mem_image, mem_Ioo]
  constructor
  · rintro ⟨x, ⟨h1, h2⟩, rfl⟩
    have hp : 0 < K*q := mul_pos hK hq
    constructor
    · rw [rho, Real.lt_sqrt (abs_nonneg _), sq_abs]; nlinarith
    · rw [rho, Real.sqrt_lt' (by linarith)]; nlinarith
  · rintro ⟨h1, h2⟩
    have hr : 0 < r := (abs_nonneg _).trans_lt h1
    have h3 : (K - q)^2 < r^2 := by rw [← sq_abs]; exact pow_lt_pow_left₀ h1 (abs_nonneg _) two_ne_zero
    have h4 : r^2 < (K + q)^2 := pow_lt_pow_left₀ h2 hr.le two_ne_zero
    have hp : 0 < 2*K*q := by positivity
    refine ⟨(K^2 + q^2 - r^2)/(2*K*q), ⟨?_, ?_⟩, ?_⟩
    · rw [lt_div_iff₀ hp]; nlinarith
    · rw [div_lt_iff₀ hp]; nlinarith
    · rw [rho, mul_div_cancel₀ _ hp.ne', sub_sub_cancel, Real.sqrt_sq hr.le]

theorem rho_pos {q x : ℝ} (hK : 0 < K) (hq : 0 < q) (hx : x ∈ Ioo (-1:ℝ) 1) : 0 < rho K q x := by
  have : rho K q x ∈ Ioo |K - q| (K + q) := by rw [← rho_image hK hq]; exact mem_image_of_mem _ hx
  exact (abs_nonneg _).trans_lt this.1

/-- `∫ dx` over the cosine is `∫ r dr/(kq)` over the third side. -/
theorem integral_rho {q : ℝ} (hK : 0 < K) (hq : 0 < q) (g : ℝ → ℝ) :
    ∫ x in (-1:ℝ)..1, g (rho K q x) = 1/(K*q) * ∫ r in Ioo |K - q| (K + q), r * g r := by
  have hp : 0 < K*q := mul_pos hK hq
  have hd : ∀ x ∈ Ioo (-1:ℝ) 1, HasDerivWithinAt (rho K q) (-(2*K*q)/(2*rho K q x)) (Ioo (-1) 1) x := by
    intro x hx
    have hpos := rho_pos hK hq hx
    have hne : K^2 + q^2 - 2*K*q*x ≠ 0 := by
      intro h0; rw [rho, h0, Real.sqrt_zero] at hpos; exact lt_irrefl _ hpos
    have := (((hasDerivAt_id' x).const_mul (2*K*q)).const_sub (K^2 + q^2)).sqrt hne
    refine (this.congr_deriv ?_).hasDerivWithinAt
    rw [mul_one]; rfl
  have hinj : InjOn (rho K q) (Ioo (-1) 1) := by
    intro x hx y hy hxy
    have h1 : 0 ≤ K^2 + q^2 - 2*K*q*x := by obtain ⟨c, d⟩ := hx; nlinarith [sq_nonneg (K - q)]
    have h2 : 0 ≤ K^2 + q^2 - 2*K*q*y := by obtain ⟨c, d⟩ := hy; nlinarith [sq_nonneg (K - q)]
    have := (Real.sqrt_inj h1 h2).1 hxy
    have h3 : K*q*x = K*q*y := by linarith
    exact mul_left_cancel₀ hp.ne' h3
  rw [← rho_image hK hq, integral_image_eq_integral_abs_deriv_smul measurableSet_Ioo hd hinj, intervalIntegral.integral_of_le (by norm_num), integral_Ioc_eq_integral_Ioo,
    ← integral_const_mul]
  refine setIntegral_congr_fun measurableSet_Ioo fun x hx => ?_
  have hpos := rho_pos hK hq hx
  have : |-(2*K*q)/(2*rho K q x)| = K*q/rho K q x := by
    rw [neg_div, abs_neg, abs_of_pos (by positivity)]; field_simp
  simp only [this, smul_eq_mul]
  have := hpos.ne'
  field_simp

/-- The integral over all `q`, in spherical coordinates around `k`, is the integral over the sides. -/
theorem spherical (h : Band a b P) (ha : 0 < a) (hb : b ≤ 100000) (hK : 0 < K) {w : ℝ → ℝ → ℝ} (hw : ContinuousOn (fun p : ℝ × ℝ => w p.1 p.2) (Icc a b ×ˢ Icc a b)) :
    1/(2*Real.pi^2) * ∫ q in Ioi (0:ℝ), q^2 * P q * (1/2 * ∫ x in (-1:ℝ)..1, w q (rho K q x) * P (rho K q x)) = PTSpec.coupling w P P K 100000 := by
  have hi := band_pairs h hw _ (measurable_triangle K 100000)
  rw [← integrable_indicator_iff (measurable_triangle K 100000), Measure.volume_eq_prod] at hi
  rw [PTSpec.coupling, ← integral_indicator (measurable_triangle K 100000), Measure.volume_eq_prod, integral_prod _ hi, ← integral_indicator measurableSet_Ioi]
  have key : ∀ q, ∫ r, (PTSpec.triangle K 100000).indicator (PTSpec.pairs w P P) (q, r) =
      2*K * (Ioi (0:ℝ)).indicator (fun q => q^2 * P q * (1/2 * ∫ x in (-1:ℝ)..1, w q (rho K q x) * P (rho K q x))) q := by
    intro q
    by_cases h0 : P q = 0
    · have e1 : ∀ r, (PTSpec.triangle K 100000).indicator (PTSpec.pairs w P P) (q, r) = 0 := fun r => by
        rw [Set.indicator_apply_eq_zero]; intro _; simp [PTSpec.pairs, h0]
      simp only [e1, integral_zero]
      by_cases hq : q ∈ Ioi (0:ℝ)
      · rw [indicator_of_mem hq, h0]; ring
      · rw [indicator_of_notMem hq]; ring
    · obtain ⟨hq1, hq2⟩ := h.supp q h0
      have hq : 0 < q := ha.trans_le hq1
      rw [indicator_of_mem (mem_Ioi.2 hq), integral_rho hK hq (fun r => w q r * P r)]
      have e1 : ∀ r, (PTSpec.triangle K 100000).indicator (PTSpec.pairs w P P) (q, r) = (Ioc |K - q| (K + q)).indicator (fun r => q * P q * (r * (w q r * P r))) r := by
        intro r
        by_cases hr0 : P r = 0
        · rw [Set.indicator_apply_eq_zero.2 fun _ => by simp [PTSpec.pairs, hr0], Set.indicator_apply_eq_zero.2 fun _ => by rw [hr0]; ring]
        · have hr2 := (h.supp r hr0).2
          have hm : (q, r) ∈ PTSpec.triangle K 100000 ↔ r ∈ Ioc |K - q| (K + q) := by
            simp only [PTSpec.triangle, mem_ofPred_eq, mem_Ioc, abs_lt]
            constructor
            · rintro ⟨h1, -, h3, h4⟩; exact ⟨⟨by linarith, by linarith⟩, by linarith⟩
            · rintro ⟨⟨h1, h2⟩, h3⟩; exact ⟨by linarith, by linarith, by linarith, by linarith⟩
          by_cases hmem : r ∈ Ioc |K - q| (K + q)
          · rw [indicator_of_mem hmem, indicator_of_mem (hm.2 hmem)]; simp only [PTSpec.pairs]; ring
          · rw [indicator_of_notMem hmem, indicator_of_notMem fun h => hmem (hm.1 h)]
      simp only [e1]
      rw [integral_indicator measurableSet_Ioc, integral_const_mul, integral_Ioc_eq_integral_Ioo]
      have := hK.ne'; have := hq.ne'
      field_simp
  simp only [key]
  rw [integral_const_mul]
  have := hK.ne'; have := Real.pi_pos.ne'
  field_simp
  ring

end Verif.PT
