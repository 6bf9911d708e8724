/- Lemmas for C94: iterated interval integrals. -/
import Verif.Model.PTKernels
import Mathlib.MeasureTheory.Integral.Prod
import Mathlib.MeasureTheory.Integral.IntervalIntegral.Basic
import Mathlib.MeasureTheory.Function.Jacobian
import Mathlib.LinearAlgebra.Determinant
import Mathlib.MeasureTheory.Measure.Lebesgue.EqHaar
import Mathlib.MeasureTheory.Measure.Haar.Unique
import Mathlib.Analysis.SpecialFunctions.ExpDeriv
import Verif.Spec.PT
import Mathlib.Tactic.FieldSimp
import Mathlib.Tactic.Positivity

namespace Verif.PT

open MeasureTheory Set

/-- The integrand is integrable on the rectangle of the quadrature. -/
def Conv (F : ℝ → ℝ → ℝ) (U c d : ℝ) : Prop := IntegrableOn (Function.uncurry F) (Ioc 0 U ×ˢ Ioc c d)

variable {F G : ℝ → ℝ → ℝ} {U c d : ℝ}

theorem Conv.inner (h : Conv F U c d) (hcd : c ≤ d) : ∀ᵐ x ∂(volume.restrict (Ioc 0 U)), IntervalIntegrable (F x) volume c d := by
  unfold Conv IntegrableOn at h
  rw [Measure.volume_eq_prod, ← Measure.prod_restrict] at h
  filter_upwards [h.prod_right_ae] with x hx
  exact (intervalIntegrable_iff_integrableOn_Ioc_of_le hcd).2 hx

theorem Conv.outer (h : Conv F U c d) (hU : 0 ≤ U) (hcd : c ≤ d) : IntervalIntegrable (fun x => ∫ y in c..d, F x y) volume 0 U := by
  unfold Conv IntegrableOn at h
  rw [Measure.volume_eq_prod, ← Measure.prod_restrict] at h
  rw [intervalIntegrable_iff_integrableOn_Ioc_of_le hU]
  simp only [intervalIntegral.integral_of_le hcd]
  exact h.integral_prod_left

theorem Conv.mono (h : Conv F U c d) {c' d' : ℝ} (hc : c ≤ c') (hd : d' ≤ d) : Conv F U c' d' :=
  IntegrableOn.mono_set h (Set.prod_mono le_rfl (Ioc_subset_Ioc hc hd))

theorem Conv.add (h : Conv F U c d) (h' : Conv G U c d) : Conv (fun x y => F x y + G x y) U c d := Integrable.add h h'

theorem Conv.const_mul (h : Conv F U c d) (a : ℝ) : Conv (fun x y => a * F x y) U c d := Integrable.const_mul h a

/-- the double integral of the exact numerics -/
theorem exact_int2 : Num.exact.int2 F 0 U c d = ∫ x in (0:ℝ)..U, ∫ y in c..d, F x y := rfl

theorem int2_congr_ae (hU : 0 ≤ U) {f g : ℝ → ℝ} (h : ∀ᵐ x ∂(volume.restrict (Ioc 0 U)), f x = g x) :
    ∫ x in (0:ℝ)..U, f x = ∫ x in (0:ℝ)..U, g x := by
  rw [intervalIntegral.integral_of_le hU, intervalIntegral.integral_of_le hU]
  exact integral_congr_ae h

theorem int2_add (hU : 0 ≤ U) (hcd : c ≤ d) (hF : Conv F U c d) (hG : Conv G U c d) :
    Num.exact.int2 (fun x y => F x y + G x y) 0 U c d = Num.exact.int2 F 0 U c d + Num.exact.int2 G 0 U c d := by
  rw [exact_int2, exact_int2, exact_int2, ← intervalIntegral.integral_add (hF.outer hU hcd) (hG.outer hU hcd)]
  apply int2_congr_ae hU
  filter_upwards [hF.inner hcd, hG.inner hcd] with x h1 h2
  exact intervalIntegral.integral_add h1 h2

theorem int2_const_mul (a : ℝ) : Num.exact.int2 (fun x y => a * F x y) 0 U c d = a * Num.exact.int2 F 0 U c d := by
  rw [exact_int2, exact_int2]
  simp only [intervalIntegral.integral_const_mul]

theorem int2_split (hU : 0 ≤ U) (h : Conv F U (-1) 1) :
    Num.exact.int2 F 0 U (-1) 0 + Num.exact.int2 F 0 U 0 1 = Num.exact.int2 F 0 U (-1) 1 := by
  have h1 := h.mono (le_refl (-1)) (show (0:ℝ) ≤ 1 by norm_num)
  have h2 := h.mono (show (-1:ℝ) ≤ 0 by norm_num) (le_refl 1)
  rw [exact_int2, exact_int2, exact_int2, ← intervalIntegral.integral_add (h1.outer hU (by norm_num)) (h2.outer hU (by norm_num))]
  apply int2_congr_ae hU
  filter_upwards [h1.inner (by norm_num), h2.inner (by norm_num)] with x h1 h2
  exact intervalIntegral.integral_add_adjacent_intervals h1 h2

theorem int2_neg (F : ℝ → ℝ → ℝ) (a b : ℝ) : Num.exact.int2 (fun x y => F x (-y)) 0 U a b = Num.exact.int2 F 0 U (-b) (-a) := by
  rw [exact_int2, exact_int2]
  exact intervalIntegral.integral_congr fun x _ => intervalIntegral.integral_comp_neg (fun y => F x y)

theorem integrand2_swap {f : ℝ → ℝ → ℝ} (hf : ∀ u v, f u (-v) = f u v) (P Q : ℝ → ℝ) (k x y : ℝ) :
    integrand2 f P Q k x (-y) = integrand2 f Q P k x y := by
  simp only [integrand2, hf, sub_neg_eq_add, ← sub_eq_add_neg]
  ring

theorem integrand2_add_left (f : ℝ → ℝ → ℝ) (P P' Q : ℝ → ℝ) (a b k x y : ℝ) :
    integrand2 f (fun q => a * P q + b * P' q) Q k x y = a * integrand2 f P Q k x y + b * integrand2 f P' Q k x y := by
  simp only [integrand2]; ring

theorem integrand2_add_right (f : ℝ → ℝ → ℝ) (P Q Q' : ℝ → ℝ) (a b k x y : ℝ) :
    integrand2 f P (fun q => a * Q q + b * Q' q) k x y = a * integrand2 f P Q k x y + b * integrand2 f P Q' k x y := by
  simp only [integrand2]; ring

/-! ### From elliptic coordinates to the sides of the triangle -/

instance haarPlane : (volume : Measure (ℝ × ℝ)).IsAddHaarMeasure := Measure.prod.instIsAddHaarMeasure _ _

/-- `(log u, v) ↦ (q, r)` -/
noncomputable def sides (k : ℝ) (p : ℝ × ℝ) : ℝ × ℝ := ((k/2)*(Real.exp p.1 - p.2), (k/2)*(Real.exp p.1 + p.2))

/-- its derivative -/
noncomputable def sides' (k : ℝ) (p : ℝ × ℝ) : ℝ × ℝ →L[ℝ] ℝ × ℝ :=
  (Matrix.toLin (.finTwoProd ℝ) (.finTwoProd ℝ) !![(k/2)*Real.exp p.1, -(k/2); (k/2)*Real.exp p.1, k/2]).toContinuousLinearMap

theorem sides_hasFDerivAt (k : ℝ) (p : ℝ × ℝ) : HasFDerivAt (sides k) (sides' k p) p := by
  unfold sides'
  rw [Matrix.toLin_finTwoProd_toContinuousLinearMap]
  have he : HasFDerivAt (fun p : ℝ × ℝ => Real.exp p.1) (Real.exp p.1 • ContinuousLinearMap.fst ℝ ℝ ℝ) p :=
    (Real.hasDerivAt_exp p.1).comp_hasFDerivAt p hasFDerivAt_fst
  convert! HasFDerivAt.prodMk (𝕜 := ℝ) ((he.sub (hasFDerivAt_snd (𝕜 := ℝ) (p := p))).const_mul (k/2)) ((he.add (hasFDerivAt_snd (𝕜 := ℝ) (p := p))).const_mul (k/2)) using 2 <;>
    simp [smul_smul, smul_add, sub_eq_add_neg, neg_smul _ (ContinuousLinearMap.snd ℝ ℝ ℝ)]

theorem sides_det (k : ℝ) (p : ℝ × ℝ) : (sides' k p).det = k^2/2*Real.exp p.1 := by
  simp only [sides', LinearMap.det_toContinuousLinearMap, LinearMap.det_toLin, Matrix.det_fin_two_of]
  ring

theorem sides_inj {k : ℝ} (hk : 0 < k) (s : Set (ℝ × ℝ)) : InjOn (sides k) s := by
  intro a _ b _ h
  simp only [sides, Prod.mk.injEq] at h
  have hk0 : (k/2) ≠ 0 := by positivity
  have h1 := mul_left_cancel₀ hk0 h.1
  have h2 := mul_left_cancel₀ hk0 h.2
  have he : Real.exp a.1 = Real.exp b.1 := by linarith
  exact Prod.ext (Real.exp_injective he) (by linarith)

theorem sides_image {k Q : ℝ} (hk : 0 < k) (hQ : k ≤ 2*Q) :
    sides k '' (Ioc 0 (Real.log (2*Q/k)) ×ˢ Ioc (-1) 1) = PTSpec.triangle k Q := by
  have hpos : 0 < 2*Q/k := by apply div_pos _ hk; linarith
  ext ⟨q, r⟩
  simp only [Set.mem_image, Set.mem_prod, Set.mem_Ioc, PTSpec.triangle, Set.mem_ofPred_eq, Prod.exists, sides, Prod.mk.injEq]
  constructor
  · rintro ⟨x, y, ⟨⟨hx0, hx1⟩, hy0, hy1⟩, rfl, rfl⟩
    have h1 : 1 < Real.exp x := Real.one_lt_exp_iff.2 hx0
    have h2 : Real.exp x ≤ 2*Q/k := by rwa [← Real.le_log_iff_exp_le hpos]
    rw [le_div_iff₀ hk] at h2
    refine ⟨by nlinarith, by nlinarith, by nlinarith, by nlinarith⟩
  · rintro ⟨h1, h2, h3, h4⟩
    have hu : 0 < (q + r)/k := div_pos (by linarith) hk
    refine ⟨Real.log ((q + r)/k), (r - q)/k, ⟨⟨Real.log_pos ((one_lt_div hk).2 h1), Real.log_le_log hu (div_le_div_of_nonneg_right h2 hk.le)⟩, ?_, ?_⟩, ?_, ?_⟩
    · rw [lt_div_iff₀ hk]; linarith
    · rw [div_le_iff₀ hk]; linarith
    · rw [Real.exp_log hu]; field_simp; ring
    · rw [Real.exp_log hu]; field_simp; ring

theorem sides_integrand {k : ℝ} (hk : 0 < k) (f : ℝ → ℝ → ℝ) (P Q : ℝ → ℝ) (p : ℝ × ℝ) :
    |(sides' k p).det| • PTSpec.pairs (fun q r => f ((q + r)/k) ((r - q)/k)) P Q (sides k p) = (k^2/2) * integrand2 f P Q k p.1 p.2 := by
  rw [sides_det, abs_of_pos (by positivity)]
  have hk0 := hk.ne'
  have e1 : ((k/2)*(Real.exp p.1 - p.2) + (k/2)*(Real.exp p.1 + p.2))/k = Real.exp p.1 := by field_simp; ring
  have e2 : ((k/2)*(Real.exp p.1 + p.2) - (k/2)*(Real.exp p.1 - p.2))/k = p.2 := by field_simp; ring
  simp only [PTSpec.pairs, sides, integrand2, smul_eq_mul, e1, e2]
  ring

theorem conv_of_triangle {k Q : ℝ} (hk : 0 < k) (hQ : k ≤ 2*Q) {f : ℝ → ℝ → ℝ} {P P' : ℝ → ℝ}
    (h : IntegrableOn (PTSpec.pairs (fun q r => f ((q + r)/k) ((r - q)/k)) P P') (PTSpec.triangle k Q)) :
    Conv (integrand2 f P P' k) (Real.log (2*Q/k)) (-1) 1 := by
  rw [← sides_image hk hQ, integrableOn_image_iff_integrableOn_abs_det_fderiv_smul (volume : Measure (ℝ × ℝ)) (measurableSet_Ioc.prod measurableSet_Ioc)
    (fun p _ => (sides_hasFDerivAt k p).hasFDerivWithinAt) (sides_inj hk _)] at h
  simp only [sides_integrand hk] at h
  have := Integrable.const_mul h (2/k^2)
  unfold Conv IntegrableOn
  refine this.congr (Filter.Eventually.of_forall fun p => ?_)
  have := hk.ne'
  simp only [Function.uncurry]
  field_simp

theorem int2_triangle {k Q : ℝ} (hk : 0 < k) (hQ : k ≤ 2*Q) {f : ℝ → ℝ → ℝ} {P P' : ℝ → ℝ}
    (h : Conv (integrand2 f P P' k) (Real.log (2*Q/k)) (-1) 1) :
    ∫ p in PTSpec.triangle k Q, PTSpec.pairs (fun q r => f ((q + r)/k) ((r - q)/k)) P P' p =
      (k^2/2) * Num.exact.int2 (integrand2 f P P' k) 0 (Real.log (2*Q/k)) (-1) 1 := by
  have hU : 0 ≤ Real.log (2*Q/k) := Real.log_nonneg ((one_le_div hk).2 hQ)
  rw [← sides_image hk hQ, integral_image_eq_integral_abs_det_fderiv_smul (volume : Measure (ℝ × ℝ)) (measurableSet_Ioc.prod measurableSet_Ioc)
    (fun p _ => (sides_hasFDerivAt k p).hasFDerivWithinAt) (sides_inj hk _)]
  simp only [sides_integrand hk]
  rw [integral_const_mul, exact_int2, intervalIntegral.integral_of_le hU]
  congr 1
  simp only [intervalIntegral.integral_of_le (show (-1:ℝ) ≤ 1 by norm_num)]
  exact setIntegral_prod (fun p : ℝ × ℝ => integrand2 f P P' k p.1 p.2) h

end Verif.PT
