/-
C101: the cosmology object keeps what it was told.
-/
import Verif.Model.Cosmo
import Verif.Spec.Cosmo
import Mathlib.Analysis.SpecialFunctions.Trigonometric.Bounds
import Mathlib.Analysis.SpecialFunctions.Trigonometric.Deriv
import Mathlib.Analysis.Calculus.MeanValue
import Mathlib.Analysis.Calculus.Deriv.MeanValue
import Mathlib.MeasureTheory.Integral.IntervalIntegral.FundThmCalculus
import Mathlib.Tactic

namespace Verif.Cosmo

open Spec

/-! ### the window -/

theorem window_lower {x : ℝ} (hx : 0 ≤ x) (h1 : x ≤ 1) : x^3/3 - x^5/30 - x^7/700 ≤ Real.sin x - x*Real.cos x := by
  have hd : ∀ t, HasDerivAt (fun t : ℝ => Real.sin t - t*Real.cos t - (t^3/3 - t^5/30 - t^7/700)) (t*Real.sin t - (t^2 - t^4/6 - t^6/100)) t := by
    intro t
    have := ((Real.hasDerivAt_sin t).sub ((hasDerivAt_id t).mul (Real.hasDerivAt_cos t))).sub
      ((((hasDerivAt_pow 3 t).div_const 3).sub ((hasDerivAt_pow 5 t).div_const 30)).sub ((hasDerivAt_pow 7 t).div_const 700))
    exact this.congr_deriv (by simp; ring)
  have hm : MonotoneOn (fun t : ℝ => Real.sin t - t*Real.cos t - (t^3/3 - t^5/30 - t^7/700)) (Set.Icc 0 1) := by
    apply monotoneOn_of_deriv_nonneg (convex_Icc 0 1)
    · exact fun t _ => (hd t).continuousAt.continuousWithinAt
    · exact fun t _ => (hd t).differentiableAt.differentiableWithinAt
    · intro t ht
      rw [interior_Icc] at ht
      rw [(hd t).deriv]
      have hb := abs_le.1 (Real.sin_bound (x := t) (by rw [abs_of_pos ht.1]; exact ht.2.le))
      rw [abs_of_pos ht.1] at hb
      nlinarith [mul_le_mul_of_nonneg_left hb.1 ht.1.le]
  have := hm (Set.left_mem_Icc.2 zero_le_one) ⟨hx, h1⟩ hx
  simp at this
  linarith

theorem window_upper {x : ℝ} (hx : 0 ≤ x) (h1 : x ≤ 1) : Real.sin x - x*Real.cos x ≤ x^3/3 - x^5/30 + x^7/700 := by
  have hd : ∀ t, HasDerivAt (fun t : ℝ => (t^3/3 - t^5/30 + t^7/700) - (Real.sin t - t*Real.cos t)) ((t^2 - t^4/6 + t^6/100) - t*Real.sin t) t := by
    intro t
    have := ((((hasDerivAt_pow 3 t).div_const 3).sub ((hasDerivAt_pow 5 t).div_const 30)).add ((hasDerivAt_pow 7 t).div_const 700)).sub
      ((Real.hasDerivAt_sin t).sub ((hasDerivAt_id t).mul (Real.hasDerivAt_cos t)))
    exact this.congr_deriv (by simp; ring)
  have hm : MonotoneOn (fun t : ℝ => (t^3/3 - t^5/30 + t^7/700) - (Real.sin t - t*Real.cos t)) (Set.Icc 0 1) := by
    apply monotoneOn_of_deriv_nonneg (convex_Icc 0 1)
    · exact fun t _ => (hd t).continuousAt.continuousWithinAt
    · exact fun t _ => (hd t).differentiableAt.differentiableWithinAt
    · intro t ht
      rw [interior_Icc] at ht
      rw [(hd t).deriv]
      have hb := abs_le.1 (Real.sin_bound (x := t) (by rw [abs_of_pos ht.1]; exact ht.2.le))
      rw [abs_of_pos ht.1] at hb
      nlinarith [mul_le_mul_of_nonneg_left hb.2 ht.1.le]
  have := hm (Set.left_mem_Icc.2 zero_le_one) ⟨hx, h1⟩ hx
  simp at this
  linarith

/-- the top-hat window near zero -/
theorem topHat_series {x : ℝ} (hx : 0 < x) (h1 : x ≤ 1) : |topHat x - (1 - x^2/10)| ≤ 3/700*x^4 := by
  have hl := window_lower hx.le h1
  have hu := window_upper hx.le h1
  have e : topHat x - (1 - x^2/10) = 3*((Real.sin x - x*Real.cos x) - (x^3/3 - x^5/30))/x^3 := by
    unfold topHat; field_simp; ring
  rw [e, abs_le, le_div_iff₀ (by positivity), div_le_iff₀ (by positivity)]
  constructor <;> nlinarith

/-- **C101** (window): the window of the normalisation is the top hat, to a part in `10^18` -/
theorem C101_window {x : ℝ} (hx : 0 < x) : |window x - topHat x| ≤ 1/10^18 := by
  unfold window
  split
  · next h =>
    have := topHat_series hx (by linarith)
    rw [abs_sub_comm]
    have e : 3*(1/3 - x*x/30) = 1 - x^2/10 := by ring
    rw [e]
    refine this.trans ?_
    have : x^4 ≤ (1/10000)^4 := pow_le_pow_left₀ hx.le h.le 4
    norm_num at this ⊢
    linarith
  · have e : 3*((Real.sin x - x*Real.cos x)/x^2/x) = topHat x := by unfold topHat; field_simp
    rw [e]; norm_num

/-- **C101** (finding): the window of `PowerSpectrum::Sigma` has the wrong second-order coefficient near zero -/
theorem C101_sigma_window_counterexample {x : ℝ} (hx : 0 < x) (h : x < 1/100000) : topHat x + x^2/20 < W8 x := by
  have := (abs_le.1 (topHat_series hx (by linarith))).2
  unfold W8
  rw [if_pos h]
  have : x^4 ≤ x^2*(1/100000) := by nlinarith [pow_pos hx 3]
  nlinarith [pow_pos hx 2]

/-! ### reachable objects -/

/-- objects made by one of the constructors and then operated on, with each operation allowed by `ok` -/
inductive Reach (W : World) (ok : Cos → Op → Prop) : Cos → Prop
  | construct (p f σ) : construct W p f = some σ → Reach W ok σ
  | arrays (p f s t σ) : constructArrays W p f s t = some σ → Reach W ok σ
  | fromPower (p t σ) : fromPower W p t = some σ → Reach W ok σ
  | toClass (p s f l σ) : toClass W p s f l = some σ → Reach W ok σ
  | step (σ op τ) : Reach W ok σ → ok σ op → step W σ op = some τ → Reach W ok τ

/-- a cosmology that is normalised -/
def Good (W : World) (σ : Cos) : Prop :=
  ∃ e T, σ.eng = some e ∧ σ.eh = some e ∧ transfer W σ = some T ∧ σ.deltaH = σ.sigma8/Real.sqrt (sigmaSq e.ns T)

theorem transfer_congr (W : World) {σ τ : Cos} (h1 : σ.eh = τ.eh) (h2 : σ.fit = τ.fit) (h3 : σ.spl = τ.spl) : transfer W σ = transfer W τ := by
  unfold transfer; rw [h1, h2, h3]

theorem normalize_some {W : World} {s : ℝ} {σ τ : Cos} (h : normalize W s σ = some τ) :
    ∃ e T, σ.eng = some e ∧ transfer W σ = some T ∧ τ = { σ with deltaH := s/Real.sqrt (sigmaSq e.ns T) } := by
  unfold normalize at h
  split at h
  · next e T h1 h2 => exact ⟨e, T, h1, h2, (Option.some.inj h).symm⟩
  · exact absurd h (by simp)

/-- everything `Initialize` sets -/
theorem init_some {W : World} {σ τ : Cos} (h : initCos W σ = some τ) :
    ∃ e T, e = engine W σ ∧ τ.eng = some e ∧ τ.eh = some e ∧ transfer W τ = some T ∧ τ.sigma8 = e.sigma8 ∧
      τ.deltaH = e.sigma8/Real.sqrt (sigmaSq e.ns T) ∧ τ.pars = σ.pars ∧ τ.fit = σ.fit ∧ τ.table = σ.table ∧
      (τ.fit = .CLASS → τ.spl = build e τ.table) ∧ (τ.fit ≠ .CLASS → τ.spl = σ.spl) := by
  obtain ⟨e, he⟩ : ∃ e, e = engine W σ := ⟨_, rfl⟩
  unfold initCos at h
  simp only [← he] at h
  by_cases hf : σ.fit = .CLASS
  · simp only [hf, if_true] at h
    cases hb : build e σ.table with
    | none => simp [hb] at h
    | some b =>
      simp only [hb, Option.map_some, Option.bind_some] at h
      obtain ⟨e', T, h1, h2, rfl⟩ := normalize_some h
      cases h1
      exact ⟨e, T, he, rfl, rfl, by rw [← h2]; exact transfer_congr W rfl (by simp [hf]) rfl, rfl, rfl, rfl, by simp [hf], rfl, by simp [hb], by simp⟩
  · simp only [hf, if_false, Option.bind_some] at h
    obtain ⟨e', T, h1, h2, rfl⟩ := normalize_some h
    cases h1
    exact ⟨e, T, he, rfl, rfl, by rw [← h2]; exact transfer_congr W rfl rfl rfl, rfl, rfl, rfl, rfl, rfl, fun h => absurd h hf, fun _ => rfl⟩

theorem init_good {W : World} {σ τ : Cos} (h : initCos W σ = some τ) : Good W τ := by
  obtain ⟨e, T, _, h1, h2, h3, h4, h5, _⟩ := init_some h
  exact ⟨e, T, h1, h2, h3, by rw [h5, h4]⟩

theorem setSigma8_some {W : World} {s : ℝ} {σ τ : Cos} (h : setSigma8 W s σ = some τ) :
    ∃ e T, σ.eng = some e ∧ transfer W σ = some T ∧ τ = { σ with sigma8 := s, deltaH := s/Real.sqrt (sigmaSq e.ns T) } := by
  obtain ⟨e, T, h1, h2, h3⟩ := normalize_some h
  exact ⟨e, T, h1, by rw [← h2]; exact transfer_congr W rfl rfl rfl, h3⟩

theorem setSigma8_good {W : World} {s : ℝ} {σ τ : Cos} (hg : Good W σ) (h : setSigma8 W s σ = some τ) : Good W τ := by
  obtain ⟨e, T, h1, h2, rfl⟩ := setSigma8_some h
  obtain ⟨e', T', g1, g2, g3, _⟩ := hg
  rw [g1] at h1; cases h1
  exact ⟨e, T, g1, g2, by rw [← h2]; exact transfer_congr W rfl rfl rfl, rfl⟩

theorem construct_good {W : World} {p f σ} (h : construct W p f = some σ) : Good W σ := init_good h

theorem constructArrays_good {W : World} {p f s t σ} (h : constructArrays W p f s t = some σ) : Good W σ := by
  unfold constructArrays at h
  obtain ⟨τ, h1, h2⟩ := Option.bind_eq_some_iff.1 h
  exact setSigma8_good (init_good h1) h2

theorem fromPower_good {W : World} {p t σ} (h : fromPower W p t = some σ) : Good W σ := by
  unfold fromPower at h
  obtain ⟨τ, h1, h2⟩ := Option.bind_eq_some_iff.1 h
  exact init_good h2

theorem toClass_good {W : World} {p s f l σ} (h : toClass W p s f l = some σ) : Good W σ := by
  unfold toClass at h
  obtain ⟨τ, h1, h2⟩ := Option.bind_eq_some_iff.1 h
  refine setSigma8_good ?_ h2
  cases l with
  | none => exact construct_good h1
  | some l => exact fromPower_good h1

theorem setTransfer_good {W : World} {f σ τ} (hg : Good W σ) (h : setTransfer W f σ = some τ) : Good W τ := by
  unfold setTransfer at h
  split at h
  · cases h; exact hg
  · exact init_good h

theorem reach_good {W : World} {ok : Cos → Op → Prop} (hok : ∀ σ s, ¬ ok σ (.normalize s)) {σ : Cos} (h : Reach W ok σ) : Good W σ := by
  induction h with
  | construct p f σ h => exact construct_good h
  | arrays p f s t σ h => exact constructArrays_good h
  | fromPower p t σ h => exact fromPower_good h
  | toClass p s f l σ h => exact toClass_good h
  | step σ op τ _ ho hs ih =>
    cases op with
    | sigma8 s => exact setSigma8_good ih hs
    | transfer f => exact setTransfer_good ih hs
    | update d => exact init_good hs
    | pickle => exact constructArrays_good hs
    | clone tf =>
      cases tf with
      | none => exact constructArrays_good hs
      | some f =>
        obtain ⟨ρ, h1, h2⟩ := Option.bind_eq_some_iff.1 hs
        exact setTransfer_good (constructArrays_good h1) h2
    | copy => exact init_good hs
    | normalize s => exact absurd ho (hok σ s)

/-! ### the normalisation -/

theorem window_sq {x : ℝ} (hx : 0 < x) : |(topHat x)^2 - (window x)^2| ≤ 1/10^17*(window x)^2 := by
  unfold window
  split
  · next h =>
    have hs := topHat_series hx (by linarith)
    have e : 3*(1/3 - x*x/30) = 1 - x^2/10 := by ring
    rw [e]
    have h4 : x^4 ≤ (1/10000)^4 := pow_le_pow_left₀ hx.le h.le 4
    have h2 : x^2 ≤ (1/10000)^2 := pow_le_pow_left₀ hx.le h.le 2
    have hx2 : 0 ≤ x^2 := by positivity
    obtain ⟨t, ht⟩ : ∃ t, t = topHat x := ⟨_, rfl⟩
    obtain ⟨w, hw⟩ : ∃ w, w = 1 - x^2/10 := ⟨_, rfl⟩
    rw [← ht, ← hw] at hs ⊢
    have hw1 : 9/10 ≤ w := by rw [hw]; norm_num at h2; linarith
    have hw2 : w ≤ 1 := by rw [hw]; linarith
    have hd : |t - w| ≤ 1/10^18 := hs.trans (by norm_num at h4 ⊢; linarith)
    have ha := abs_le.1 hd
    have ht2 : |t + w| ≤ 3 := abs_le.2 ⟨by norm_num at ha; linarith, by norm_num at ha; linarith⟩
    rw [show t^2 - w^2 = (t - w)*(t + w) by ring, abs_mul]
    calc |t - w| * |t + w| ≤ 1/10^18*3 := mul_le_mul hd ht2 (abs_nonneg _) (by norm_num)
      _ ≤ 1/10^17*w^2 := by nlinarith
  · have e : 3*((Real.sin x - x*Real.cos x)/x^2/x) = topHat x := by unfold topHat; field_simp
    rw [e, sub_self, abs_zero]; positivity

theorem measurable_topHat : Measurable topHat := by
  unfold topHat
  exact (((Real.measurable_sin.sub (measurable_id.mul Real.measurable_cos)).const_mul 3)).div (measurable_id.pow_const 3)

theorem measurable_window : Measurable window := by
  unfold window
  refine Measurable.const_mul ?_ 3
  refine Measurable.ite measurableSet_Iio (by fun_prop) ?_
  exact ((Real.measurable_sin.sub (measurable_id.mul Real.measurable_cos)).div (measurable_id.pow_const 2)).div measurable_id

/-- the variance of a spectrum with the window of the code, and with the top hat -/
theorem variance_window (P : ℝ → ℝ) (hP : ∀ k, 0 < k → 0 ≤ P k)
    (hi : IntervalIntegrable (fun k => k^2/(2*Real.pi^2) * P k * (window (k*8))^2) MeasureTheory.volume (1/100000) 100) :
    |variance P 8 - ∫ k in (1/100000:ℝ)..100, k^2/(2*Real.pi^2) * P k * (window (k*8))^2| ≤
      1/10^17*∫ k in (1/100000:ℝ)..100, k^2/(2*Real.pi^2) * P k * (window (k*8))^2 := by
  have h0 : (1/100000:ℝ) ≤ 100 := by norm_num
  obtain ⟨r, hr⟩ : ∃ r : ℝ → ℝ, r = fun k => if k*8 < 1/10000 then (topHat (k*8))^2/(window (k*8))^2 else 1 := ⟨_, rfl⟩
  have hwin : ∀ k, 0 < k → k*8 < 1/10000 → window (k*8) ≠ 0 := by
    intro k hk h
    unfold window
    rw [if_pos h]
    have : (k*8)*(k*8) ≤ 1 := by nlinarith
    have : 0 < 1/3 - (k*8)*(k*8)/30 := by linarith
    positivity
  have hfg : ∀ k, 0 < k → k^2/(2*Real.pi^2) * P k * (topHat (k*8))^2 = (k^2/(2*Real.pi^2) * P k * (window (k*8))^2) * r k := by
    intro k hk
    rw [hr]
    simp only
    split
    · next h => have := hwin k hk h; field_simp
    · next h =>
      have : window (k*8) = topHat (k*8) := by
        unfold window
        rw [if_neg h]; unfold topHat; field_simp
      rw [this, mul_one]
  have hmr : Measurable r := by
    rw [hr]
    refine Measurable.ite (measurableSet_lt (by fun_prop) measurable_const) ?_ measurable_const
    exact ((measurable_topHat.comp (by fun_prop)).pow_const 2).div ((measurable_window.comp (by fun_prop)).pow_const 2)
  have hpos : ∀ k ∈ Set.Ioc (1/100000:ℝ) 100, 0 < k := fun k hk => lt_trans (by norm_num) hk.1
  have hbd : ∀ k ∈ Set.Ioc (1/100000:ℝ) 100, |k^2/(2*Real.pi^2) * P k * (topHat (k*8))^2 - k^2/(2*Real.pi^2) * P k * (window (k*8))^2| ≤
      1/10^17*(k^2/(2*Real.pi^2) * P k * (window (k*8))^2) := by
    intro k hk
    have hk := hpos k hk
    have := window_sq (x := k*8) (by positivity)
    have hn : 0 ≤ k^2/(2*Real.pi^2) * P k := mul_nonneg (by positivity) (hP k hk)
    rw [← mul_sub, abs_mul, abs_of_nonneg hn]
    calc _ ≤ k^2/(2*Real.pi^2) * P k * (1/10^17*(window (k*8))^2) := mul_le_mul_of_nonneg_left this hn
      _ = _ := by ring
  rw [intervalIntegrable_iff_integrableOn_Ioc_of_le h0] at hi
  have hm : MeasureTheory.AEStronglyMeasurable (fun k => k^2/(2*Real.pi^2) * P k * (topHat (k*8))^2) (MeasureTheory.volume.restrict (Set.Ioc (1/100000:ℝ) 100)) := by
    refine (hi.aestronglyMeasurable.mul hmr.aestronglyMeasurable).congr ?_
    refine (MeasureTheory.ae_restrict_iff' measurableSet_Ioc).2 (Filter.Eventually.of_forall fun k hk => ?_)
    exact (hfg k (hpos k hk)).symm
  have hj : MeasureTheory.IntegrableOn (fun k => k^2/(2*Real.pi^2) * P k * (topHat (k*8))^2) (Set.Ioc (1/100000:ℝ) 100) MeasureTheory.volume := by
    refine (hi.const_mul 2).mono' hm ?_
    refine (MeasureTheory.ae_restrict_iff' measurableSet_Ioc).2 (Filter.Eventually.of_forall fun k hk => ?_)
    have h1 := hbd k hk
    have hk := hpos k hk
    have hn : 0 ≤ k^2/(2*Real.pi^2) * P k * (window (k*8))^2 := mul_nonneg (mul_nonneg (by positivity) (hP k hk)) (by positivity)
    have hn' : 0 ≤ k^2/(2*Real.pi^2) * P k * (topHat (k*8))^2 := mul_nonneg (mul_nonneg (by positivity) (hP k hk)) (by positivity)
    rw [Real.norm_eq_abs, abs_of_nonneg hn']
    have := (abs_le.1 h1).2
    norm_num at this
    linarith
  unfold variance
  rw [intervalIntegral.integral_of_le h0, intervalIntegral.integral_of_le h0, ← MeasureTheory.integral_sub hj hi, ← MeasureTheory.integral_const_mul]
  rw [← Real.norm_eq_abs]
  refine MeasureTheory.norm_integral_le_of_norm_le (hi.const_mul _) ?_
  refine (MeasureTheory.ae_restrict_iff' measurableSet_Ioc).2 (Filter.Eventually.of_forall fun k hk => ?_)
  rw [Real.norm_eq_abs]
  exact hbd k hk

theorem sigmaSq_nonneg (ns : ℝ) (T : ℝ → ℝ) : 0 ≤ sigmaSq ns T := by
  unfold sigmaSq
  refine intervalIntegral.integral_nonneg (by norm_num) fun k hk => ?_
  have hk : 0 < k := lt_of_lt_of_le (by norm_num) hk.1
  have : 0 ≤ k.rpow ns := Real.rpow_nonneg hk.le _
  positivity

/-- the variance of the unnormalised spectrum -/
theorem variance_unnormalised (ns : ℝ) (T : ℝ → ℝ) (h : 0 < sigmaSq ns T) (c : ℝ) (hc : 0 ≤ c) :
    |variance (fun k => c * k.rpow ns * (T k)^2) 8 - c*sigmaSq ns T| ≤ 1/10^17*(c*sigmaSq ns T) := by
  have e : ∀ k : ℝ, k^2/(2*Real.pi^2) * (c * k.rpow ns * (T k)^2) * (window (k*8))^2 = c * (k*k/(2*Real.pi*Real.pi) * k.rpow ns * (T k)^2 * (window (k*8))^2) := by
    intro k; ring
  have hi : IntervalIntegrable (fun k => k*k/(2*Real.pi*Real.pi) * k.rpow ns * (T k)^2 * (window (k*8))^2) MeasureTheory.volume (1/100000) 100 := by
    by_contra hn
    have := intervalIntegral.integral_undef (E := ℝ) hn
    unfold sigmaSq at h
    rw [this] at h
    exact lt_irrefl _ h
  have := variance_window (fun k => c * k.rpow ns * (T k)^2)
    (fun k hk => mul_nonneg (mul_nonneg hc (Real.rpow_nonneg hk.le _)) (sq_nonneg _)) (by simp only [e]; exact hi.const_mul c)
  simp only [e] at this
  rw [intervalIntegral.integral_const_mul] at this
  exact this

/-- **C101** (normalisation): whatever was done to a cosmology (other than a call of `NormalizeTransferFunction`), its linear power spectrum at redshift `z` has the rms fluctuation in spheres of
8 Mpc/h that `Sigma8_z(z)` reports, to a part in `10^17` -/
theorem C101_normalised (W : World) {σ : Cos} (h : Reach W (fun _ op => ∀ s, op ≠ .normalize s) σ) (z : ℝ) {e : Run} (he : σ.eng = some e) {P : ℝ → ℝ}
    (hP : linearPS W σ z = some P) (hpos : 0 < variance P 8) : |variance P 8 - (sigma8z e σ z)^2| ≤ 1/10^17*(sigma8z e σ z)^2 := by
  obtain ⟨e', T, h1, h2, h3, h4⟩ := reach_good (fun σ s h => h s rfl) h
  rw [he] at h1; cases h1
  unfold linearPS at hP
  rw [he, h3] at hP
  simp only [Option.some.injEq] at hP
  subst hP
  have hd : σ.deltaH ≠ 0 := by
    intro h
    rw [h] at hpos
    unfold variance at hpos
    simp at hpos
  have hs8 : σ.sigma8 ≠ 0 := by intro h; rw [h4, h, zero_div] at hd; exact hd rfl
  have hss : 0 < sigmaSq e.ns T := by
    rcases (sigmaSq_nonneg e.ns T).lt_or_eq with h | h
    · exact h
    · rw [← h, Real.sqrt_zero, div_zero] at h4; exact absurd h4 hd
  have := variance_unnormalised e.ns T hss (σ.deltaH^2 * (sigma8z e σ z/σ.sigma8)^2) (by positivity)
  have e2 : σ.deltaH^2 * (sigma8z e σ z/σ.sigma8)^2 * sigmaSq e.ns T = (sigma8z e σ z)^2 := by
    have hq : Real.sqrt (sigmaSq e.ns T) ^ 2 = sigmaSq e.ns T := Real.sq_sqrt hss.le
    rw [h4, div_pow, div_pow, hq]
    field_simp
  rw [e2] at this
  exact this

/-! ### copies -/

/-- the run of CLASS is that of the parameters -/
def Fresh (W : World) (σ : Cos) : Prop := σ.eng = some (W.run σ.pars) ∧ (σ.fit = .CLASS → σ.spl = build (W.run σ.pars) σ.table)

theorem init_fresh {W : World} {σ τ : Cos} (h : initCos W σ = some τ) (he : engine W σ = W.run σ.pars) : Fresh W τ := by
  obtain ⟨e, T, h0, h1, h2, h3, h4, h5, h6, h7, h8, h9, h10⟩ := init_some h
  rw [h0, he] at h1 h9
  exact ⟨by rw [h1, h6], fun hf => by rw [h9 hf, h6]⟩

theorem setSigma8_fresh {W : World} {s : ℝ} {σ τ : Cos} (hg : Fresh W σ) (h : setSigma8 W s σ = some τ) : Fresh W τ := by
  obtain ⟨e, T, h1, h2, rfl⟩ := setSigma8_some h
  exact hg

theorem construct_fresh {W : World} {p f σ} (h : construct W p f = some σ) : Fresh W σ := by
  refine init_fresh h ?_
  split <;> rfl

theorem constructArrays_fresh {W : World} {p f s t σ} (h : constructArrays W p f s t = some σ) : Fresh W σ := by
  unfold constructArrays at h
  obtain ⟨τ, h1, h2⟩ := Option.bind_eq_some_iff.1 h
  exact setSigma8_fresh (init_fresh h1 rfl) h2

theorem fromPower_fresh {W : World} {p t σ} (h : fromPower W p t = some σ) : Fresh W σ := by
  unfold fromPower at h
  obtain ⟨τ, h1, h2⟩ := Option.bind_eq_some_iff.1 h
  refine init_fresh h2 ?_
  simp only [engine, (construct_fresh h1).1]

theorem toClass_fresh {W : World} {p s f l σ} (h : toClass W p s f l = some σ) : Fresh W σ := by
  unfold toClass at h
  obtain ⟨τ, h1, h2⟩ := Option.bind_eq_some_iff.1 h
  refine setSigma8_fresh ?_ h2
  cases l with
  | none => exact construct_fresh h1
  | some l => exact fromPower_fresh h1

theorem setTransfer_fresh {W : World} {f σ τ} (hg : Fresh W σ) (h : setTransfer W f σ = some τ) : Fresh W τ := by
  unfold setTransfer at h
  split at h
  · cases h; exact hg
  · refine init_fresh h ?_
    by_cases hf : f = .CLASS
    · simp only [hf, if_true]; rfl
    · simp only [hf, if_false, engine, hg.1]

/-- operations after which the run of CLASS is that of the parameters: `update` only with the CLASS transfer function -/
def okFresh (σ : Cos) (op : Op) : Prop := (∀ s, op ≠ .normalize s) ∧ ∀ d, op = .update d → σ.fit = .CLASS

theorem reach_fresh {W : World} {σ : Cos} (h : Reach W okFresh σ) : Fresh W σ := by
  induction h with
  | construct p f σ h => exact construct_fresh h
  | arrays p f s t σ h => exact constructArrays_fresh h
  | fromPower p t σ h => exact fromPower_fresh h
  | toClass p s f l σ h => exact toClass_fresh h
  | step σ op τ _ ho hs ih =>
    cases op with
    | sigma8 s => exact setSigma8_fresh ih hs
    | transfer f => exact setTransfer_fresh ih hs
    | update d =>
      refine init_fresh hs ?_
      have := ho.2 d rfl
      simp only [this, if_true]
      rfl
    | pickle => exact constructArrays_fresh hs
    | clone tf =>
      cases tf with
      | none => exact constructArrays_fresh hs
      | some f =>
        obtain ⟨ρ, h1, h2⟩ := Option.bind_eq_some_iff.1 hs
        exact setTransfer_fresh (constructArrays_fresh h1) h2
    | copy =>
      refine init_fresh hs ?_
      split <;> rfl
    | normalize s => exact absurd rfl (ho.1 s)

theorem init_eq {W : World} {σ : Cos} {s : Option Spl} {T : ℝ → ℝ} (hs : σ.fit = .CLASS → build (engine W σ) σ.table = s ∧ s.isSome)
    (hs' : σ.fit ≠ .CLASS → σ.spl = s) (hT : transfer W { σ with eh := some (engine W σ), spl := s } = some T) :
    initCos W σ = some { σ with eng := some (engine W σ), eh := some (engine W σ), spl := s, sigma8 := (engine W σ).sigma8, deltaH := (engine W σ).sigma8/Real.sqrt (sigmaSq (engine W σ).ns T) } := by
  obtain ⟨e, he⟩ : ∃ e, e = engine W σ := ⟨_, rfl⟩
  unfold initCos
  simp only [← he] at hs hT ⊢
  by_cases hf : σ.fit = .CLASS
  · obtain ⟨h1, h2⟩ := hs hf
    obtain ⟨b, rfl⟩ := Option.isSome_iff_exists.1 h2
    simp only [hf, if_true, h1, Option.map_some, Option.bind_some, normalize]
    rw [show transfer W { σ with eng := some e, eh := some e, fit := .CLASS, sigma8 := e.sigma8, deltaH := σ.deltaH, spl := some b } = some T from by
      rw [← hT]; exact transfer_congr W rfl hf.symm rfl]
  · simp only [hf, if_false, Option.bind_some, normalize]
    have hs' := hs' hf
    subst hs'
    rw [show transfer W { σ with eng := some e, eh := some e, sigma8 := e.sigma8, deltaH := σ.deltaH } = some T from hT]

/-- the two parameters that `ClassParams.from_dict` adds are there -/
def Complete (p : Params) : Prop := (p "P_k_max_h/Mpc").isSome ∧ (p "z_max_pk").isSome

theorem fromDict_complete {p : Params} (h : Complete p) : fromDict p = p := by
  funext k
  unfold fromDict
  cases hp : p k with
  | some v => rfl
  | none =>
    have h1 : k ≠ "P_k_max_h/Mpc" := by rintro rfl; simp [Complete, hp] at h
    have h2 : k ≠ "z_max_pk" := by rintro rfl; simp [Complete, hp] at h
    simp [h1, h2]

theorem build_some_class {W : World} {σ : Cos} {T : ℝ → ℝ} (h : transfer W σ = some T) (hf : σ.fit = .CLASS) : σ.spl.isSome := by
  unfold transfer at h
  rw [hf] at h
  split at h
  · cases h
  · simp only at h
    cases hs : σ.spl with
    | none => simp [hs] at h
    | some b => rfl

/-- **C101** (copies): an object whose parameters say how far CLASS is to compute (as those of `to_class` do), whatever was done to it before (other than `NormalizeTransferFunction`, and `update`
with another transfer function than that of CLASS), is the same after pickling and unpickling it, or `clone()`, in every respect; unless its transfer function is the one from arrays -/
theorem C101_pickle (W : World) {σ : Cos} (h : Reach W okFresh σ) (hf : σ.fit ≠ .FromArrays) (hp : Complete σ.pars) :
    ∃ τ, pickle W σ = some τ ∧ clone W none σ = some τ ∧ τ.pars = σ.pars ∧ τ.fit = σ.fit ∧ τ.eng = σ.eng ∧ τ.table = σ.table ∧ τ.sigma8 = σ.sigma8 ∧ τ.deltaH = σ.deltaH ∧
      transfer W τ = transfer W σ ∧ ∀ z, linearPS W τ z = linearPS W σ z := by
  obtain ⟨e, T, h1, h2, h3, h4⟩ := reach_good (fun σ s h => h.1 s rfl) h
  obtain ⟨g1, g2⟩ := reach_fresh h
  have hee : W.run σ.pars = e := by rw [g1] at h1; exact Option.some.inj h1
  rw [hee] at g1 g2
  obtain ⟨σ0, hσ0⟩ : ∃ σ0 : Cos, σ0 = { blank σ.pars σ.fit with table := σ.table } := ⟨_, rfl⟩
  have he0 : engine W σ0 = e := by rw [hσ0]; exact hee
  have hfit : σ0.fit = σ.fit := by rw [hσ0]; rfl
  have htab : σ0.table = σ.table := by rw [hσ0]
  have hspl : σ0.spl = none := by rw [hσ0]; rfl
  obtain ⟨s, hs⟩ : ∃ s : Option Spl, s = if σ.fit = .CLASS then σ.spl else none := ⟨_, rfl⟩
  have hT0 : transfer W { σ0 with eh := some e, spl := s } = some T := by
    rw [← h3]
    unfold transfer
    rw [h2]
    simp only [hfit, hs]
    cases hc : σ.fit <;> simp_all
  have hi := init_eq (W := W) (σ := σ0) (s := s) (T := T)
    (fun hc => by
      rw [hfit] at hc
      have hb := build_some_class h3 hc
      rw [he0, htab, hs, if_pos hc, g2 hc]
      rw [g2 hc] at hb
      exact ⟨rfl, hb⟩)
    (fun hc => by rw [hfit] at hc; rw [hspl, hs, if_neg hc])
    (by rw [he0]; exact hT0)
  rw [he0] at hi
  have hpk : pickle W σ = some { σ0 with eng := some e, eh := some e, spl := s, sigma8 := σ.sigma8, deltaH := σ.sigma8/Real.sqrt (sigmaSq e.ns T) } := by
    unfold pickle constructArrays
    rw [fromDict_complete hp, ← hσ0, hi]
    simp only [Option.bind_some, setSigma8, normalize]
    rw [show transfer W { σ0 with eng := some e, eh := some e, sigma8 := σ.sigma8, deltaH := _, spl := s } = some T from hT0]
  have hTτ : ∀ d t, transfer W { σ0 with eng := some e, eh := some e, spl := s, sigma8 := t, deltaH := d } = transfer W σ := by
    intro d t
    rw [h3]; exact hT0
  refine ⟨_, hpk, hpk, by rw [hσ0]; rfl, hfit, h1.symm, htab, rfl, h4.symm, hTτ _ _, fun z => ?_⟩
  unfold linearPS
  rw [hTτ, h1, h3, ← h4]
  rfl

theorem constructArrays_sigma8 {W : World} {p f s t τ} (h : constructArrays W p f s t = some τ) : τ.sigma8 = s ∧ τ.fit = f ∧ τ.pars = p ∧ τ.table = t ∧ τ.eng = some (W.run p) := by
  unfold constructArrays at h
  obtain ⟨ρ, h1, h2⟩ := Option.bind_eq_some_iff.1 h
  obtain ⟨e, T, h3, h4, rfl⟩ := setSigma8_some h2
  obtain ⟨e', T', g0, g1, g2, g3, g4, g5, g6, g7, g8, _⟩ := init_some h1
  exact ⟨rfl, g7, g6, g8, by rw [g1, g0]; rfl⟩

/-- **C101** (copies): the value given to `SetSigma8` is kept by pickling, by `clone`, and by setting the transfer function, if that does not change -/
theorem C101_sigma8_kept (W : World) {σ τ : Cos} {op : Op} (ho : op = .pickle ∨ op = .clone none ∨ op = .clone (some σ.fit) ∨ op = .transfer σ.fit)
    (h : step W σ op = some τ) : τ.sigma8 = σ.sigma8 ∧ τ.fit = σ.fit := by
  rcases ho with rfl | rfl | rfl | rfl
  · exact ⟨(constructArrays_sigma8 h).1, (constructArrays_sigma8 h).2.1⟩
  · exact ⟨(constructArrays_sigma8 h).1, (constructArrays_sigma8 h).2.1⟩
  · obtain ⟨ρ, h1, h2⟩ := Option.bind_eq_some_iff.1 h
    have h3 := constructArrays_sigma8 h1
    unfold setTransfer at h2
    rw [if_pos h3.2.1.symm] at h2
    cases h2
    exact ⟨h3.1, h3.2.1⟩
  · unfold step setTransfer at h
    simp only [if_true] at h
    cases h
    exact ⟨rfl, rfl⟩

/-- **C101** (finding): a change of the transfer function, `clone` with another transfer function, the copy constructor, and `update` all forget the value given to `SetSigma8`, always: it
is that of CLASS afterwards -/
theorem C101_sigma8_lost_counterexample (W : World) {σ τ : Cos} {op : Op}
    (ho : (∃ f, f ≠ σ.fit ∧ op = .transfer f) ∨ (∃ f, f ≠ σ.fit ∧ op = .clone (some f)) ∨ (∃ d, op = .update d) ∨ op = .copy)
    (h : step W σ op = some τ) : ∃ e, τ.eng = some e ∧ τ.sigma8 = e.sigma8 := by
  have key : ∀ {ρ ρ' : Cos}, initCos W ρ = some ρ' → ∃ e, ρ'.eng = some e ∧ ρ'.sigma8 = e.sigma8 := by
    intro ρ ρ' h
    obtain ⟨e, T, g0, g1, g2, g3, g4, _⟩ := init_some h
    exact ⟨e, g1, g4⟩
  rcases ho with ⟨f, hf, rfl⟩ | ⟨f, hf, rfl⟩ | ⟨d, rfl⟩ | rfl
  · unfold step setTransfer at h
    simp only [hf, if_false] at h
    exact key h
  · obtain ⟨ρ, h1, h2⟩ := Option.bind_eq_some_iff.1 h
    have h3 := constructArrays_sigma8 h1
    unfold setTransfer at h2
    rw [if_neg (by rw [h3.2.1]; exact hf)] at h2
    exact key h2
  · exact key h
  · exact key h

/-! ### changes that are not seen -/

theorem linearPS_congr {W : World} {σ τ : Cos} {e : Run} {T : ℝ → ℝ} (h1 : σ.eng = some e) (h2 : τ.eng = some e) (h3 : transfer W σ = some T) (h4 : transfer W τ = some T)
    (h5 : σ.sigma8 = τ.sigma8) (h6 : σ.deltaH = τ.deltaH) (z : ℝ) : linearPS W σ z = linearPS W τ z := by
  unfold linearPS sigma8z
  rw [h1, h2, h3, h4, h5, h6]

/-- **C101** (finding): with another transfer function than that of CLASS, `update` changes the parameters that are reported, but nothing that is computed: neither the background nor the
transfer function nor (unless `SetSigma8` had been called) the power spectrum, whatever the new parameters are -/
theorem C101_update_ignored_counterexample (W : World) {σ τ : Cos} (h : Reach W (fun _ op => ∀ s, op ≠ .normalize s) σ) (hf : σ.fit ≠ .CLASS) (d : Params) (hu : update W d σ = some τ) :
    τ.pars = merge σ.pars (fromDict d) ∧ τ.eng = σ.eng ∧ transfer W τ = transfer W σ ∧ ∃ e, σ.eng = some e ∧ τ.sigma8 = e.sigma8 ∧ (σ.sigma8 = e.sigma8 → ∀ z, linearPS W τ z = linearPS W σ z) := by
  obtain ⟨e, T, h1, h2, h3, h4⟩ := reach_good (fun σ s h => h s rfl) h
  unfold update at hu
  simp only [hf, if_false] at hu
  obtain ⟨e', T', g0, g1, g2, g3, g4, g5, g6, g7, g8, g9, g10⟩ := init_some hu
  have he : e' = e := by rw [g0]; simp only [engine, h1]
  subst he
  have hT : transfer W τ = transfer W σ := transfer_congr W (by rw [g2, h2]) g7 (g10 (by rw [g7]; exact hf))
  have hTT : T = T' := by rw [h3, g3] at hT; exact (Option.some.inj hT).symm
  refine ⟨g6, by rw [g1, h1], hT, e', h1, g4, fun hs z => ?_⟩
  exact linearPS_congr g1 h1 g3 (by rw [← hTT]; exact h3) (by rw [g4, hs]) (by rw [g5, h4, hs, hTT]) z

/-- what `FromPower` gives -/
theorem fromPower_linear {W : World} {p : Params} {t : Table} {σ : Cos} (h : fromPower W p t = some σ) :
    ∃ ρ e T, construct W p .CLASS = some ρ ∧ ρ.eng = some e ∧ σ.eng = some e ∧ transfer W ρ = some T ∧ transfer W σ = some T ∧ σ.sigma8 = ρ.sigma8 ∧ σ.deltaH = ρ.deltaH := by
  unfold fromPower at h
  obtain ⟨ρ, h1, h2⟩ := Option.bind_eq_some_iff.1 h
  obtain ⟨e, T, f0, f1, f2, f3, f4, f5, f6, f7, f8, f9, f10⟩ := init_some h1
  obtain ⟨e', T', g0, g1, g2, g3, g4, g5, g6, g7, g8, g9, g10⟩ := init_some h2
  have he : e' = e := by rw [g0]; simp only [engine, f1]
  subst he
  have hρ : ρ.fit = .CLASS := by rw [f7]; simp [computeTransfer, blank]
  have hT : transfer W σ = transfer W ρ := by
    have hs : σ.spl = ρ.spl := g10 (by rw [g7]; simp)
    unfold transfer
    rw [g2, f2, g7, hρ, hs]
  refine ⟨ρ, e', T, h1, f1, g1, f3, by rw [hT, f3], by rw [g4, f4], ?_⟩
  have : T' = T := by rw [hT, f3] at g3; exact (Option.some.inj g3).symm
  rw [g5, f5, this]

/-- **C101** (finding): the power spectrum given to `from_power` is ignored: the linear power spectrum is the one of CLASS, whatever was given -/
theorem C101_from_power_counterexample (W : World) {p : Params} {t : Table} {σ : Cos} (h : fromPower W p t = some σ) :
    ∃ ρ, construct W p .CLASS = some ρ ∧ ∀ z, linearPS W σ z = linearPS W ρ z := by
  obtain ⟨ρ, e, T, h1, h2, h3, h4, h5, h6, h7⟩ := fromPower_linear h
  exact ⟨ρ, h1, fun z => linearPS_congr h3 h2 h5 h4 h6 h7 z⟩

/-- **C101** (finding): `to_class(linear_power_file=...)` uses neither the cosmology it is called on (other than its `sigma8`), nor the transfer function asked for, nor the power spectrum in the
file: two calls with files of the same parameters give the same spectrum -/
theorem C101_to_class_counterexample (W : World) {p p' : Params} {f f' : Fit} {s : ℝ} {file file' : String} {t t' : Table} {σ σ' : Cos} (hfile : W.readParams file = W.readParams file')
    (h : toClass W p s f (some (file, t)) = some σ) (h' : toClass W p' s f' (some (file', t')) = some σ') (z : ℝ) : linearPS W σ z = linearPS W σ' z := by
  unfold toClass at h h'
  obtain ⟨ρ, h1, h2⟩ := Option.bind_eq_some_iff.1 h
  obtain ⟨ρ', h1', h2'⟩ := Option.bind_eq_some_iff.1 h'
  obtain ⟨κ, e, T, a1, a2, a3, a4, a5, a6, a7⟩ := fromPower_linear h1
  obtain ⟨κ', e', T', b1, b2, b3, b4, b5, b6, b7⟩ := fromPower_linear h1'
  rw [hfile, b1] at a1
  cases a1
  rw [b2] at a2; cases a2
  rw [b4] at a4; cases a4
  obtain ⟨e1, T1, c1, c2, rfl⟩ := setSigma8_some h2
  obtain ⟨e2, T2, d1, d2, rfl⟩ := setSigma8_some h2'
  rw [a3] at c1; cases c1
  rw [a5] at c2; cases c2
  rw [b3] at d1; cases d1
  rw [b5] at d2; cases d2
  exact linearPS_congr (σ := { ρ with sigma8 := s, deltaH := _ }) (τ := { ρ' with sigma8 := s, deltaH := _ }) (e := e) (T := T) a3 b3 a5 b5 rfl rfl z

/-- **C101** (finding): an object made with `from_power` cannot be copied: pickling and unpickling it, `clone`, and the copy constructor all use a spline that was never made -/
theorem C101_arrays_counterexample (W : World) {σ : Cos} (hf : σ.fit = .FromArrays) :
    pickle W σ = none ∧ (∀ tf, clone W tf σ = none) ∧ copy W σ = none ∧ ∀ p, construct W p .FromArrays = none := by
  have key : ∀ ρ : Cos, ρ.fit = .FromArrays → ρ.spl = none → initCos W ρ = none := by
    intro ρ h1 h2
    cases h : initCos W ρ with
    | none => rfl
    | some τ =>
      obtain ⟨e, T, g0, g1, g2, g3, g4, g5, g6, g7, g8, g9, g10⟩ := init_some h
      have : τ.spl = none := by rw [g10 (by rw [g7, h1]; simp), h2]
      unfold transfer at g3
      rw [g2, g7, h1, this] at g3
      simp at g3
  have hp : pickle W σ = none := by
    unfold pickle constructArrays
    have := key { blank (fromDict σ.pars) σ.fit with table := σ.table } hf rfl
    rw [this]; rfl
  refine ⟨hp, ?_, ?_, ?_⟩
  · intro tf
    cases tf with
    | none => exact hp
    | some f => simp [clone, hp]
  · unfold copy
    simp only [hf]
    exact key _ rfl rfl
  · intro p
    unfold construct
    exact key _ (by simp [blank]) (by simp [blank])

/-! ### the normalised spectra of the dark matter model -/

theorem variance_mul (c : ℝ) (P : ℝ → ℝ) (R : ℝ) : variance (fun k => c * P k) R = c*variance P R := by
  unfold variance
  rw [← intervalIntegral.integral_const_mul]
  congr 1; funext k; ring

theorem sigma8z_zero {e : Run} {σ : Cos} (h : e.sigma8z 0 = e.sigma8) (h0 : e.sigma8 ≠ 0) : sigma8z e σ 0 = σ.sigma8 := by
  unfold sigma8z; rw [h]; field_simp

/-- **C101** (dark matter): the linear spectrum of the model has the rms fluctuation `sigma8_z` it was given -/
theorem C101_normed_lin (W : World) {σ : Cos} (h : Reach W (fun _ op => ∀ s, op ≠ .normalize s) σ) {e : Run} (he : σ.eng = some e) (hz : e.sigma8z 0 = e.sigma8)
    (h0 : e.sigma8 ≠ 0) (s : ℝ) {P : ℝ → ℝ} (hP : normedLin W s σ = some P) (hpos : 0 < variance P 8) : |variance P 8 - s^2| ≤ 1/10^17*s^2 := by
  unfold normedLin at hP
  obtain ⟨Q, hQ, rfl⟩ := Option.map_eq_some_iff.1 hP
  rw [variance_mul] at hpos ⊢
  have hc : 0 ≤ (s/σ.sigma8)^2 := sq_nonneg _
  have hv : 0 < variance Q 8 := by
    by_contra hn
    nlinarith
  have hs8 : σ.sigma8 ≠ 0 := by rintro hs; rw [hs] at hpos; simp at hpos
  have := C101_normalised W h 0 he hQ hv
  rw [sigma8z_zero hz h0] at this
  have e1 : (s/σ.sigma8)^2*σ.sigma8^2 = s^2 := by field_simp
  rw [← e1, ← mul_sub, abs_mul, abs_of_nonneg hc]
  calc _ ≤ (s/σ.sigma8)^2*(1/10^17*σ.sigma8^2) := mul_le_mul_of_nonneg_left this hc
    _ = _ := by ring

/-- **C101** (finding): the no-wiggle spectrum of the model has not: its rms fluctuation is `sigma8_z` times the ratio of the `sigma8` of CLASS and the one that was set, always -/
theorem C101_normed_nw_counterexample (W : World) {σ : Cos} (h : Reach W (fun _ op => ∀ s, op ≠ .normalize s) σ) (hf : σ.fit ≠ .EH_NoWiggle) {e : Run}
    (he : e = W.run (fromDict σ.pars)) (hz : e.sigma8z 0 = e.sigma8) (h0 : e.sigma8 ≠ 0) (s : ℝ) {P : ℝ → ℝ} (hP : normedNoWiggle W s σ = some P) (hpos : 0 < variance P 8) :
    |variance P 8 - (s*(e.sigma8/σ.sigma8))^2| ≤ 1/10^17*(s*(e.sigma8/σ.sigma8))^2 := by
  unfold normedNoWiggle at hP
  obtain ⟨τ, h1, h2⟩ := Option.bind_eq_some_iff.1 hP
  obtain ⟨Q, hQ, rfl⟩ := Option.map_eq_some_iff.1 h2
  have hreach : Reach W (fun _ op => ∀ s, op ≠ .normalize s) τ := .step σ (.clone (some .EH_NoWiggle)) τ h (by simp) h1
  have hτ : τ.eng = some e ∧ τ.sigma8 = e.sigma8 := by
    obtain ⟨ρ, g1, g2⟩ := Option.bind_eq_some_iff.1 h1
    have g3 := constructArrays_sigma8 g1
    unfold setTransfer at g2
    rw [if_neg (by rw [g3.2.1]; exact hf.symm)] at g2
    obtain ⟨e', T', f0, f1, f2, f3, f4, _⟩ := init_some g2
    have : e' = e := by rw [f0, he]; simp [engine, g3.2.2.2.2]
    rw [this] at f1 f4
    exact ⟨f1, f4⟩
  rw [variance_mul] at hpos ⊢
  have hc : 0 ≤ (s/σ.sigma8)^2 := sq_nonneg _
  have hv : 0 < variance Q 8 := by
    by_contra hn
    nlinarith
  have := C101_normalised W hreach 0 hτ.1 hQ hv
  rw [sigma8z_zero hz h0, hτ.2] at this
  have e1 : (s*(e.sigma8/σ.sigma8))^2 = (s/σ.sigma8)^2*e.sigma8^2 := by ring
  rw [e1, ← mul_sub, abs_mul, abs_of_nonneg hc]
  calc _ ≤ (s/σ.sigma8)^2*(1/10^17*e.sigma8^2) := mul_le_mul_of_nonneg_left this hc
    _ = _ := by ring

/-- **C101** (amplitude): when `SetSigma8` changes the amplitude, the power spectrum at every wavenumber and redshift changes in proportion to the primordial amplitude `A_s()` -/
theorem C101_amplitude (W : World) {σ τ : Cos} (h : Reach W (fun _ op => ∀ s, op ≠ .normalize s) σ) {s : ℝ} (hs : setSigma8 W s σ = some τ) {e : Run} (he : σ.eng = some e)
    (h0 : σ.sigma8 ≠ 0) (h1 : s ≠ 0) {P Q : ℝ → ℝ} (z : ℝ) (hP : linearPS W σ z = some P) (hQ : linearPS W τ z = some Q) (k : ℝ) : Q k * A_s e σ = P k * A_s e τ := by
  obtain ⟨e', T, g1, g2, g3, g4⟩ := reach_good (fun σ s h => h s rfl) h
  rw [he] at g1; cases g1
  obtain ⟨e1, T1, c1, c2, rfl⟩ := setSigma8_some hs
  rw [he] at c1; cases c1
  rw [g3] at c2; cases c2
  have hT : transfer W { σ with sigma8 := s, deltaH := s/Real.sqrt (sigmaSq e.ns T) } = some T := g3
  unfold linearPS at hP hQ
  rw [he, g3] at hP
  rw [hT] at hQ
  simp only [he, Option.some.injEq] at hP hQ
  subst hP; subst hQ
  simp only [A_s, sigma8z, g4]
  have e1 : e.sigma8z z*(s/e.sigma8)/s = e.sigma8z z/e.sigma8 := by field_simp
  have e2 : e.sigma8z z*(σ.sigma8/e.sigma8)/σ.sigma8 = e.sigma8z z/e.sigma8 := by field_simp
  rw [e1, e2]
  ring

/-! ### a concrete case -/

/-- a table that holds a transfer function of one -/
noncomputable def exTable : Table := [(1/1000000, 1), (1000, 1)]

/-- a run of CLASS that depends on one parameter -/
noncomputable def exRun (p : Params) : Run :=
  { sigma8 := 1, sigma8z := fun z => 1/(1 + z), ns := 0, A_s := if p "h" = some "0.7" then 2 else 1, h := 1, Om := 1, Ob := 0, Tcmb := 1, table := exTable }

noncomputable def exW : World := { run := exRun, spline := fun _ _ => 1, readParams := fun _ => fun _ => none }

/-- the spline of the example -/
noncomputable def exSpl : Spl :=
  { tab := exTable, k0 := 1/1000000, T0 := 1, T0nw := noWiggle (exRun fun _ => none) (1/1000000), k1 := 1000, T1 := 1, T1nw := noWiggle (exRun fun _ => none) 1000 }

noncomputable def exT : ℝ → ℝ := splineTransfer exW exSpl (exRun fun _ => none)

/-- the cosmology of the example, with `sigma8` set to two -/
noncomputable def exCos : Cos :=
  { pars := fun _ => none, eng := some (exRun fun _ => none), eh := some (exRun fun _ => none), fit := .CLASS, sigma8 := 2, deltaH := 2/Real.sqrt (sigmaSq 0 exT), table := exTable, spl := some exSpl }

theorem ex_toClass : toClass exW (fun _ => none) 2 .CLASS none = some exCos := by
  unfold toClass construct
  simp only [if_true]
  rw [init_eq (W := exW) (σ := computeTransfer exW (blank (fun _ => none) .CLASS)) (s := some exSpl) (T := exT) (fun _ => ⟨rfl, rfl⟩) (fun h => absurd rfl h) rfl]
  rfl

theorem ex_reach : Reach exW (fun _ op => ∀ s, op ≠ .normalize s) exCos := .toClass _ _ _ _ _ ex_toClass

theorem exT_one {k : ℝ} (h : k ∈ Set.Icc (1/100000:ℝ) 100) : exT k = 1 := by
  have h1 := h.1
  have h2 := h.2
  unfold exT splineTransfer
  rw [if_neg (by linarith), if_neg (by simp only [exSpl]; linarith), if_neg (by simp only [exSpl]; linarith)]
  rfl

theorem topHat_continuousOn : ContinuousOn topHat (Set.Ioi 0) := by
  unfold topHat
  refine ContinuousOn.div (by fun_prop) (by fun_prop) ?_
  intro x hx
  exact pow_ne_zero 3 (ne_of_gt hx)

/-- a continuous positive spectrum has a positive variance -/
theorem variance_pos {P : ℝ → ℝ} (hc : ContinuousOn P (Set.Icc (1/100000) 100)) (hP : ∀ k ∈ Set.Icc (1/100000:ℝ) 100, 0 < P k) : 0 < variance P 8 := by
  unfold variance
  apply intervalIntegral.integral_pos (by norm_num)
  · refine ContinuousOn.mul (ContinuousOn.mul (by fun_prop) hc) ((topHat_continuousOn.comp (by fun_prop) ?_).pow 2)
    intro k hk
    have := hk.1
    simp only [Set.mem_Ioi]
    linarith
  · intro k hk
    have := hP k ⟨hk.1.le, hk.2⟩
    positivity
  · refine ⟨1/16, ⟨by norm_num, by norm_num⟩, ?_⟩
    have h := (abs_le.1 (topHat_series (x := 1/16*8) (by norm_num) (by norm_num))).1
    have : 0 < topHat (1/16*8) := by norm_num at h ⊢; linarith
    have := hP (1/16) ⟨by norm_num, by norm_num⟩
    positivity

theorem window_bounded {x : ℝ} (hx : 0 < x) (hx8 : x ≤ 800) : |window x| ≤ 3*801*10^12 := by
  unfold window
  split
  · rw [abs_le]; constructor <;> norm_num <;> nlinarith
  · next hn =>
    have hn : (1/10000:ℝ) ≤ x := not_lt.1 hn
    have e : 3*((Real.sin x - x*Real.cos x)/x^2/x) = 3*(Real.sin x - x*Real.cos x)/x^3 := by field_simp
    have hx3 : (1/10000:ℝ)^3 ≤ x^3 := pow_le_pow_left₀ (by norm_num) hn 3
    have hs := abs_le.1 (Real.abs_sin_le_one x)
    have hc := abs_le.1 (Real.abs_cos_le_one x)
    have h1 : |Real.sin x - x*Real.cos x| ≤ 801 := abs_le.2 ⟨by nlinarith, by nlinarith⟩
    rw [e, abs_div, abs_mul, abs_of_pos (show (0:ℝ) < x^3 by positivity), div_le_iff₀ (by positivity), abs_of_pos (by norm_num : (0:ℝ) < 3)]
    norm_num at hx3 ⊢
    nlinarith

/-- the integral of the normalisation is positive for a continuous transfer function without zeros -/
theorem sigmaSq_pos {ns : ℝ} {T : ℝ → ℝ} (hT : ContinuousOn T (Set.Icc (1/100000) 100)) (hpos : ∀ k ∈ Set.Icc (1/100000:ℝ) 100, T k ≠ 0) : 0 < sigmaSq ns T := by
  rcases (sigmaSq_nonneg ns T).lt_or_eq with h | h
  · exact h
  exfalso
  have hPc : ContinuousOn (fun k : ℝ => k.rpow ns*(T k)^2) (Set.Icc (1/100000) 100) := by
    refine ContinuousOn.mul (ContinuousOn.rpow_const continuousOn_id fun k hk => Or.inl ?_) (hT.pow 2)
    have : (0:ℝ) < k := lt_of_lt_of_le (by norm_num) hk.1
    exact this.ne'
  have hP0 : ∀ k ∈ Set.Icc (1/100000:ℝ) 100, 0 < k.rpow ns*(T k)^2 := by
    intro k hk
    have hk0 : (0:ℝ) < k := lt_of_lt_of_le (by norm_num) hk.1
    have : 0 < k.rpow ns := Real.rpow_pos_of_pos hk0 _
    have := hpos k hk
    positivity
  have hv := variance_pos hPc hP0
  obtain ⟨M, hM⟩ := isCompact_Icc.exists_bound_of_continuousOn hPc
  have hi : IntervalIntegrable (fun k => k^2/(2*Real.pi^2)*(k.rpow ns*(T k)^2)*(window (k*8))^2) MeasureTheory.volume (1/100000) 100 := by
    rw [intervalIntegrable_iff_integrableOn_Ioc_of_le (by norm_num)]
    refine MeasureTheory.Integrable.of_bound ?_ (100^2/(2*Real.pi^2)*M*(3*801*10^12)^2) ?_
    · refine MeasureTheory.AEStronglyMeasurable.mul ?_ ((measurable_window.comp (by fun_prop)).pow_const 2).aestronglyMeasurable
      have hcI : ContinuousOn (fun k : ℝ => k^2/(2*Real.pi^2)*(k.rpow ns*(T k)^2)) (Set.Ioc (1/100000) 100) :=
        ContinuousOn.mul (by fun_prop) (hPc.mono Set.Ioc_subset_Icc_self)
      exact hcI.aestronglyMeasurable (measurableSet_Ioc (a := (1/100000:ℝ)) (b := 100))
    · refine (MeasureTheory.ae_restrict_iff' measurableSet_Ioc).2 (Filter.Eventually.of_forall fun k hk => ?_)
      have hkI : k ∈ Set.Icc (1/100000:ℝ) 100 := ⟨hk.1.le, hk.2⟩
      have hk0 : 0 < k := lt_trans (by norm_num) hk.1
      have hp := hP0 k hkI
      have h0 : k.rpow ns*(T k)^2 ≤ M := (le_abs_self _).trans (hM k hkI)
      rw [Real.norm_eq_abs, abs_of_nonneg (by positivity)]
      have h1 := window_bounded (x := k*8) (by positivity) (by linarith [hk.2])
      have h2 : (window (k*8))^2 ≤ (3*801*10^12)^2 := by rw [← sq_abs]; exact pow_le_pow_left₀ (abs_nonneg _) h1 2
      have h4 : k^2/(2*Real.pi^2) ≤ 100^2/(2*Real.pi^2) := by
        have : k^2 ≤ 100^2 := pow_le_pow_left₀ hk0.le hk.2 2
        gcongr
      have h3 : k^2/(2*Real.pi^2)*(k.rpow ns*(T k)^2) ≤ 100^2/(2*Real.pi^2)*M := mul_le_mul h4 h0 hp.le (by positivity)
      exact mul_le_mul h3 h2 (by positivity) (mul_nonneg (by positivity) (hp.le.trans h0))
  have hw := variance_window (fun k => k.rpow ns*(T k)^2) (fun k hk => by
    have : 0 < k.rpow ns := Real.rpow_pos_of_pos hk _
    positivity) hi
  have e : ∀ k : ℝ, k^2/(2*Real.pi^2)*(k.rpow ns*(T k)^2)*(window (k*8))^2 = k*k/(2*Real.pi*Real.pi)*k.rpow ns*(T k)^2*(window (k*8))^2 := by intro k; ring
  simp only [e] at hw
  unfold sigmaSq at h
  rw [← h, sub_zero, mul_zero] at hw
  have := (abs_le.1 hw).2
  linarith

/-- a cosmology with a continuous transfer function without zeros has a spectrum of positive variance -/
theorem linear_pos (W : World) {σ : Cos} (h : Reach W (fun _ op => ∀ s, op ≠ .normalize s) σ) {e : Run} (he : σ.eng = some e) {T : ℝ → ℝ} (hT : transfer W σ = some T)
    (hc : ContinuousOn T (Set.Icc (1/100000) 100)) (h0 : ∀ k ∈ Set.Icc (1/100000:ℝ) 100, T k ≠ 0) {z : ℝ} (hz : sigma8z e σ z ≠ 0) : ∃ P, linearPS W σ z = some P ∧ 0 < variance P 8 := by
  obtain ⟨e', T', g1, g2, g3, g4⟩ := reach_good (fun σ s h => h s rfl) h
  rw [he] at g1; cases g1
  rw [hT] at g3; cases g3
  have hs := sigmaSq_pos (ns := e.ns) hc h0
  have h8 : σ.sigma8 ≠ 0 := by intro h; unfold sigma8z at hz; rw [h] at hz; simp at hz
  refine ⟨fun k => σ.deltaH^2 * (sigma8z e σ z/σ.sigma8)^2 * k.rpow e.ns * (T k)^2, by unfold linearPS; rw [he, hT], ?_⟩
  have hd : σ.deltaH ≠ 0 := by rw [g4]; positivity
  refine variance_pos ?_ ?_
  · refine ContinuousOn.mul (ContinuousOn.mul continuousOn_const (ContinuousOn.rpow_const continuousOn_id fun k hk => Or.inl ?_)) (hc.pow 2)
    have : (0:ℝ) < k := lt_of_lt_of_le (by norm_num) hk.1
    exact this.ne'
  · intro k hk
    have hk0 : (0:ℝ) < k := lt_of_lt_of_le (by norm_num) hk.1
    have : 0 < k.rpow e.ns := Real.rpow_pos_of_pos hk0 _
    have := h0 k hk
    positivity

theorem exT_continuous : ContinuousOn exT (Set.Icc (1/100000) 100) := continuousOn_const.congr fun _ hk => exT_one hk

theorem ex_sigmaSq : 0 < sigmaSq 0 exT := sigmaSq_pos exT_continuous fun k hk => by rw [exT_one hk]; norm_num

/-- **C101** (concrete case): the hypotheses of `C101_normalised` are met by a cosmology with `sigma8` set to two, at every redshift above minus one -/
theorem C101_normalised_ex (z : ℝ) (hz : -1 < z) : ∃ P, linearPS exW exCos z = some P ∧ 0 < variance P 8 := by
  refine linear_pos exW ex_reach (T := exT) rfl rfl exT_continuous (fun k hk => by rw [exT_one hk]; norm_num) ?_
  have h2 : 0 < 1 + z := by linarith
  unfold sigma8z exCos exRun
  simp only
  positivity

/-- **C101** (finding): after a call of the public `NormalizeTransferFunction(s)` the spectrum has another amplitude than `sigma8()` reports: here one whose square is above eight, for a `sigma8()` of two -/
theorem C101_normalize_counterexample : ∃ τ, normalize exW 3 exCos = some τ ∧ τ.sigma8 = 2 ∧ ∃ P, linearPS exW τ 0 = some P ∧ 8 < variance P 8 := by
  refine ⟨_, rfl, rfl, _, rfl, ?_⟩
  have h1 := ex_sigmaSq
  have := variance_unnormalised 0 exT h1 ((3/Real.sqrt (sigmaSq 0 exT))^2*(sigma8z (exRun fun _ => none) exCos 0/2)^2) (by positivity)
  have e : (3/Real.sqrt (sigmaSq 0 exT))^2*(sigma8z (exRun fun _ => none) exCos 0/2)^2*sigmaSq 0 exT = 9 := by
    rw [div_pow, Real.sq_sqrt h1.le]
    unfold sigma8z exCos exRun
    simp only
    field_simp
    norm_num
  rw [e] at this
  have := (abs_le.1 this).1
  norm_num at this
  refine lt_of_lt_of_eq (b := variance (fun k => (3/Real.sqrt (sigmaSq 0 exT))^2*(sigma8z (exRun fun _ => none) exCos 0/2)^2*k.rpow 0*(exT k)^2) 8) ?_ rfl
  norm_num
  linarith

/-- parameters as `to_class` makes them -/
def exPars : Params := fun k => if k = "P_k_max_h/Mpc" then some "20.0" else if k = "z_max_pk" then some "2.0" else none

/-- **C101** (finding): with the transfer function of BBKS an `update` of the Hubble constant, and then pickling: the copy has another primordial amplitude than the original -/
theorem C101_update_pickle_counterexample : ∃ σ₀ σ τ, toClass exW exPars 2 .BBKS none = some σ₀ ∧ update exW (fun k => if k = "h" then some "0.7" else none) σ₀ = some σ ∧
    pickle exW σ = some τ ∧ ∃ e e', σ.eng = some e ∧ τ.eng = some e' ∧ A_s e σ = 1 ∧ A_s e' τ = 2 := by
  refine ⟨_, _, _, rfl, rfl, rfl, _, _, rfl, rfl, ?_, ?_⟩
  · simp [A_s, engine, exW, exRun, exPars, blank]
  · simp [A_s, engine, exW, exRun, exPars, blank, fromDict, merge]

/-- the cosmology of the example, with the parameters of `to_class` -/
theorem C101_pickle_ex : ∃ σ, toClass exW exPars 2 .CLASS none = some σ ∧ Reach exW okFresh σ ∧ σ.fit ≠ .FromArrays ∧ Complete σ.pars ∧ σ.sigma8 = 2 :=
  ⟨_, rfl, .toClass exPars 2 .CLASS none _ rfl, by simp [blank, computeTransfer], ⟨rfl, rfl⟩, rfl⟩

/-- and one made with `from_power` -/
theorem C101_from_power_ex (t : Table) : ∃ σ, fromPower exW exPars t = some σ ∧ σ.fit = .FromArrays := ⟨_, rfl, rfl⟩

end Verif.Cosmo
