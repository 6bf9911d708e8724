/-
C114: the halo mass and the velocity dispersion of a given bias.
-/
import Verif.Model.HaloBias
import Verif.Props.Interp
import Mathlib.Analysis.SpecialFunctions.Pow.Continuity
import Mathlib.Analysis.SpecialFunctions.Pow.Asymptotics
import Mathlib.Topology.Order.IntermediateValue

namespace Verif.HaloBias

open Set Filter Topology

noncomputable section

/-! ### The bias as a function of the fluctuation amplitude -/

/-- The overdensities the fit is made for. -/
def GoodDelta (d : ℝ) : Prop := 100 ≤ d ∧ d ≤ 10 ^ 5

theorem y_bounds {d : ℝ} (h : GoodDelta d) : 2 ≤ Real.logb 10 d ∧ Real.logb 10 d ≤ 5 := by
  have hd : 0 < d := lt_of_lt_of_le (by norm_num) h.1
  constructor
  · rw [Real.le_logb_iff_rpow_le (by norm_num) hd]
    have := h.1
    norm_num
    linarith
  · rw [Real.logb_le_iff_le_rpow (by norm_num) hd]
    have := h.2
    norm_num at this ⊢
    linarith

theorem tA_pos {y : ℝ} (h : 0 ≤ y) : 1 ≤ tA y := by
  have : 0 ≤ 0.24 * y * Real.exp (-(4 / y) ^ 4) := by positivity
  unfold tA
  linarith

theorem tC_pos {y : ℝ} (h : 0 ≤ y) : 0 < tC y := by
  unfold tC
  positivity

/-- The published form, in terms of the fluctuation amplitude. -/
theorem tinker_form (s dc d : ℝ) (hs : 0 < s) (hc : 0 < dc) :
    biasTinker s dc d = 1 - tA (Real.logb 10 d) / (1 + s ^ ta (Real.logb 10 d)) + 0.183 * (dc / s) ^ (1.5 : ℝ) + tC (Real.logb 10 d) * (dc / s) ^ (2.4 : ℝ) := by
  unfold biasTinker
  simp only
  generalize ta (Real.logb 10 d) = a
  rw [Real.div_rpow hc.le hs.le a]
  have h1 : 0 < dc ^ a := Real.rpow_pos_of_pos hc a
  have h2 : 0 < s ^ a := Real.rpow_pos_of_pos hs a
  have : tA (Real.logb 10 d) * (dc ^ a / s ^ a) / (dc ^ a / s ^ a + dc ^ a) = tA (Real.logb 10 d) / (1 + s ^ a) := by
    field_simp
  rw [this]

/-- `(1 + sigma^a) (b - 1)` -/
theorem tinker_excess (s dc d : ℝ) (hs : 0 < s) (hc : 0 < dc) :
    (1 + s ^ ta (Real.logb 10 d)) * (biasTinker s dc d - 1) =
      -tA (Real.logb 10 d) + (0.183 * dc ^ (1.5 : ℝ) * (s ^ (-1.5 : ℝ) + s ^ (ta (Real.logb 10 d) - 1.5)) +
        tC (Real.logb 10 d) * dc ^ (2.4 : ℝ) * (s ^ (-2.4 : ℝ) + s ^ (ta (Real.logb 10 d) - 2.4))) := by
  rw [tinker_form s dc d hs hc]
  generalize ta (Real.logb 10 d) = a
  rw [Real.div_rpow hc.le hs.le, Real.div_rpow hc.le hs.le, Real.rpow_sub hs, Real.rpow_sub hs, Real.rpow_neg hs.le, Real.rpow_neg hs.le]
  have h2 : 0 < s ^ a := Real.rpow_pos_of_pos hs a
  have h3 : 0 < s ^ (1.5 : ℝ) := Real.rpow_pos_of_pos hs _
  have h4 : 0 < s ^ (2.4 : ℝ) := Real.rpow_pos_of_pos hs _
  field_simp
  ring

theorem ta_bounds {d : ℝ} (h : GoodDelta d) : 0 ≤ ta (Real.logb 10 d) ∧ ta (Real.logb 10 d) < 1.5 := by
  obtain ⟨h1, h2⟩ := y_bounds h
  unfold ta
  constructor
  · linarith
  · norm_num; linarith

theorem excess_anti (a A p q : ℝ) (ha : a < 1.5) (hp : 0 < p) (hq : 0 < q) {s t : ℝ} (hs : 0 < s) (hst : s < t) :
    -A + (p * (t ^ (-1.5 : ℝ) + t ^ (a - 1.5)) + q * (t ^ (-2.4 : ℝ) + t ^ (a - 2.4))) <
      -A + (p * (s ^ (-1.5 : ℝ) + s ^ (a - 1.5)) + q * (s ^ (-2.4 : ℝ) + s ^ (a - 2.4))) := by
  have h1 := Real.rpow_lt_rpow_of_neg hs hst (show (-1.5 : ℝ) < 0 by norm_num)
  have h2 := Real.rpow_lt_rpow_of_neg hs hst (show (-2.4 : ℝ) < 0 by norm_num)
  have h3 := Real.rpow_lt_rpow_of_neg hs hst (show a - 1.5 < 0 by linarith)
  have h4 := Real.rpow_lt_rpow_of_neg hs hst (show a - 2.4 < 0 by norm_num at ha ⊢; linarith)
  have := mul_lt_mul_of_pos_left (add_lt_add h1 h3) hp
  have := mul_lt_mul_of_pos_left (add_lt_add h2 h4) hq
  linarith

/-- C114: where the bias is at least one, rarer haloes are more biased. -/
theorem C114_tinker_decreasing (dc d : ℝ) (hc : 0 < dc) (hd : GoodDelta d) {s t : ℝ} (hs : 0 < s) (hst : s < t) (hb : 1 ≤ biasTinker t dc d) :
    biasTinker t dc d < biasTinker s dc d := by
  have ht : 0 < t := hs.trans hst
  obtain ⟨ha, ha'⟩ := ta_bounds hd
  have hC := tC_pos (le_trans (by norm_num) (y_bounds hd).1)
  have es := tinker_excess s dc d hs hc
  have et := tinker_excess t dc d ht hc
  have hlt := excess_anti (ta (Real.logb 10 d)) (tA (Real.logb 10 d)) (0.183 * dc ^ (1.5 : ℝ)) (tC (Real.logb 10 d) * dc ^ (2.4 : ℝ)) ha' (by positivity) (by positivity) hs hst
  rw [← es, ← et] at hlt
  have hle : s ^ ta (Real.logb 10 d) ≤ t ^ ta (Real.logb 10 d) := Real.rpow_le_rpow hs.le hst.le ha
  have hps : 0 < s ^ ta (Real.logb 10 d) := Real.rpow_pos_of_pos hs _
  by_contra hcon
  push Not at hcon
  have h1 : (1 + s ^ ta (Real.logb 10 d)) * (biasTinker s dc d - 1) ≤ (1 + s ^ ta (Real.logb 10 d)) * (biasTinker t dc d - 1) :=
    mul_le_mul_of_nonneg_left (by linarith) (by linarith)
  have h2 : (1 + s ^ ta (Real.logb 10 d)) * (biasTinker t dc d - 1) ≤ (1 + t ^ ta (Real.logb 10 d)) * (biasTinker t dc d - 1) :=
    mul_le_mul_of_nonneg_right (by linarith) (by linarith)
  linarith

/-- Two amplitudes with the same bias, at least one, are equal. -/
theorem tinker_injective (dc d : ℝ) (hc : 0 < dc) (hd : GoodDelta d) {s t : ℝ} (hs : 0 < s) (ht : 0 < t) (hb : 1 ≤ biasTinker t dc d)
    (h : biasTinker s dc d = biasTinker t dc d) : s = t := by
  rcases lt_trichotomy s t with hst | hst | hst
  · have := C114_tinker_decreasing dc d hc hd hs hst hb
    linarith
  · exact hst
  · have := C114_tinker_decreasing dc d hc hd ht hst (by rw [h]; exact hb)
    linarith

theorem tinker_continuousOn (dc d : ℝ) (hc : 0 < dc) : ContinuousOn (fun s => biasTinker s dc d) (Ioi 0) := by
  have hne : ∀ s ∈ Ioi (0 : ℝ), s ≠ 0 := fun s hs => (mem_Ioi.mp hs).ne'
  have h1 : ContinuousOn (fun s : ℝ => dc / s) (Ioi 0) := continuousOn_const.div continuousOn_id hne
  have hr : ∀ r : ℝ, ContinuousOn (fun s : ℝ => (dc / s) ^ r) (Ioi 0) := fun r =>
    h1.rpow_const fun s hs => Or.inl (div_pos hc hs).ne'
  unfold biasTinker
  refine ((continuousOn_const.sub ((continuousOn_const.mul (hr _)).div ((hr _).add continuousOn_const) fun s hs => ?_)).add
    (continuousOn_const.mul (hr _))).add (continuousOn_const.mul (hr _))
  have := Real.rpow_pos_of_pos (div_pos hc hs) (ta (Real.logb 10 d))
  have := Real.rpow_pos_of_pos hc (ta (Real.logb 10 d))
  exact (by linarith : 0 < (dc / s) ^ ta (Real.logb 10 d) + dc ^ ta (Real.logb 10 d)).ne'

/-- For large amplitudes the bias is below one. -/
theorem tinker_below (dc d : ℝ) (hc : 0 < dc) (hd : GoodDelta d) : ∀ᶠ s in atTop, biasTinker s dc d < 1 := by
  obtain ⟨ha, ha'⟩ := ta_bounds hd
  have hA := tA_pos (y := Real.logb 10 d) (le_trans (by norm_num) (y_bounds hd).1)
  set a := ta (Real.logb 10 d) with hadef
  have t1 : ∀ r : ℝ, r < 0 → Tendsto (fun s : ℝ => s ^ r) atTop (𝓝 0) := by
    intro r hr
    have := tendsto_rpow_neg_atTop (y := -r) (by linarith)
    simpa using this
  have hlim : Tendsto (fun s : ℝ => -tA (Real.logb 10 d) + (0.183 * dc ^ (1.5 : ℝ) * (s ^ (-1.5 : ℝ) + s ^ (a - 1.5)) +
        tC (Real.logb 10 d) * dc ^ (2.4 : ℝ) * (s ^ (-2.4 : ℝ) + s ^ (a - 2.4)))) atTop
      (𝓝 (-tA (Real.logb 10 d) + (0.183 * dc ^ (1.5 : ℝ) * (0 + 0) + tC (Real.logb 10 d) * dc ^ (2.4 : ℝ) * (0 + 0)))) :=
    tendsto_const_nhds.add ((tendsto_const_nhds.mul ((t1 _ (by norm_num)).add (t1 _ (by linarith)))).add
      (tendsto_const_nhds.mul ((t1 _ (by norm_num)).add (t1 _ (by norm_num at ha' ⊢; linarith)))))
  have hneg : -tA (Real.logb 10 d) + (0.183 * dc ^ (1.5 : ℝ) * (0 + 0) + tC (Real.logb 10 d) * dc ^ (2.4 : ℝ) * (0 + 0)) < 0 := by
    linarith
  filter_upwards [hlim.eventually_lt_const hneg, eventually_gt_atTop 0] with s h1 h2
  rw [← tinker_excess s dc d h2 hc] at h1
  have : 0 < s ^ a := Real.rpow_pos_of_pos h2 a
  by_contra hcon
  push Not at hcon
  have := mul_nonneg (by linarith : 0 ≤ 1 + s ^ a) (by linarith : 0 ≤ biasTinker s dc d - 1)
  linarith

/-- There are amplitudes, as small as wanted, of any bias or more. -/
theorem tinker_above (dc d : ℝ) (hc : 0 < dc) (hd : GoodDelta d) (b s0 : ℝ) (h0 : 0 < s0) : ∃ s, 0 < s ∧ s < s0 ∧ b < biasTinker s dc d := by
  have hA := tA_pos (y := Real.logb 10 d) (le_trans (by norm_num) (y_bounds hd).1)
  have hC := tC_pos (y := Real.logb 10 d) (le_trans (by norm_num) (y_bounds hd).1)
  -- a ratio `dc/s` at least one and large
  set N := max 1 (max ((|b| + tA (Real.logb 10 d)) / 0.183) (dc / s0)) + 1 with hN
  have hN1 : 1 < N := by have := le_max_left 1 (max ((|b| + tA (Real.logb 10 d)) / 0.183) (dc / s0)); linarith
  have hN2 : (|b| + tA (Real.logb 10 d)) / 0.183 < N := by
    have := le_max_right 1 (max ((|b| + tA (Real.logb 10 d)) / 0.183) (dc / s0))
    have := le_max_left ((|b| + tA (Real.logb 10 d)) / 0.183) (dc / s0)
    linarith
  have hN3 : dc / s0 < N := by
    have := le_max_right 1 (max ((|b| + tA (Real.logb 10 d)) / 0.183) (dc / s0))
    have := le_max_right ((|b| + tA (Real.logb 10 d)) / 0.183) (dc / s0)
    linarith
  have hNp : 0 < N := by linarith
  refine ⟨dc / N, by positivity, ?_, ?_⟩
  · rw [div_lt_iff₀ hNp]
    rw [div_lt_iff₀ h0] at hN3
    linarith
  · rw [tinker_form _ _ _ (by positivity) hc]
    have e : dc / (dc / N) = N := by field_simp
    rw [e]
    have h1 : N ≤ N ^ (1.5 : ℝ) := by
      conv_lhs => rw [← Real.rpow_one N]
      exact Real.rpow_le_rpow_of_exponent_le hN1.le (by norm_num)
    have h2 : 0 < N ^ (2.4 : ℝ) := Real.rpow_pos_of_pos hNp _
    have h3 : tA (Real.logb 10 d) / (1 + (dc / N) ^ ta (Real.logb 10 d)) ≤ tA (Real.logb 10 d) := by
      have : 0 < (dc / N) ^ ta (Real.logb 10 d) := Real.rpow_pos_of_pos (by positivity) _
      exact div_le_self (by linarith) (by linarith)
    rw [div_lt_iff₀ (by norm_num)] at hN2
    have := le_abs_self b
    have := mul_pos hC h2
    nlinarith

/-- C114: every bias of at least one is the bias of exactly one fluctuation amplitude. -/
theorem C114_tinker_unique (dc d : ℝ) (hc : 0 < dc) (hd : GoodDelta d) (b : ℝ) (hb : 1 ≤ b) : ∃! s, 0 < s ∧ biasTinker s dc d = b := by
  obtain ⟨t, ht, ht0⟩ := ((tinker_below dc d hc hd).and (eventually_gt_atTop 0)).exists
  obtain ⟨s, hs, hst, hsb⟩ := tinker_above dc d hc hd b t ht0
  obtain ⟨x, hx, hxb⟩ := intermediate_value_Icc' hst.le ((tinker_continuousOn dc d hc).mono fun x hx => lt_of_lt_of_le hs hx.1)
    (⟨by linarith, hsb.le⟩ : b ∈ Icc (biasTinker t dc d) (biasTinker s dc d))
  simp only at hxb
  refine ⟨x, ⟨lt_of_lt_of_le hs hx.1, hxb⟩, fun y ⟨hy, hyb⟩ => ?_⟩
  exact tinker_injective dc d hc hd hy (lt_of_lt_of_le hs hx.1) (by rw [hxb]; exact hb) (hyb.trans hxb.symm)

/-- C114 fails below one: the same bias at two amplitudes (overdensities above 100). -/
theorem C114_low_bias_counterexample (dc d : ℝ) (hc : 0 < dc) (hd : GoodDelta d) (hd' : 100 < d) :
    ∃ b s t, b < 1 ∧ 0 < s ∧ s < t ∧ biasTinker s dc d = b ∧ biasTinker t dc d = b := by
  have hd0 : 0 < d := by linarith
  have ha : 0 < ta (Real.logb 10 d) := by
    have : 2 < Real.logb 10 d := by
      rw [Real.lt_logb_iff_rpow_lt (by norm_num) hd0]; norm_num; linarith
    unfold ta
    linarith
  obtain ⟨t, ht, ht0⟩ := ((tinker_below dc d hc hd).and (eventually_gt_atTop 0)).exists
  have hlim : Tendsto (fun s => biasTinker s dc d) atTop (𝓝 (1 - 0 + 0.183 * 0 + tC (Real.logb 10 d) * 0)) := by
    have e : (fun s => biasTinker s dc d) =ᶠ[atTop] fun s => 1 - tA (Real.logb 10 d) / (1 + s ^ ta (Real.logb 10 d)) + 0.183 * (dc ^ (1.5 : ℝ) * s ^ (-1.5 : ℝ)) +
        tC (Real.logb 10 d) * (dc ^ (2.4 : ℝ) * s ^ (-2.4 : ℝ)) := by
      filter_upwards [eventually_gt_atTop 0] with s hs
      rw [tinker_form s dc d hs hc, Real.div_rpow hc.le hs.le, Real.div_rpow hc.le hs.le, Real.rpow_neg hs.le, Real.rpow_neg hs.le, div_eq_mul_inv (dc ^ (1.5 : ℝ)),
        div_eq_mul_inv (dc ^ (2.4 : ℝ))]
    refine Tendsto.congr' e.symm ?_
    have p : ∀ r : ℝ, 0 < r → ∀ q : ℝ, Tendsto (fun s : ℝ => q * s ^ (-r)) atTop (𝓝 0) := by
      intro r hr q
      have := (tendsto_rpow_neg_atTop hr).const_mul q
      simpa using this
    refine ((tendsto_const_nhds.sub ?_).add (tendsto_const_nhds.mul (p 1.5 (by norm_num) _))).add (tendsto_const_nhds.mul (p 2.4 (by norm_num) _))
    exact Tendsto.div_atTop tendsto_const_nhds (tendsto_atTop_add_const_left _ 1 (tendsto_rpow_atTop ha))
  simp only [sub_zero, mul_zero, add_zero] at hlim
  set b := (biasTinker t dc d + 1) / 2 with hbdef
  have hb1 : b < 1 := by linarith
  have hb2 : biasTinker t dc d < b := by linarith
  obtain ⟨u, hu, hut⟩ := ((hlim.eventually_const_lt hb1).and (eventually_gt_atTop t)).exists
  obtain ⟨s, hs, hst, hsb⟩ := tinker_above dc d hc hd b t ht0
  have hcont := tinker_continuousOn dc d hc
  obtain ⟨x, hx, hxb⟩ := intermediate_value_Icc' hst.le (hcont.mono fun x hx => lt_of_lt_of_le hs hx.1) (⟨hb2.le, hsb.le⟩ : b ∈ Icc _ _)
  obtain ⟨y, hy, hyb⟩ := intermediate_value_Icc hut.le (hcont.mono fun x hx => lt_of_lt_of_le ht0 hx.1) (⟨hb2.le, hu.le⟩ : b ∈ Icc _ _)
  simp only at hxb hyb
  have hxt : x < t := lt_of_le_of_ne hx.2 fun h => by rw [h] at hxb; linarith
  exact ⟨b, x, y, hb1, lt_of_lt_of_le hs hx.1, hxt.trans_le hy.1, hxb, hyb⟩

/-! ### The mass of a given bias -/

/-- The fluctuation amplitude on the scale of a mass in M_sun/h, for a cosmology scaled to the amplitude `sigma8z`. -/
def amplitude (c : Cosmo) (sigma8z M : ℝ) : ℝ := sigma8z / c.sigma8 * c.Sigma ((3 * M / (4 * Real.pi * c.rhoBar)) ^ ((1 : ℝ) / 3))

/-- The masses, in M_sun/h, the code looks at. -/
def massRange : Set ℝ := Icc (10 ^ 5) (10 ^ 16)

/-- A cosmology whose fluctuations decrease with the mass and are positive, over the masses looked at. -/
structure Hierarchical (c : Cosmo) : Prop where
  sigma8 : 0 < c.sigma8
  cont : ContinuousOn (amplitude c c.sigma8) massRange
  anti : StrictAntiOn (amplitude c c.sigma8) massRange
  pos : ∀ M ∈ massRange, 0 < amplitude c c.sigma8 M

theorem amplitude_scale (c : Cosmo) (h : c.sigma8 ≠ 0) (s M : ℝ) : amplitude c s M = s / c.sigma8 * amplitude c c.sigma8 M := by
  simp only [amplitude, div_self h, one_mul]

theorem amplitude_code (c : Cosmo) (s M : ℝ) : s / c.sigma8 * c.Sigma (massToRadius c M) = amplitude c s (M * 10 ^ 13) := by
  simp only [amplitude, massToRadius, mul_assoc]

theorem mem_range {M : ℝ} : M * 10 ^ 13 ∈ massRange ↔ M ∈ Icc ((10 : ℝ) ^ (-8 : ℤ)) (10 ^ 3) := by
  simp only [massRange, mem_Icc]
  norm_num
  constructor
  · rintro ⟨h1, h2⟩
    constructor <;> linarith
  · rintro ⟨h1, h2⟩
    constructor <;> linarith

/-- C114: a mass returned has the bias asked for, and is within the range. -/
theorem C114_mass_sound (brentq : Solver) (hB : IsBrentq brentq) (c : Cosmo) (d s b M : ℝ) (h : massFresh brentq c d s b = .ok M) :
    M ∈ massRange ∧ biasTinker (amplitude c s M) 1.686 d = b := by
  unfold massFresh at h
  simp only at h
  cases hx : brentq (fun M => biasTinker (s / c.sigma8 * c.Sigma (massToRadius c M)) 1.686 d - b) (10 ^ (-8 : ℤ)) (10 ^ 3) with
  | error e => rw [hx] at h; cases h
  | ok x =>
    rw [hx] at h
    simp only [Except.map, Except.ok.injEq] at h
    subst h
    obtain ⟨h1, h2, h3⟩ := hB.root _ _ _ _ hx
    refine ⟨mem_range.mpr ⟨h1, h2⟩, ?_⟩
    rw [amplitude_code] at h3
    linarith

/-- C114: for biases of at least one, if the ends of the range straddle the bias, the mass returned is the only one in the range with that bias. -/
theorem C114_mass (brentq : Solver) (hB : IsBrentq brentq) (c : Cosmo) (hc : Hierarchical c) (d s b : ℝ) (hd : GoodDelta d) (hs : 0 < s) (hb : 1 ≤ b)
    (hlo : biasTinker (amplitude c s (10 ^ 5)) 1.686 d ≤ b) (hhi : b ≤ biasTinker (amplitude c s (10 ^ 16)) 1.686 d) :
    ∃ M, massFresh brentq c d s b = .ok M ∧ M ∈ massRange ∧ biasTinker (amplitude c s M) 1.686 d = b ∧
      ∀ M' ∈ massRange, biasTinker (amplitude c s M') 1.686 d = b → M' = M := by
  have hratio : 0 < s / c.sigma8 := div_pos hs hc.sigma8
  have hpos : ∀ M ∈ massRange, 0 < amplitude c s M := fun M hM => by
    rw [amplitude_scale c hc.sigma8.ne']; exact mul_pos hratio (hc.pos M hM)
  have hanti : StrictAntiOn (amplitude c s) massRange := fun M hM M' hM' hlt => by
    rw [amplitude_scale c hc.sigma8.ne' s M, amplitude_scale c hc.sigma8.ne' s M']
    exact mul_lt_mul_of_pos_left (hc.anti hM hM' hlt) hratio
  have hcont : ContinuousOn (amplitude c s) massRange := by
    have : amplitude c s = fun M => s / c.sigma8 * amplitude c c.sigma8 M := funext fun M => amplitude_scale c hc.sigma8.ne' s M
    rw [this]
    exact continuousOn_const.mul hc.cont
  have hcont2 : ContinuousOn (fun M => biasTinker (s / c.sigma8 * c.Sigma (massToRadius c M)) 1.686 d - b) (Icc ((10 : ℝ) ^ (-8 : ℤ)) (10 ^ 3)) := by
    have e : (fun M => biasTinker (s / c.sigma8 * c.Sigma (massToRadius c M)) 1.686 d - b) =
        fun M => biasTinker (amplitude c s (M * 10 ^ 13)) 1.686 d - b := funext fun M => by rw [amplitude_code]
    rw [e]
    refine ContinuousOn.sub ?_ continuousOn_const
    refine (tinker_continuousOn 1.686 d (by norm_num)).comp (hcont.comp (by fun_prop) fun M hM => mem_range.mpr hM) fun M hM => hpos _ (mem_range.mpr hM)
  obtain ⟨x, hx⟩ := hB.finds _ _ _ (by norm_num) hcont2 (by
    rw [amplitude_code, amplitude_code]
    have e1 : (10 : ℝ) ^ (-8 : ℤ) * 10 ^ 13 = 10 ^ 5 := by norm_num
    have e2 : (10 : ℝ) ^ 3 * 10 ^ 13 = 10 ^ 16 := by norm_num
    rw [e1, e2]
    exact mul_nonpos_of_nonpos_of_nonneg (by linarith) (by linarith))
  have hM : massFresh brentq c d s b = .ok (x * 10 ^ 13) := by
    unfold massFresh
    simp only [hx, Except.map]
  obtain ⟨hr, hv⟩ := C114_mass_sound brentq hB c d s b _ hM
  refine ⟨_, hM, hr, hv, fun M' hM' hv' => ?_⟩
  exact hanti.injOn hM' hr (tinker_injective 1.686 d (by norm_num) hd (hpos _ hM') (hpos _ hr) (by rw [hv]; exact hb) (hv'.trans hv.symm))

/-- C114: the mass increases with the bias and, at a given bias, with the amplitude. -/
theorem C114_mass_increasing (brentq : Solver) (hB : IsBrentq brentq) (c : Cosmo) (hc : Hierarchical c) (d s s' b b' M M' : ℝ) (hd : GoodDelta d) (hs : 0 < s) (hs' : s ≤ s')
    (hb : 1 ≤ b) (hb' : b ≤ b') (h : massFresh brentq c d s b = .ok M) (h' : massFresh brentq c d s' b' = .ok M') : M ≤ M' ∧ (s < s' ∨ b < b' → M < M') := by
  obtain ⟨hr, hv⟩ := C114_mass_sound brentq hB c d s b M h
  obtain ⟨hr', hv'⟩ := C114_mass_sound brentq hB c d s' b' M' h'
  have h0 := hc.sigma8
  rw [amplitude_scale c h0.ne'] at hv hv'
  have hsp : 0 < s' := lt_of_lt_of_le hs hs'
  have p := hc.pos M hr
  have p' := hc.pos M' hr'
  have q : 0 < s / c.sigma8 := div_pos hs h0
  have q' : 0 < s' / c.sigma8 := div_pos hsp h0
  -- the amplitude at the second mass is not larger
  have key : s' / c.sigma8 * amplitude c c.sigma8 M' ≤ s / c.sigma8 * amplitude c c.sigma8 M ∧
      (b < b' → s' / c.sigma8 * amplitude c c.sigma8 M' < s / c.sigma8 * amplitude c c.sigma8 M) := by
    constructor
    · by_contra hcon
      push Not at hcon
      have := C114_tinker_decreasing 1.686 d (by norm_num) hd (mul_pos q p) hcon (by rw [hv']; linarith)
      linarith
    · intro hbb
      by_contra hcon
      push Not at hcon
      rcases hcon.lt_or_eq with hlt | heq
      · have := C114_tinker_decreasing 1.686 d (by norm_num) hd (mul_pos q p) hlt (by rw [hv']; linarith)
        linarith
      · rw [heq] at hv; linarith
  have hq : s / c.sigma8 ≤ s' / c.sigma8 := by gcongr
  have h1 : s / c.sigma8 * amplitude c c.sigma8 M' ≤ s' / c.sigma8 * amplitude c c.sigma8 M' := mul_le_mul_of_nonneg_right hq p'.le
  constructor
  · have : amplitude c c.sigma8 M' ≤ amplitude c c.sigma8 M := le_of_mul_le_mul_left (h1.trans key.1) q
    by_contra hcon
    push Not at hcon
    have := hc.anti hr' hr hcon
    linarith
  · rintro (hlt | hlt)
    · have hq2 : s / c.sigma8 < s' / c.sigma8 := by gcongr
      have h2 : s / c.sigma8 * amplitude c c.sigma8 M' < s' / c.sigma8 * amplitude c c.sigma8 M' := mul_lt_mul_of_pos_right hq2 p'
      have : amplitude c c.sigma8 M' < amplitude c c.sigma8 M := lt_of_mul_lt_mul_left (h2.trans_le key.1) q.le
      by_contra hcon
      push Not at hcon
      have := hc.anti.antitoneOn hr' hr hcon
      linarith
    · have : amplitude c c.sigma8 M' < amplitude c c.sigma8 M := lt_of_mul_lt_mul_left (h1.trans_lt (key.2 hlt)) q.le
      by_contra hcon
      push Not at hcon
      have := hc.anti.antitoneOn hr' hr hcon
      linarith

/-- C114: the normalisation of the cosmology does not matter, only the amplitude asked for. -/
theorem C114_mass_normalisation (brentq : Solver) (c : Cosmo) (t : ℝ) (ht : t ≠ 0) (d s b : ℝ) :
    massFresh brentq { c with sigma8 := t * c.sigma8, Sigma := fun R => t * c.Sigma R } d s b = massFresh brentq c d s b := by
  unfold massFresh
  simp only [massToRadius]
  have : ∀ X : ℝ, s / (t * c.sigma8) * (t * X) = s / c.sigma8 * X := by
    intro X
    by_cases h : c.sigma8 = 0
    · simp [h]
    · field_simp
  simp only [this]

/-- C114: a bias that is not between those of the two ends, on either side, is refused. -/
theorem C114_mass_refused (brentq : Solver) (hB : IsBrentq brentq) (c : Cosmo) (d s b : ℝ)
    (h : 0 < (biasTinker (amplitude c s (10 ^ 5)) 1.686 d - b) * (biasTinker (amplitude c s (10 ^ 16)) 1.686 d - b)) :
    massFresh brentq c d s b = .error .noBracket := by
  unfold massFresh
  simp only
  rw [hB.refuse]
  · rfl
  · rw [amplitude_code, amplitude_code]
    have e1 : (10 : ℝ) ^ (-8 : ℤ) * 10 ^ 13 = 10 ^ 5 := by norm_num
    have e2 : (10 : ℝ) ^ 3 * 10 ^ 13 = 10 ^ 16 := by norm_num
    rw [e1, e2]
    exact h

/-- Case: the contract of the root finder can be met. -/
example : ∃ brentq, IsBrentq brentq := by
  classical
  refine ⟨fun f a b => if h : ∃ x, a ≤ x ∧ x ≤ b ∧ f x = 0 ∧ f a * f b ≤ 0 then .ok h.choose else .error .noBracket, ⟨?_, ?_, ?_⟩⟩
  · intro f a b x h
    split_ifs at h with hx
    simp only [Except.ok.injEq] at h
    subst h
    exact ⟨hx.choose_spec.1, hx.choose_spec.2.1, hx.choose_spec.2.2.1⟩
  · intro f a b h
    rw [dif_neg]
    rintro ⟨x, -, -, -, hx⟩
    linarith
  · intro f a b hab hf h
    have : ∃ x ∈ Icc a b, f x = 0 := by
      rcases mul_nonpos_iff.mp h with ⟨h1, h2⟩ | ⟨h1, h2⟩
      · exact intermediate_value_Icc' hab hf ⟨h2, h1⟩
      · exact intermediate_value_Icc hab hf ⟨h1, h2⟩
    obtain ⟨x, hx, hx0⟩ := this
    rw [dif_pos ⟨x, hx.1, hx.2, hx0, h⟩]
    exact ⟨_, rfl⟩

end

end Verif.HaloBias
