/-
C133: the growth function and the scale-dependent bias of non-Gaussian universes.
-/
import Verif.Lemmas.Png
import Mathlib.Topology.Algebra.Order.LiminfLimsup
import Mathlib.Analysis.SpecialFunctions.Log.Basic
import Mathlib.Tactic.NormNum

namespace Verif.Png

open MeasureTheory intervalIntegral Filter Topology

noncomputable section

/-- **C133, growth.** The growth function solves the equation of linear growth at all times. -/
theorem C133_growth_equation (c : Density) (A : ℝ) (h : Spec.Expands c.Om0 c.Ok0 c.Ode0 A) :
    ∃ D' : ℝ → ℝ, ∀ a, 0 < a → a < A → Spec.Grows c.Om0 c.Ok0 c.Ode0 (fun a => growth c (1 / a - 1)) D' a := by
  obtain ⟨r, hr⟩ : ∃ r : ℝ → ℝ, r = Spec.rate2 c.Om0 c.Ok0 c.Ode0 := ⟨_, rfl⟩
  obtain ⟨r1, hr1⟩ : ∃ r1 : ℝ → ℝ, r1 = fun a => -3 * c.Om0 / a ^ 4 - 2 * c.Ok0 / a ^ 3 := ⟨_, rfl⟩
  obtain ⟨I, hI⟩ : ∃ I : ℝ → ℝ, I = fun a => ∫ t in (0 : ℝ)..a, integrand c t := ⟨_, rfl⟩
  refine ⟨fun a => r1 a / (2 * Real.sqrt (r a)) * I a + 1 / (a ^ 3 * r a), fun a h0 hA => ?_⟩
  have hD : (fun a => growth c (1 / a - 1)) = fun a => Real.sqrt (r a) * I a := by
    funext a
    rw [growth_at, growthAt, efunc_eq, hr, hI]
  have hrpos : 0 < r a := by rw [hr]; exact h.2 a h0 hA.le
  have dr : HasDerivAt r (r1 a) a := by
    rw [hr, hr1]
    have e1 : HasDerivAt (fun a : ℝ => c.Om0 / a ^ 3) (-3 * c.Om0 / a ^ 4) a := by
      refine ((hasDerivAt_const a c.Om0).div (hasDerivAt_pow 3 a) (by positivity)).congr_deriv ?_
      field_simp
      push_cast
      ring
    have e2 : HasDerivAt (fun a : ℝ => c.Ok0 / a ^ 2) (-2 * c.Ok0 / a ^ 3) a := by
      refine ((hasDerivAt_const a c.Ok0).div (hasDerivAt_pow 2 a) (by positivity)).congr_deriv ?_
      field_simp
      push_cast
      ring
    refine ((e1.add e2).add_const c.Ode0).congr_deriv ?_
    ring
  have dr1 : HasDerivAt r1 (12 * c.Om0 / a ^ 5 + 6 * c.Ok0 / a ^ 4) a := by
    rw [hr1]
    have e1 : HasDerivAt (fun a : ℝ => -3 * c.Om0 / a ^ 4) (12 * c.Om0 / a ^ 5) a := by
      refine ((hasDerivAt_const a (-3 * c.Om0)).div (hasDerivAt_pow 4 a) (by positivity)).congr_deriv ?_
      field_simp
      push_cast
      ring
    have e2 : HasDerivAt (fun a : ℝ => 2 * c.Ok0 / a ^ 3) (-6 * c.Ok0 / a ^ 4) a := by
      refine ((hasDerivAt_const a (2 * c.Ok0)).div (hasDerivAt_pow 3 a) (by positivity)).congr_deriv ?_
      field_simp
      push_cast
      ring
    refine (e1.sub e2).congr_deriv ?_
    ring
  have hint : integrand c a = 1 / (a * Real.sqrt (r a)) ^ 3 := by rw [integrand, efunc_eq, hr]
  have hq : ∀ t, 0 ≤ t → t ≤ A → 0 < qt c.Om0 c.Ok0 c.Ode0 t := qt_pos _ _ _ _ h
  have dI : HasDerivAt I (1 / (a * Real.sqrt (r a)) ^ 3) a := by
    rw [← hint, hI]
    have heq : ∀ᶠ t in 𝓝 a, integrand c t = smooth c.Om0 c.Ok0 c.Ode0 t := by
      filter_upwards [Ioo_mem_nhds h0 hA] with t ht
      exact integrand_eq c t ht.1.le (hq t ht.1.le ht.2.le)
    have hcs := smooth_cont c.Om0 c.Ok0 c.Ode0 A hq
    have hca : ContinuousAt (smooth c.Om0 c.Ok0 c.Ode0) a := hcs.continuousAt (Icc_mem_nhds h0 hA)
    apply integral_hasDerivAt_right
    · have : IntervalIntegrable (smooth c.Om0 c.Ok0 c.Ode0) volume 0 a := by
        apply ContinuousOn.intervalIntegrable
        rw [Set.uIcc_of_le h0.le]
        exact hcs.mono (Set.Icc_subset_Icc le_rfl hA.le)
      refine (intervalIntegrable_congr ?_).2 this
      intro t ht
      rw [Set.uIoc_of_le h0.le] at ht
      exact integrand_eq c t ht.1.le (hq t ht.1.le (ht.2.trans hA.le))
    · refine ⟨Set.Ioo 0 A, Ioo_mem_nhds h0 hA, ?_⟩
      have hm : AEStronglyMeasurable (smooth c.Om0 c.Ok0 c.Ode0) (volume.restrict (Set.Ioo 0 A)) :=
        (hcs.mono Set.Ioo_subset_Icc_self).aestronglyMeasurable measurableSet_Ioo
      refine hm.congr ?_
      filter_upwards [self_mem_ae_restrict measurableSet_Ioo] with t ht
      exact (integrand_eq c t ht.1.le (hq t ht.1.le ht.2.le)).symm
    · exact hca.congr (heq.mono fun t ht => ht.symm)
  have hs : 0 < Real.sqrt (r a) := Real.sqrt_pos.2 hrpos
  have hsq : Real.sqrt (r a) ^ 2 = r a := Real.sq_sqrt hrpos.le
  have dS := dr.sqrt hrpos.ne'
  have dT : HasDerivAt (fun a => 2 * Real.sqrt (r a)) (2 * (r1 a / (2 * Real.sqrt (r a)))) a := dS.const_mul 2
  have d1 := (dr1.div dT (by positivity)).mul dI
  have d2 : HasDerivAt (fun a => 1 / (a ^ 3 * r a)) _ a := (hasDerivAt_const a (1 : ℝ)).div ((hasDerivAt_pow 3 a).mul dr) (by positivity)
  refine ⟨r1 a, _, ?_, d1.add d2, by rw [← hr]; exact dr, ?_⟩
  · rw [hD]
    refine (dS.mul dI).congr_deriv ?_
    have : 1 / (a ^ 3 * r a) = Real.sqrt (r a) * (1 / (a * Real.sqrt (r a)) ^ 3) := by
      rw [← hsq]
      field_simp
      rw [Real.sqrt_sq hs.le]
    simp only [this]
  · rw [hD, ← hr]
    obtain ⟨i, hi⟩ : ∃ i, i = I a := ⟨_, rfl⟩
    obtain ⟨s, hs'⟩ : ∃ s, s = Real.sqrt (r a) := ⟨_, rfl⟩
    obtain ⟨y, hy⟩ : ∃ y, y = r1 a := ⟨_, rfl⟩
    have hy' : y = -3 * c.Om0 / a ^ 4 - 2 * c.Ok0 / a ^ 3 := by rw [hy, hr1]
    simp only [Pi.div_apply, Pi.mul_apply]
    rw [← hi, ← hy, ← hs', ← hsq, ← hs']
    rw [← hs'] at hs
    rw [hy']
    field_simp
    push_cast
    ring

/-- **C133, matter only.** In a universe of matter, with or without critical density, the growth function is the scale factor up to a constant. -/
theorem C133_matter (Om : ℝ) (hOm : 0 < Om) (z : ℝ) (hz : -1 < z) : growth ⟨Om, 0, 0⟩ z = 2 / (5 * Om) * (1 / (1 + z)) := by
  have ha : 0 < 1 / (1 + z) := by
    have : 0 < 1 + z := by linarith
    positivity
  have hE : Spec.Expands Om 0 0 (1 / (1 + z)) := ⟨hOm, fun a h0 _ => by unfold Spec.rate2; positivity⟩
  obtain ⟨h1, h2⟩ := growth_bounds ⟨Om, 0, 0⟩ _ hE _ 0 ha le_rfl one_pos (fun t _ _ => by simp)
  have h3 : growthAt ⟨Om, 0, 0⟩ (1 / (1 + z)) / (1 / (1 + z)) = 2 / (5 * Om) := by
    apply le_antisymm
    · simpa using h2
    · simpa using h1
  rw [growth_z, ← h3, div_mul_cancel₀ _ ha.ne']

/-- how far matter is from being alone at the scale factor `a` -/
def other (c : Density) (a : ℝ) : ℝ := (|c.Ok0| * a + |c.Ode0| * a ^ 3) / c.Om0

theorem other_bound (c : Density) (hOm : 0 < c.Om0) (a t : ℝ) (h0 : 0 ≤ t) (ha : t ≤ a) : |c.Ok0 * t + c.Ode0 * t ^ 3| ≤ other c a * c.Om0 := by
  unfold other
  rw [div_mul_cancel₀ _ hOm.ne']
  calc |c.Ok0 * t + c.Ode0 * t ^ 3| ≤ |c.Ok0 * t| + |c.Ode0 * t ^ 3| := abs_add_le _ _
    _ = |c.Ok0| * t + |c.Ode0| * t ^ 3 := by rw [abs_mul, abs_mul, abs_of_nonneg h0, abs_of_nonneg (pow_nonneg h0 3)]
    _ ≤ _ := by
      apply add_le_add
      · exact mul_le_mul_of_nonneg_left ha (abs_nonneg _)
      · exact mul_le_mul_of_nonneg_left (pow_le_pow_left₀ h0 ha 3) (abs_nonneg _)

/-- **C133, early times.** At early times the growth function is proportional to the scale factor. -/
theorem C133_early (c : Density) (A : ℝ) (hA : 0 < A) (h : Spec.Expands c.Om0 c.Ok0 c.Ode0 A) :
    Tendsto (fun z => (1 + z) * growth c z) atTop (𝓝 (2 / (5 * c.Om0))) := by
  have hOm := h.1
  have ha : Tendsto (fun z : ℝ => 1 / (1 + z)) atTop (𝓝 0) := by
    have : Tendsto (fun z : ℝ => 1 + z) atTop atTop := tendsto_atTop_add_const_left _ _ tendsto_id
    have h1 := this.inv_tendsto_atTop
    refine h1.congr fun z => ?_
    simp
  have hε : Tendsto (fun z : ℝ => other c (1 / (1 + z))) atTop (𝓝 0) := by
    have hc : Continuous (other c) := by unfold other; fun_prop
    have := (hc.tendsto 0).comp ha
    rw [show other c 0 = 0 by simp [other]] at this
    exact this
  have l1 : Tendsto (fun z : ℝ => 2 / (5 * c.Om0) * ((1 - other c (1 / (1 + z))) / (1 + other c (1 / (1 + z))) ^ 2)) atTop (𝓝 (2 / (5 * c.Om0))) := by
    have := ((tendsto_const_nhds (x := (1 : ℝ))).sub hε).div (((tendsto_const_nhds (x := (1 : ℝ))).add hε).pow 2) (by norm_num)
    simpa using this.const_mul (2 / (5 * c.Om0))
  have l2 : Tendsto (fun z : ℝ => 2 / (5 * c.Om0) * ((1 + other c (1 / (1 + z))) / (1 - other c (1 / (1 + z))) ^ 2)) atTop (𝓝 (2 / (5 * c.Om0))) := by
    have := ((tendsto_const_nhds (x := (1 : ℝ))).add hε).div (((tendsto_const_nhds (x := (1 : ℝ))).sub hε).pow 2) (by norm_num)
    simpa using this.const_mul (2 / (5 * c.Om0))
  have hev : ∀ᶠ z : ℝ in atTop, 0 < 1 / (1 + z) ∧ 1 / (1 + z) ≤ A ∧ other c (1 / (1 + z)) < 1 := by
    filter_upwards [eventually_gt_atTop (0 : ℝ), ha.eventually (Iio_mem_nhds hA), hε.eventually (Iio_mem_nhds one_pos)] with z h1 h2 h3
    exact ⟨by positivity, le_of_lt h2, h3⟩
  have key : ∀ᶠ z : ℝ in atTop, 2 / (5 * c.Om0) * ((1 - other c (1 / (1 + z))) / (1 + other c (1 / (1 + z))) ^ 2) ≤ (1 + z) * growth c z ∧
      (1 + z) * growth c z ≤ 2 / (5 * c.Om0) * ((1 + other c (1 / (1 + z))) / (1 - other c (1 / (1 + z))) ^ 2) := by
    filter_upwards [hev] with z hz
    obtain ⟨z1, z2, z3⟩ := hz
    have hb := growth_bounds c A h _ _ z1 z2 z3 (fun t h0 ht => other_bound c hOm _ t h0 ht)
    have e : growthAt c (1 / (1 + z)) / (1 / (1 + z)) = (1 + z) * growth c z := by
      rw [growth_z, div_div_eq_mul_div, div_one, mul_comm]
    rw [e] at hb
    exact hb
  exact tendsto_of_tendsto_of_tendsto_of_le_of_le' l1 l2 (key.mono fun z h => h.1) (key.mono fun z h => h.2)

theorem growth_nonneg (c : Density) (z : ℝ) (hz : -1 < z) (h : Spec.Expands c.Om0 c.Ok0 c.Ode0 (1 / (1 + z))) : 0 ≤ growth c z := by
  have ha : 0 < 1 / (1 + z) := by
    have : 0 < 1 + z := by linarith
    positivity
  rw [growth_z, growthAt, integral_eq c _ h _ ha.le le_rfl, efunc_eq]
  apply mul_nonneg (Real.sqrt_nonneg _)
  apply integral_nonneg ha.le
  intro t _
  exact pow_nonneg (Real.sqrt_nonneg _) 3

/-- **C133, normalisation.** The ratio that normalises the growth to the scale factor at early times, taken at redshift 100, differs from its limit relatively by at most
four times the share of curvature and dark energy at that redshift. -/
theorem C133_normalisation (c : Density) (h : Spec.Expands c.Om0 c.Ok0 c.Ode0 1) (hs : (|c.Ok0| / 101 + |c.Ode0| / 101 ^ 3) / c.Om0 ≤ 1 / 5) :
    |gRatio c - growth c 0 / (2 / (5 * c.Om0))| ≤ 4 * ((|c.Ok0| / 101 + |c.Ode0| / 101 ^ 3) / c.Om0) * (growth c 0 / (2 / (5 * c.Om0))) := by
  have hOm := h.1
  obtain ⟨e, he⟩ : ∃ e, e = (|c.Ok0| / 101 + |c.Ode0| / 101 ^ 3) / c.Om0 := ⟨_, rfl⟩
  have he' : other c (1 / (1 + 100)) = e := by
    rw [he]
    unfold other
    congr 1
    norm_num
    ring
  rw [← he] at hs ⊢
  have he0 : 0 ≤ e := by rw [he]; positivity
  have hb := growth_bounds c 1 h (1 / (1 + 100)) e (by norm_num) (by norm_num) (by linarith) (fun t h0 ht => he' ▸ other_bound c hOm _ t h0 ht)
  obtain ⟨g, hg⟩ : ∃ g, g = growthAt c (1 / (1 + 100)) / (1 / (1 + 100)) := ⟨_, rfl⟩
  have hg' : (1 + 100) * growth c 100 = g := by
    rw [hg, growth_z]
    ring
  rw [← hg] at hb
  obtain ⟨n, hn⟩ : ∃ n, n = 2 / (5 * c.Om0) := ⟨_, rfl⟩
  have hn0 : 0 < n := by rw [hn]; positivity
  rw [← hn] at hb ⊢
  obtain ⟨G, hG⟩ : ∃ G, G = growth c 0 := ⟨_, rfl⟩
  have hG0 : 0 ≤ G := by rw [hG]; exact growth_nonneg c 0 (by norm_num) (by simpa using h)
  unfold gRatio
  rw [hg', ← hG]
  have h1 : 0 < 1 - e := by linarith
  have hlow : n * (1 - 3 * e) ≤ g := by
    refine le_trans (mul_le_mul_of_nonneg_left ?_ hn0.le) hb.1
    rw [le_div_iff₀ (by positivity)]
    nlinarith [mul_nonneg he0 he0, mul_nonneg he0 (mul_nonneg he0 he0)]
  have hgpos : 0 < g := lt_of_lt_of_le (mul_pos hn0 (by linarith)) hlow
  have h2 : n / g ≤ (1 + e) ^ 2 / (1 - e) := by
    rw [div_le_div_iff₀ hgpos h1]
    have := mul_le_mul_of_nonneg_right hb.1 (show (0 : ℝ) ≤ (1 + e) ^ 2 by positivity)
    rw [mul_assoc, div_mul_cancel₀ _ (by positivity)] at this
    linarith
  have h3 : (1 - e) ^ 2 / (1 + e) ≤ n / g := by
    rw [div_le_div_iff₀ (by linarith) hgpos]
    have := mul_le_mul_of_nonneg_right hb.2 (show (0 : ℝ) ≤ (1 - e) ^ 2 by positivity)
    rw [mul_assoc, div_mul_cancel₀ _ (by positivity)] at this
    linarith
  have h4 : (1 + e) ^ 2 / (1 - e) ≤ 1 + 4 * e := by
    rw [div_le_iff₀ h1]
    nlinarith
  have h5 : 1 - 4 * e ≤ (1 - e) ^ 2 / (1 + e) := by
    rw [le_div_iff₀ (by linarith)]
    nlinarith
  have e1 : G / g - G / n = (n / g - 1) * (G / n) := by
    field_simp
  rw [e1, abs_mul, abs_of_nonneg (show 0 ≤ G / n by positivity)]
  apply mul_le_mul_of_nonneg_right _ (by positivity)
  rw [abs_le]
  constructor <;> linarith

theorem largest_spec (l : List ℝ) (x : ℝ) (hx : x ∈ l) (h : ∀ y ∈ l, y ≤ x) : largest l = x := by
  have key : ∀ (l : List ℝ) (a : ℝ), (∀ y ∈ l, y ≤ l.foldl max a) ∧ a ≤ l.foldl max a ∧ (l.foldl max a = a ∨ l.foldl max a ∈ l) := by
    intro l
    induction l with
    | nil => intro a; simp
    | cons b l ih =>
      intro a
      obtain ⟨h1, h2, h3⟩ := ih (max a b)
      simp only [List.foldl_cons]
      refine ⟨fun y hy => ?_, le_trans (le_max_left _ _) h2, ?_⟩
      · rcases List.mem_cons.1 hy with rfl | hy
        · exact le_trans (le_max_right _ _) h2
        · exact h1 y hy
      · rcases h3 with h3 | h3
        · rw [h3]
          rcases max_choice a b with hm | hm <;> rw [hm] <;> simp
        · exact Or.inr (List.mem_cons_of_mem _ h3)
  cases l with
  | nil => cases hx
  | cons a l =>
    obtain ⟨h1, h2, h3⟩ := key l a
    show l.foldl max a = x
    apply le_antisymm
    · rcases h3 with h3 | h3
      · rw [h3]; exact h a (by simp)
      · exact h _ (List.mem_cons_of_mem _ h3)
    · rcases List.mem_cons.1 hx with rfl | hx
      · exact h2
      · exact h1 x hx

theorem root (x y : ℝ) (hx : 0 ≤ x) (hy : 0 ≤ y) : (x * y ^ 2) ^ (0.5 : ℝ) = Real.sqrt x * y := by
  rw [show (0.5 : ℝ) = 1 / 2 by norm_num, ← Real.sqrt_eq_rpow, Real.sqrt_mul hx, Real.sqrt_sq hy]

/-- **C133, transfer function.** For the linear spectrum `A k^ns T(k)²` of which the transfer function `T` is largest at some wavenumber `k0` of the list, the factor is that of the Poisson
equation with the transfer function relative to that at `k0` and the growth normalised to early times; the amplitude of the spectrum does not matter. -/
theorem C133_alpha (c : Density) (A ns D : ℝ) (T : ℝ → ℝ) (hA : 0 < A) (ks : List ℝ) (hk : ∀ k ∈ ks, 0 < k) (hT : ∀ k ∈ ks, 0 < T k) (k0 : ℝ) (h0 : k0 ∈ ks) (hmax : ∀ k ∈ ks, T k ≤ T k0) :
    alphaPng c (fun k => A * k ^ ns * T k ^ 2) ns D ks = ks.map fun k => Spec.poisson c.Om0 (T k / T k0) (D * gRatio c) k := by
  have ht : (ks.map fun k => (A * k ^ ns * T k ^ 2 / k ^ ns) ^ (0.5 : ℝ)) = ks.map fun k => Real.sqrt A * T k := by
    apply List.map_congr_left
    intro k hk'
    have hp : 0 < k ^ ns := Real.rpow_pos_of_pos (hk k hk') ns
    rw [← root A (T k) hA.le (hT k hk').le]
    congr 1
    field_simp
  have hsA : 0 < Real.sqrt A := Real.sqrt_pos.2 hA
  have hl : largest (ks.map fun k => Real.sqrt A * T k) = Real.sqrt A * T k0 := by
    apply largest_spec
    · exact List.mem_map.2 ⟨k0, h0, rfl⟩
    · intro y hy
      obtain ⟨k, hk', rfl⟩ := List.mem_map.1 hy
      exact mul_le_mul_of_nonneg_left (hmax k hk') hsA.le
  have htr : transfer (fun k => A * k ^ ns * T k ^ 2) ns ks = ks.map fun k => T k / T k0 := by
    unfold transfer
    dsimp only
    rw [ht, hl, List.map_map]
    apply List.map_congr_left
    intro k hk'
    have := (hT k0 h0).ne'
    simp only [Function.comp]
    field_simp
  unfold alphaPng
  rw [htr, List.zipWith_map_right, List.zipWith_self]
  apply List.map_congr_left
  intro k _
  unfold Spec.poisson cKms
  norm_num
  ring

/-- **C133, growth of the potential.** If the growth of the model is the growth function relative to today, the two together are the growth normalised at redshift 100;
in a universe of matter that is the scale factor. -/
theorem C133_total_growth (c : Density) (z : ℝ) (h : growth c 0 ≠ 0) :
    growth c z / growth c 0 * gRatio c = growth c z / (101 * growth c 100) ∧
    (0 < c.Om0 → c.Ok0 = 0 → c.Ode0 = 0 → -1 < z → growth c z / growth c 0 * gRatio c = 1 / (1 + z)) := by
  have e : growth c z / growth c 0 * gRatio c = growth c z / (101 * growth c 100) := by
    unfold gRatio
    rw [div_mul_div_cancel₀ h]
    norm_num
  refine ⟨e, fun hOm hk hd hz => ?_⟩
  rw [e]
  have hc : c = ⟨c.Om0, 0, 0⟩ := by
    cases c
    simp_all
  rw [hc, C133_matter _ hOm z hz, C133_matter _ hOm 100 (by norm_num)]
  have : (1 : ℝ) + z ≠ 0 := by linarith
  field_simp
  norm_num

/-- **C133, bias.** The bias is `b1` plus `2 (b1 - p) f_nl 1.686 / α` at every wavenumber. -/
theorem C133_bias (b1 p fnl : ℝ) (ks alpha : List ℝ) (hl : alpha.length = ks.length) :
    btot b1 (deltaBias b1 p fnl ks alpha) = alpha.map fun al => b1 + 2 * (b1 - p) * fnl * 1.686 / al := by
  unfold btot deltaBias deltaCrit
  split_ifs with h
  · subst h
    rw [List.map_map]
    apply List.ext_getElem
    · simp [hl]
    · intro i h1 h2
      simp
  · rw [List.map_map]
    rfl

/-- **C133, large scales.** Where the transfer function is 1, the additional bias falls as `1/k²`. -/
theorem C133_large_scales (b1 p fnl Om D k k' : ℝ) (hk : k ≠ 0) (hk' : k' ≠ 0) :
    2 * (b1 - p) * fnl * 1.686 / Spec.poisson Om 1 D k * k ^ 2 = 2 * (b1 - p) * fnl * 1.686 / Spec.poisson Om 1 D k' * k' ^ 2 := by
  have e : ∀ x : ℝ, x ≠ 0 → 2 * (b1 - p) * fnl * 1.686 / Spec.poisson Om 1 D x * x ^ 2 = 2 * (b1 - p) * fnl * 1.686 / (2 * D / (3 * Om) * 2997.92458 ^ 2) := by
    intro x hx
    unfold Spec.poisson
    rw [show 2 * x ^ 2 * 1 * D / (3 * Om) * 2997.92458 ^ 2 = x ^ 2 * (2 * D / (3 * Om) * 2997.92458 ^ 2) by ring, ← div_div, div_right_comm,
      div_mul_cancel₀ _ (pow_ne_zero 2 hx)]
  rw [e k hk, e k' hk']

/-- C133: asked for without the spline, the factor depends on the other wavenumbers asked for: for one wavenumber alone the transfer function is 1. -/
theorem C133_alone_counterexample (c : Density) (A ns D : ℝ) (T : ℝ → ℝ) (hA : 0 < A) (k : ℝ) (hk : 0 < k) (hT : 0 < T k) :
    alphaPng c (fun k => A * k ^ ns * T k ^ 2) ns D [k] = [Spec.poisson c.Om0 1 (D * gRatio c) k] := by
  rw [C133_alpha c A ns D T hA [k] (by simpa using hk) (by simpa using hT) k (by simp) (by simp)]
  simp [div_self hT.ne']

/-- the hypotheses hold for a flat universe with dark energy; the error of the normalisation is less than 1 in 10⁵ -/
example : Spec.Expands 0.3 0 0.7 1 ∧ |gRatio ⟨0.3, 0.7, 0⟩ - growth ⟨0.3, 0.7, 0⟩ 0 / (2 / (5 * 0.3))| ≤ 1 / 100000 * (growth ⟨0.3, 0.7, 0⟩ 0 / (2 / (5 * 0.3))) := by
  have h : Spec.Expands 0.3 0 0.7 1 := ⟨by norm_num, fun a h0 _ => by unfold Spec.rate2; positivity⟩
  refine ⟨h, le_trans (C133_normalisation ⟨0.3, 0.7, 0⟩ h (by norm_num [abs_of_nonneg])) ?_⟩
  apply mul_le_mul_of_nonneg_right
  · norm_num [abs_of_nonneg]
  · apply div_nonneg
    · exact growth_nonneg _ 0 (by norm_num) (by simpa using h)
    · norm_num

end

end Verif.Png
