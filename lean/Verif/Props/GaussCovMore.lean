/-
C131: more angles, noise, and where the Gaussian covariance matrices are not what they should be.
-/
import Verif.Props.GaussCov
import Mathlib.Analysis.SpecificLimits.Basic
import Mathlib.MeasureTheory.Integral.IntervalIntegral.FundThmCalculus

namespace Verif.GaussCov

open Verif.Priors Verif.Priors.Flt Verif.Legendre Filter Topology MeasureTheory

noncomputable section

theorem riemann_left (f : ℝ → ℝ) (hf : ContinuousOn f (Set.Icc 0 1)) :
    Tendsto (fun n : ℕ => (∑ m ∈ Finset.range n, f (m / n)) / n) atTop (𝓝 (∫ x in (0 : ℝ)..1, f x)) := by
  rw [Metric.tendsto_atTop]
  intro ε hε
  have hu := isCompact_Icc.uniformContinuousOn_of_continuous hf
  rw [Metric.uniformContinuousOn_iff] at hu
  obtain ⟨δ, hδ, hu⟩ := hu (ε / 2) (by positivity)
  obtain ⟨N0, hN0⟩ := exists_nat_gt (1 / δ)
  refine ⟨N0 + 1, fun n hn => ?_⟩
  have hn0 : (0 : ℝ) < n := by exact_mod_cast (by omega : 0 < n)
  have hnδ : 1 / (n : ℝ) < δ := by
    rw [div_lt_iff₀ hn0, mul_comm]
    rw [div_lt_iff₀ hδ] at hN0
    exact hN0.trans_le (mul_le_mul_of_nonneg_right (by exact_mod_cast (by omega : N0 ≤ n)) hδ.le)
  have hsub : ∀ m < n, (m : ℝ) / n ≤ ((m + 1 : ℕ) : ℝ) / n ∧ 0 ≤ (m : ℝ) / n ∧ ((m + 1 : ℕ) : ℝ) / n ≤ 1 := by
    intro m hm
    refine ⟨?_, by positivity, ?_⟩
    · gcongr
      omega
    · rw [div_le_one hn0]
      exact_mod_cast hm
  have hint : ∀ m < n, IntervalIntegrable f volume ((m : ℝ) / n) (((m + 1 : ℕ) : ℝ) / n) := by
    intro m hm
    obtain ⟨h1, h2, h3⟩ := hsub m hm
    refine ContinuousOn.intervalIntegrable (hf.mono ?_)
    rw [Set.uIcc_of_le h1]
    exact Set.Icc_subset_Icc h2 h3
  have hI : ∫ x in (0 : ℝ)..1, f x = ∑ m ∈ Finset.range n, ∫ x in ((m : ℝ) / n)..(((m + 1 : ℕ) : ℝ) / n), f x := by
    have := intervalIntegral.sum_integral_adjacent_intervals (f := f) (a := fun m : ℕ => (m : ℝ) / n) (μ := volume) (n := n) hint
    rw [this]
    simp only [Nat.cast_zero, zero_div, div_self hn0.ne']
  have hd : (∑ m ∈ Finset.range n, f (m / n)) / n - ∫ x in (0 : ℝ)..1, f x =
      ∑ m ∈ Finset.range n, ∫ x in ((m : ℝ) / n)..(((m + 1 : ℕ) : ℝ) / n), (f (m / n) - f x) := by
    rw [hI, Finset.sum_div, ← Finset.sum_sub_distrib]
    refine Finset.sum_congr rfl fun m hm => ?_
    rw [intervalIntegral.integral_sub intervalIntegrable_const (hint m (Finset.mem_range.1 hm)), intervalIntegral.integral_const, smul_eq_mul]
    congr 1
    push_cast
    ring
  rw [Real.dist_eq, hd]
  refine lt_of_le_of_lt (Finset.abs_sum_le_sum_abs _ _) ?_
  have hb : ∀ m ∈ Finset.range n, |∫ x in ((m : ℝ) / n)..(((m + 1 : ℕ) : ℝ) / n), (f (m / n) - f x)| ≤ ε / 2 * (1 / n) := by
    intro m hm
    obtain ⟨h1, h2, h3⟩ := hsub m (Finset.mem_range.1 hm)
    have hw : ((m + 1 : ℕ) : ℝ) / n - (m : ℝ) / n = 1 / n := by push_cast; ring
    have := intervalIntegral.norm_integral_le_of_norm_le_const (f := fun x => f (m / n) - f x) (C := ε / 2) (a := (m : ℝ) / n) (b := ((m + 1 : ℕ) : ℝ) / n) (by
      intro x hx
      rw [Set.uIoc_of_le h1] at hx
      have := hu (m / n) ⟨h2, by linarith⟩ x ⟨by linarith [hx.1], by linarith [hx.2]⟩ (by
        rw [Real.dist_eq, abs_lt]
        exact ⟨by linarith [hx.2], by linarith [hx.1]⟩)
      rw [Real.dist_eq] at this
      exact this.le)
    rw [hw, abs_of_nonneg (by positivity)] at this
    exact this
  refine lt_of_le_of_lt (Finset.sum_le_sum hb) ?_
  rw [Finset.sum_const, Finset.card_range, nsmul_eq_mul]
  have : (n : ℝ) * (ε / 2 * (1 / n)) = ε / 2 := by field_simp
  rw [this]
  linarith

/-- The mean over equally spaced angles tends to the integral. -/
theorem angleMean_tendsto (f : ℝ → ℝ) (hf : ContinuousOn f (Set.Icc 0 1)) : Tendsto (fun n => Spec.angleMean n f) atTop (𝓝 (∫ x in (0 : ℝ)..1, f x)) := by
  have h1 := riemann_left f hf
  have h2 : Tendsto (fun n : ℕ => (n : ℝ) / (n + 1)) atTop (𝓝 1) := tendsto_natCast_div_add_atTop 1
  have h3 : Tendsto (fun n : ℕ => f 1 / ((n : ℝ) + 1)) atTop (𝓝 0) := by
    have := (tendsto_const_div_atTop_nhds_zero_nat (f 1)).comp (tendsto_add_atTop_nat 1)
    refine this.congr fun n => ?_
    simp
  have h4 := (h2.mul h1).add h3
  rw [one_mul, add_zero] at h4
  refine h4.congr' ?_
  filter_upwards [eventually_gt_atTop 0] with n hn
  have hn0 : (n : ℝ) ≠ 0 := by positivity
  have hn1 : (n : ℝ) + 1 ≠ 0 := by positivity
  unfold Spec.angleMean
  rw [Finset.sum_range_succ, div_self hn0, add_div]
  congr 1
  rw [div_mul_div_comm, mul_comm ((n : ℝ) + 1), mul_div_mul_left _ _ hn0]

theorem integrand_continuous (l l' : ℕ) (p2 : ℝ → ℝ) (hp : ContinuousOn p2 (Set.Icc 0 1)) : ContinuousOn (Spec.integrand l l' p2) (Set.Icc 0 1) := by
  unfold Spec.integrand
  have h1 := (leg_continuous l).continuousOn (s := Set.Icc (0 : ℝ) 1)
  have h2 := (leg_continuous l').continuousOn (s := Set.Icc (0 : ℝ) 1)
  fun_prop

/-- C131: with more and more angles the covariance tends to that of Grieb et al. (2015), for every spectrum that is continuous in the angle: in a box. -/
theorem C131_limit_box (big : ℝ) (P : ℝ → ℝ → ℝ) (ks : List ℝ) (dk : ℝ) (hk : GoodK ks dk) (ells : List ℕ) (nbar V : ℝ) (hn : nbar ≠ 0) (hV : V ≠ 0) (i j a : ℕ)
    (ha : a < ks.length) (hP : ContinuousOn (P (ks.getD a 0)) (Set.Icc 0 1)) :
    Tendsto (fun Nmu => (periodic big P ks ells nbar V Nmu).entry (i * ks.length + a) (j * ks.length + a)) atTop
      (𝓝 (Spec.gaussExact (Spec.modes V (ks.getD a 0) dk) (ells.getD i 0) (ells.getD j 0) fun mu => (P (ks.getD a 0) mu + 1 / nbar) ^ 2)) := by
  have h := (angleMean_tendsto _ (integrand_continuous (ells.getD i 0) (ells.getD j 0) (fun mu => (P (ks.getD a 0) mu + 1 / nbar) ^ 2) (by fun_prop))).const_mul
    (2 / Spec.modes V (ks.getD a 0) dk)
  refine h.congr' ?_
  filter_upwards [eventually_ge_atTop ks.length] with n hlen
  rw [C131_box_partial big P ks dk hk ells nbar V hn hV n (by omega) i j a a ha ha, if_pos rfl]
  rfl

/-- C131: the same in a survey. -/
theorem C131_limit_survey (big : ℝ) (P : ℝ → ℝ → ℝ) (ks : List ℝ) (dk : ℝ) (hk : GoodK ks dk) (ells : List ℕ) (S : Survey) (P0 : ℝ) (h0 : 0 ≤ P0) (Nz : ℕ)
    (hS : GoodSurvey S Nz) (i j a : ℕ) (ha : a < ks.length) (hP : ContinuousOn (P (ks.getD a 0)) (Set.Icc 0 1)) :
    Tendsto (fun Nmu => (cutsky big P ks ells S P0 Nmu Nz).entry (i * ks.length + a) (j * ks.length + a)) atTop
      (𝓝 (Spec.gaussExact (Spec.modes 1 (ks.getD a 0) dk) (ells.getD i 0) (ells.getD j 0) fun mu =>
        Spec.fkp Nz (S.dV Nz) (S.n Nz) (fun s => 1 / (1 + S.n Nz s * P0)) (P (ks.getD a 0) mu))) := by
  have h := (angleMean_tendsto _ (integrand_continuous (ells.getD i 0) (ells.getD j 0)
    (fun mu => Spec.fkp Nz (S.dV Nz) (S.n Nz) (fun s => 1 / (1 + S.n Nz s * P0)) (P (ks.getD a 0) mu)) (by
      unfold Spec.fkp
      refine ContinuousOn.div_const ?_ _
      refine continuousOn_finset_sum _ fun s _ => ?_
      fun_prop))).const_mul (2 / Spec.modes 1 (ks.getD a 0) dk)
  refine h.congr' ?_
  filter_upwards [eventually_ge_atTop ks.length] with n hlen
  rw [C131_survey_partial big P ks dk hk ells S P0 h0 n Nz hS (by omega) i j a a ha ha, if_pos rfl]
  rfl

theorem half_ip (l l' : ℕ) (hpar : Even (l + l')) : ∫ x in (0 : ℝ)..1, leg l x * leg l' x = ip l l' / 2 := by
  have hc : Continuous fun x => leg l x * leg l' x := (leg_continuous l).mul (leg_continuous l')
  have hsplit : ip l l' = (∫ x in (-1 : ℝ)..0, leg l x * leg l' x) + ∫ x in (0 : ℝ)..1, leg l x * leg l' x := by
    unfold ip
    rw [intervalIntegral.integral_add_adjacent_intervals (hc.intervalIntegrable _ _) (hc.intervalIntegrable _ _)]
  have hneg : ∫ x in (-1 : ℝ)..0, leg l x * leg l' x = ∫ x in (0 : ℝ)..1, leg l x * leg l' x := by
    have := intervalIntegral.integral_comp_neg (f := fun x => leg l x * leg l' x) (a := 0) (b := 1)
    rw [neg_zero] at this
    rw [← this]
    refine intervalIntegral.integral_congr fun x _ => ?_
    simp only [leg_parity]
    have : ((-1 : ℝ) ^ l) * (-1) ^ l' = 1 := by rw [← pow_add]; exact hpar.neg_one_pow
    calc _ = ((-1 : ℝ) ^ l * (-1) ^ l') * (leg l x * leg l' x) := by ring
      _ = _ := by rw [this, one_mul]
  rw [hsplit, hneg]
  ring

/-- C131: where the power plus noise is `c` in all directions (without clustering `c` is the shot noise), even multipoles are not correlated, and the variance of the
multipole `l` is `2 (2 l + 1) c^2 / N` in the limit of many angles. -/
theorem C131_isotropic (N c : ℝ) (l l' : ℕ) (hpar : Even (l + l')) :
    Spec.gaussExact N l l' (fun _ => c ^ 2) = if l = l' then 2 * (2 * (l : ℝ) + 1) * c ^ 2 / N else 0 := by
  unfold Spec.gaussExact Spec.integrand
  have e : ∀ mu, (2 * (l : ℝ) + 1) * leg l mu * ((2 * (l' : ℝ) + 1) * leg l' mu) * c ^ 2 = ((2 * (l : ℝ) + 1) * (2 * (l' : ℝ) + 1) * c ^ 2) * (leg l mu * leg l' mu) :=
    fun mu => by ring
  simp only [e]
  rw [intervalIntegral.integral_const_mul, half_ip l l' hpar, ip_eq]
  split_ifs with h
  · subst h
    have : (2 * (l : ℝ) + 1) ≠ 0 := by positivity
    field_simp
  · simp

/-- C131: if a multipole is asked for twice, the matrix cannot be inverted: the difference of the two measurements has variance 0. -/
theorem C131_repeated (big : ℝ) (P : ℝ → ℝ → ℝ) (ks : List ℝ) (dk : ℝ) (hk : GoodK ks dk) (ells : List ℕ) (nbar V : ℝ) (hn : nbar ≠ 0) (hV : 0 < V) (Nmu : ℕ)
    (hl : ks.length ≠ Nmu + 1) (i j : ℕ) (hi : i < ells.length) (hj : j < ells.length) (hij : i ≠ j) (hsame : ells.getD i 0 = ells.getD j 0) :
    ¬ Spec.Definite (periodic big P ks ells nbar V Nmu).size (periodic big P ks ells nbar V Nmu).entry := by
  intro hdef
  have h0 : 0 < ks.length := by have := hk.two; omega
  have hne : i * ks.length ≠ j * ks.length := fun h => hij (Nat.eq_of_mul_eq_mul_right h0 h)
  have hsz : ∀ i, i < ells.length → i * ks.length < (periodic big P ks ells nbar V Nmu).size := by
    intro i hi
    show i * ks.length < ks.length * ells.length
    rw [mul_comm]
    exact Nat.mul_lt_mul_of_pos_left hi h0
  obtain ⟨E, hE⟩ : ∃ E, E = (periodic big P ks ells nbar V Nmu).entry := ⟨_, rfl⟩
  obtain ⟨n, hn'⟩ : ∃ n, n = (periodic big P ks ells nbar V Nmu).size := ⟨_, rfl⟩
  have key : ∀ u v, (ells.getD u 0 = ells.getD i 0) → ells.getD v 0 = ells.getD i 0 → E (u * ks.length) (v * ks.length) = E (i * ks.length) (i * ks.length) := by
    intro u v hu hv
    have := C131_box_partial big P ks dk hk ells nbar V hn hV.ne' Nmu hl u v 0 0 h0 h0
    have h2 := C131_box_partial big P ks dk hk ells nbar V hn hV.ne' Nmu hl i i 0 0 h0 h0
    rw [add_zero, add_zero, if_pos rfl, hu, hv] at this
    rw [add_zero, if_pos rfl] at h2
    rw [hE, this, h2]
  have := hdef (fun p => if p = i * ks.length then 1 else if p = j * ks.length then -1 else 0) ⟨i * ks.length, hsz i hi, by simp⟩
  rw [← hE, ← hn'] at this
  have hsi : i * ks.length ∈ Finset.range n := Finset.mem_range.2 (hn' ▸ hsz i hi)
  have hsj : j * ks.length ∈ Finset.range n := Finset.mem_range.2 (hn' ▸ hsz j hj)
  have red : ∀ g : ℕ → ℝ, ∑ p ∈ Finset.range n, (if p = i * ks.length then (1 : ℝ) else if p = j * ks.length then -1 else 0) * g p = g (i * ks.length) - g (j * ks.length) := by
    intro g
    rw [Finset.sum_eq_add_of_mem (i * ks.length) (j * ks.length) hsi hsj hne]
    · rw [if_pos rfl, if_neg hne.symm, if_pos rfl]
      ring
    · rintro c - ⟨h1, h2⟩
      rw [if_neg h1, if_neg h2, zero_mul]
  have hz : ∑ p ∈ Finset.range n, ∑ q ∈ Finset.range n, (if p = i * ks.length then (1 : ℝ) else if p = j * ks.length then -1 else 0) * E p q *
      (if q = i * ks.length then (1 : ℝ) else if q = j * ks.length then -1 else 0) = 0 := by
    have : ∀ p, ∑ q ∈ Finset.range n, (if p = i * ks.length then (1 : ℝ) else if p = j * ks.length then -1 else 0) * E p q *
        (if q = i * ks.length then (1 : ℝ) else if q = j * ks.length then -1 else 0) =
        (if p = i * ks.length then (1 : ℝ) else if p = j * ks.length then -1 else 0) * (E p (i * ks.length) - E p (j * ks.length)) := by
      intro p
      rw [← red (E p), Finset.mul_sum]
      exact Finset.sum_congr rfl fun q _ => by ring
    rw [Finset.sum_congr rfl fun p _ => this p, red fun p => E p (i * ks.length) - E p (j * ks.length),
      key i j rfl hsame.symm, key j i hsame.symm rfl, key j j hsame.symm hsame.symm]
    ring
  exact absurd this (by rw [hz]; exact lt_irrefl _)

theorem total_nan (l : List Flt) (h : nan ∈ l) : total l = nan := by
  have hn : ∀ l : List Flt, l.foldl add nan = nan := by
    intro l
    induction l with
    | nil => rfl
    | cons a l ih => rw [List.foldl_cons]; exact ih
  have : ∀ (l : List Flt) (c : Flt), nan ∈ l → l.foldl add c = nan := by
    intro l
    induction l with
    | nil => intro c h; simp at h
    | cons a l ih =>
      intro c h
      rw [List.foldl_cons]
      rcases List.mem_cons.1 h with h | h
      · rw [← h]
        have : add c nan = nan := by cases c <;> rfl
        rw [this, hn]
      · exact ih _ h
  exact this l _ h

theorem zero_mul_unbounded (w p : ℝ) : mul (fin 0) (mul (fin w) (sq (add (fin p) (div (fin 1) (fin 0))))) = nan := by
  have h1 : div (fin 1) (fin 0) = pinf := by
    show (if (0 : ℝ) = 0 then infinity 1 else fin (1 / 0)) = pinf
    rw [if_pos rfl, infinity, if_pos one_pos]
  rw [h1]
  show mul (fin 0) (infinity w) = nan
  unfold infinity
  split_ifs
  · show infinity 0 = nan
    simp [infinity]
  · show infinity (-0) = nan
    simp [infinity]
  · rfl

/-- C131: if one redshift shell contains no objects (a range of redshifts a bit wider than the survey, say), `0 * inf` is `nan`, and all elements of the matrix are 0,
whatever the spectrum, the other shells and the volume are. -/
theorem C131_empty_counterexample (big : ℝ) (P : ℝ → ℝ → ℝ) (ks : List ℝ) (ells : List ℕ) (S : Survey) (P0 : ℝ) (Nmu Nz s : ℕ) (hs : s < Nz) (h0 : S.n Nz s = 0) (p q : ℕ) :
    (cutsky big P ks ells S P0 Nmu Nz).entry p q = 0 := by
  have hnw : S.nw P0 Nz s = fin 0 := by
    unfold Survey.nw
    rw [h0, zero_mul, add_zero, div_fin _ _ one_ne_zero, mul_fin, zero_mul]
  have hu4 : S.u4 P0 Nz s = fin 0 := by
    unfold Survey.u4
    rw [hnw, sq_fin, mul_zero, sq_fin, mul_zero, mul_fin, zero_mul]
  have hx : ∀ i j a m, overShells P ks ells S P0 Nmu Nz i j a m = nan := by
    intro i j a m
    unfold overShells
    rw [total_nan]
    · rfl
    · refine List.mem_map.2 ⟨s, List.mem_range.2 hs, ?_⟩
      rw [hu4, h0]
      exact zero_mul_unbounded _ _
  have hmean : ∀ i j a, nanmean ((List.range (Nmu + 1)).map (overShells P ks ells S P0 Nmu Nz i j a)) = nan := by
    intro i j a
    unfold nanmean
    rw [if_pos]
    rw [List.isEmpty_iff, List.filter_eq_nil_iff]
    intro x hx'
    obtain ⟨m, _, rfl⟩ := List.mem_map.1 hx'
    rw [hx]
    simp [isNan]
  simp only [cutsky, assemble]
  split_ifs with hab
  · rw [hmean]
    rfl
  · rw [mul_fin, mul_zero]
    cases modes ks (S.Veff P0 Nz) (q % ks.length) with
    | nan => rfl
    | pinf => rfl
    | ninf => rfl
    | fin x =>
      show nanToNum big (if x = 0 then infinity 0 else fin (0 / x)) = 0
      split_ifs
      · simp [infinity, nanToNum]
      · simp [nanToNum]

/-- C131: if there are as many wavenumbers as angles (101 wavenumbers, with the default `Nmu`), the spectrum that is used is the one at the angle number `m` and the
wavenumber number `m`, and the covariance, apart from the number of modes, is the same at all wavenumbers. -/
theorem C131_line_counterexample (big : ℝ) (P : ℝ → ℝ → ℝ) (ks : List ℝ) (dk : ℝ) (hk : GoodK ks dk) (ells : List ℕ) (nbar V : ℝ) (hn : nbar ≠ 0) (hV : V ≠ 0) (Nmu : ℕ)
    (hl : ks.length = Nmu + 1) (i j : ℕ) (a b : ℕ) (ha : a < ks.length) (hb : b < ks.length) :
    Spec.modes V (ks.getD a 0) dk * (periodic big P ks ells nbar V Nmu).entry (i * ks.length + a) (j * ks.length + a) =
      Spec.modes V (ks.getD b 0) dk * (periodic big P ks ells nbar V Nmu).entry (i * ks.length + b) (j * ks.length + b) := by
  have key : ∀ a, a < ks.length → Spec.modes V (ks.getD a 0) dk * (periodic big P ks ells nbar V Nmu).entry (i * ks.length + a) (j * ks.length + a) =
      2 * ((∑ m ∈ Finset.range (Nmu + 1), Spec.integrand (ells.getD (min i j) 0) (ells.getD (max i j) 0) (fun _ => (P (ks.getD m 0) (m / Nmu) + 1 / nbar) ^ 2) (m / Nmu)) / (Nmu + 1)) := by
    intro a ha
    have hN := Spec_modes_ne ks dk hk V hV a ha
    unfold periodic
    rw [assemble_entry big ks ells Nmu _ _ i j a a ha ha (Spec.modes V (ks.getD a 0) dk) (modes_eq ks dk hk V a) hN
      (fun m => Spec.integrand (ells.getD (min i j) 0) (ells.getD (max i j) 0) (fun _ => (P (ks.getD m 0) (m / Nmu) + 1 / nbar) ^ 2) (m / Nmu))]
    · rw [if_pos rfl, ← mul_assoc, mul_div_cancel₀ _ hN]
    · intro _ m
      rw [toBin_eq P ks ells Nmu nbar hn]
      unfold usedPower
      rw [if_pos hl, linspace_unit]
  rw [key a ha, key b hb]

/-- two wavenumbers -/
theorem goodTwo : GoodK [1, 2] 1 := by
  refine ⟨by simp, by norm_num, one_pos, fun a ha => ?_⟩
  match a, ha with
  | 0, _ => norm_num
  | 1, _ => norm_num

/-- C131: an example: the spectrum `P(k, mu) = k` at the wavenumbers 1 and 2, with two angles. -/
theorem C131_line_example (big : ℝ) :
    (periodic big (fun k _ => k) [1, 2] [0] 1 1 1).entry 0 0 ≠ Spec.gauss 1 (Spec.modes 1 1 1) 0 0 (fun _ => (1 + 1 / 1) ^ 2) := by
  have h := assemble_entry big [1, 2] [0] 1 _ (toBin (fun k _ => k) [1, 2] [0] 1 1) 0 0 0 0 (by simp) (by simp) (Spec.modes 1 1 1) (modes_eq [1, 2] 1 goodTwo 1 0)
    (Spec_modes_ne [1, 2] 1 goodTwo 1 one_ne_zero 0 (by simp))
    (fun m => Spec.integrand 0 0 (fun _ => (([1, 2] : List ℝ).getD m 0 + 1 / 1) ^ 2) ((m : ℝ) / (1 : ℕ))) (by
      intro _ m
      rw [toBin_eq _ _ _ _ _ one_ne_zero]
      rfl)
  have hN : Spec.modes 1 1 1 ≠ 0 := Spec_modes_ne [1, 2] 1 goodTwo 1 one_ne_zero 0 (by simp)
  have h' : (periodic big (fun k _ => k) [1, 2] [0] 1 1 1).entry 0 0 = 2 / Spec.modes 1 1 1 * (13 / 2) := by
    refine Eq.trans (by simpa [periodic] using h) ?_
    norm_num [Spec.integrand, leg, Finset.sum_range_succ]
  rw [h']
  have e : Spec.gauss 1 (Spec.modes 1 1 1) 0 0 (fun _ => (1 + 1 / 1) ^ 2) = 2 / Spec.modes 1 1 1 * 4 := by
    unfold Spec.gauss Spec.angleMean
    norm_num [Spec.integrand, leg, Finset.sum_range_succ]
  rw [e]
  intro hcon
  have := mul_left_cancel₀ (div_ne_zero two_ne_zero hN) hcon
  norm_num at this

/-- a survey with constant density between the redshifts 0 and 1 -/
def someSurvey : Survey := ⟨fun _ => 3, 1 / 2, 0, 1, fun z => 1000 * z⟩

theorem someSurvey_good (Nz : ℕ) (h : 1 ≤ Nz) : GoodSurvey someSurvey Nz := by
  refine ⟨h, fun s _ => ?_, fun s _ => by norm_num [Survey.n, someSurvey]⟩
  have hz : (0 : ℝ) < Nz := by exact_mod_cast h
  have h1 : 1000 * linspace (0 : ℝ) 1 Nz s < 1000 * linspace (0 : ℝ) 1 Nz (s + 1) := by
    rw [linspace_unit, linspace_unit]
    push_cast
    gcongr
    linarith
  have h2 : (0 : ℝ) ≤ 1000 * linspace (0 : ℝ) 1 Nz s := by rw [linspace_unit]; positivity
  have h3 : (1000 * linspace (0 : ℝ) 1 Nz s) ^ 3 < (1000 * linspace (0 : ℝ) 1 Nz (s + 1)) ^ 3 := pow_lt_pow_left₀ h1 h2 (by norm_num)
  have h4 : 0 < (1000 * linspace (0 : ℝ) 1 Nz (s + 1)) ^ 3 - (1000 * linspace (0 : ℝ) 1 Nz s) ^ 3 := by linarith
  show 0 < (4 / 3) * Real.pi * ((1000 * linspace (0 : ℝ) 1 Nz (s + 1)) ^ 3 - (1000 * linspace (0 : ℝ) 1 Nz s) ^ 3) * (1 / 2)
  have := Real.pi_pos
  positivity

/-- C131 for the quadrupole of a Kaiser spectrum in this survey: the theorems apply. -/
example (big : ℝ) : Spec.Definite 6 (cutsky big (fun k mu => 100 / k * (1 + mu ^ 2) ^ 2) [1, 2] [0, 2, 4] someSurvey 10000 100 50).entry :=
  (C131_survey_definite big (fun k mu => 100 / k * (1 + mu ^ 2) ^ 2) [1, 2] 1 goodTwo [0, 2, 4] someSurvey 10000 (by norm_num) 100 50 (someSurvey_good 50 (by norm_num)) (by decide)).2
    (by decide) (by norm_num) (by decide) (by
      intro a ha mu
      match a, ha with
      | 0, _ => show (0 : ℝ) ≤ 100 / 1 * (1 + mu ^ 2) ^ 2; positivity
      | 1, _ => show (0 : ℝ) ≤ 100 / 2 * (1 + mu ^ 2) ^ 2; positivity)

/-- C131: a survey that ends before the asked redshift range gives the matrix 0. -/
example (big : ℝ) (p q : ℕ) :
    (cutsky big (fun k mu => 100 / k * (1 + mu ^ 2) ^ 2) [1, 2] [0, 2, 4] { someSurvey with nbar := fun z => if z < 1 / 2 then 3 else 0 } 10000 100 50).entry p q = 0 :=
  C131_empty_counterexample big _ _ _ _ _ 100 50 49 (by norm_num) (by norm_num [Survey.n, someSurvey, linspace]) p q

end

end Verif.GaussCov
