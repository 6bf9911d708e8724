/-
C114: where the table and the fallbacks go wrong; a concrete cosmology.
-/
import Verif.Props.HaloBiasTable
import Mathlib.Analysis.Complex.ExponentialBounds

namespace Verif.HaloBias

open Set Verif.Interp

noncomputable section

/-! ### A power-law cosmology -/

/-- Fluctuations inversely proportional to the scale, as for a spectrum of index -1. -/
def cx : Cosmo := ⟨3 / (4 * Real.pi), 1, fun R => 1000 / R, fun _ => 70⟩

/-- The same with twice the density. -/
def cx2 : Cosmo := { cx with rhoBar := 2 * (3 / (4 * Real.pi)) }

theorem cx_amplitude (s M : ℝ) : amplitude cx s M = s * (1000 / M ^ ((1 : ℝ) / 3)) := by
  unfold amplitude cx
  simp only [div_one]
  have : 3 * M / (4 * Real.pi * (3 / (4 * Real.pi))) = M := by
    have := Real.pi_pos
    field_simp
  rw [this]

theorem cx2_amplitude (s M : ℝ) (hM : 0 ≤ M) : amplitude cx2 s M = (2 : ℝ) ^ ((1 : ℝ) / 3) * amplitude cx s M := by
  rw [cx_amplitude]
  unfold amplitude cx2 cx
  simp only [div_one]
  have : 3 * M / (4 * Real.pi * (2 * (3 / (4 * Real.pi)))) = M / 2 := by
    have := Real.pi_pos
    field_simp
  rw [this, Real.div_rpow hM (by norm_num)]
  have : (0 : ℝ) < 2 ^ ((1 : ℝ) / 3) := by positivity
  field_simp

/-- Case: this cosmology meets the hypothesis of `C114_mass`. -/
theorem cx_hierarchical : Hierarchical cx := by
  have hp : ∀ M ∈ massRange, (0 : ℝ) < M := fun M hM => lt_of_lt_of_le (by norm_num) hM.1
  refine ⟨by norm_num [cx], ?_, ?_, ?_⟩
  · have : amplitude cx cx.sigma8 = fun M => cx.sigma8 * (1000 / M ^ ((1 : ℝ) / 3)) := funext fun M => cx_amplitude _ _
    rw [this]
    refine continuousOn_const.mul (continuousOn_const.div (continuousOn_id.rpow_const fun M hM => Or.inl (hp M hM).ne') fun M hM => ?_)
    exact (Real.rpow_pos_of_pos (hp M hM) _).ne'
  · intro M hM M' hM' h
    rw [cx_amplitude, cx_amplitude]
    have h1 : M ^ ((1 : ℝ) / 3) < M' ^ ((1 : ℝ) / 3) := Real.rpow_lt_rpow (hp M hM).le h (by norm_num)
    have h2 : 0 < M ^ ((1 : ℝ) / 3) := Real.rpow_pos_of_pos (hp M hM) _
    have h3 : (0 : ℝ) < cx.sigma8 := by norm_num [cx]
    gcongr
  · intro M hM
    rw [cx_amplitude]
    have h2 : 0 < M ^ ((1 : ℝ) / 3) := Real.rpow_pos_of_pos (hp M hM) _
    have h3 : (0 : ℝ) < cx.sigma8 := by norm_num [cx]
    positivity

/-! ### Numerical bounds at the overdensity 200 -/

theorem y200 : 2 ≤ Real.logb 10 200 ∧ Real.logb 10 200 ≤ 2.4 := by
  refine ⟨(y_bounds (d := 200) ⟨by norm_num, by norm_num⟩).1, ?_⟩
  rw [Real.logb_le_iff_le_rpow (by norm_num) (by norm_num)]
  have h : (200 : ℝ) = (200 ^ (5 : ℝ)) ^ ((1 : ℝ) / 5) := by
    rw [← Real.rpow_mul (by norm_num)]
    norm_num
  have h2 : (10 : ℝ) ^ (2.4 : ℝ) = (10 ^ (12 : ℝ)) ^ ((1 : ℝ) / 5) := by
    rw [← Real.rpow_mul (by norm_num)]
    norm_num
  rw [h, h2]
  exact Real.rpow_le_rpow (by positivity) (by norm_num) (by norm_num)

theorem exp_y (y : ℝ) (h0 : 0 < y) (h : y ≤ 4) : Real.exp (-(4 / y) ^ 4) ≤ 0.37 := by
  have h1 : 1 ≤ 4 / y := by rw [le_div_iff₀ h0]; linarith
  have h2 : 1 ≤ (4 / y) ^ 4 := one_le_pow₀ h1
  have h3 : Real.exp (-(4 / y) ^ 4) ≤ Real.exp (-1) := Real.exp_le_exp.mpr (by linarith)
  have := Real.exp_neg_one_lt_d9
  linarith

theorem tA200 : 1 ≤ tA (Real.logb 10 200) ∧ tA (Real.logb 10 200) ≤ 1.3 := by
  obtain ⟨h1, h2⟩ := y200
  refine ⟨tA_pos (by linarith), ?_⟩
  have := exp_y _ (by linarith) (by linarith : Real.logb 10 200 ≤ 4)
  have h3 := Real.exp_pos (-(4 / Real.logb 10 200) ^ 4)
  unfold tA
  nlinarith

theorem tC200 : 0 < tC (Real.logb 10 200) ∧ tC (Real.logb 10 200) ≤ 0.3462 := by
  obtain ⟨h1, h2⟩ := y200
  refine ⟨tC_pos (by linarith), ?_⟩
  have := exp_y _ (by linarith) (by linarith : Real.logb 10 200 ≤ 4)
  unfold tC
  linarith

theorem tinker_large {s : ℝ} (h1 : 20 ≤ s) (h2 : s ≤ 100) : biasTinker s 1.686 200 ≤ 0.9 := by
  have hs : 0 < s := by linarith
  rw [tinker_form s 1.686 200 hs (by norm_num)]
  obtain ⟨y1, y2⟩ := y200
  have hA := tA200.1
  have hC := tC200
  set a := ta (Real.logb 10 200) with ha
  have ha1 : a ≤ 0.2 := by rw [ha]; unfold ta; norm_num at y2 ⊢; linarith
  have hsa : s ^ a ≤ 2.6 := by
    calc s ^ a ≤ s ^ (0.2 : ℝ) := Real.rpow_le_rpow_of_exponent_le (by linarith) ha1
      _ ≤ 100 ^ (0.2 : ℝ) := Real.rpow_le_rpow hs.le h2 (by norm_num)
      _ ≤ (2.6 ^ (5 : ℝ)) ^ (0.2 : ℝ) := Real.rpow_le_rpow (by norm_num) (by norm_num) (by norm_num)
      _ = 2.6 := by rw [← Real.rpow_mul (by norm_num)]; norm_num
  have hsa0 : 0 < s ^ a := Real.rpow_pos_of_pos hs a
  have h3 : 0.27 ≤ tA (Real.logb 10 200) / (1 + s ^ a) := by
    rw [le_div_iff₀ (by linarith)]
    norm_num at hsa ⊢
    linarith
  have hn0 : 0 < 1.686 / s := by positivity
  have hn : 1.686 / s ≤ 0.0843 := by
    rw [div_le_iff₀ hs]
    norm_num
    linarith
  have h4 : (1.686 / s) ^ (1.5 : ℝ) ≤ 0.0843 := by
    calc (1.686 / s) ^ (1.5 : ℝ) ≤ (1.686 / s) ^ (1 : ℝ) := Real.rpow_le_rpow_of_exponent_ge hn0 (by norm_num at hn ⊢; linarith) (by norm_num)
      _ = 1.686 / s := Real.rpow_one _
      _ ≤ _ := hn
  have h5 : (1.686 / s) ^ (2.4 : ℝ) ≤ 0.0843 := by
    calc (1.686 / s) ^ (2.4 : ℝ) ≤ (1.686 / s) ^ (1 : ℝ) := Real.rpow_le_rpow_of_exponent_ge hn0 (by norm_num at hn ⊢; linarith) (by norm_num)
      _ = 1.686 / s := Real.rpow_one _
      _ ≤ _ := hn
  have h6 : tC (Real.logb 10 200) * (1.686 / s) ^ (2.4 : ℝ) ≤ 0.3462 * 0.0843 :=
    mul_le_mul hC.2 h5 (by positivity) (by norm_num)
  norm_num at h3 h4 h6 ⊢
  linarith

theorem tinker_small {s : ℝ} (h1 : 0 < s) (h2 : s ≤ 0.01) : 8 < biasTinker s 1.686 200 := by
  rw [tinker_form s 1.686 200 h1 (by norm_num)]
  have hA := tA200
  have hC := tC200
  set a := ta (Real.logb 10 200) with ha
  have hsa0 : 0 < s ^ a := Real.rpow_pos_of_pos h1 a
  have h3 : tA (Real.logb 10 200) / (1 + s ^ a) ≤ 1.3 := by
    rw [div_le_iff₀ (by linarith)]
    nlinarith [hA.2]
  have hn : 100 ≤ 1.686 / s := by
    rw [le_div_iff₀ h1]
    norm_num at h2 ⊢
    linarith
  have h4 : 100 ≤ (1.686 / s) ^ (1.5 : ℝ) := by
    calc (100 : ℝ) ≤ 1.686 / s := hn
      _ = (1.686 / s) ^ (1 : ℝ) := (Real.rpow_one _).symm
      _ ≤ _ := Real.rpow_le_rpow_of_exponent_le (by linarith) (by norm_num)
  have h5 : 0 < tC (Real.logb 10 200) * (1.686 / s) ^ (2.4 : ℝ) := mul_pos hC.1 (Real.rpow_pos_of_pos (by linarith) _)
  norm_num at h3 h4 ⊢
  linarith

/-- Case: the ends of the range straddle the bias, so that `C114_mass` applies. -/
example : ∃ (c : Cosmo) (s b : ℝ), Hierarchical c ∧ 0 < s ∧ 1 ≤ b ∧ biasTinker (amplitude c s (10 ^ 5)) 1.686 200 ≤ b ∧ b ≤ biasTinker (amplitude c s (10 ^ 16)) 1.686 200 := by
  refine ⟨cx, 1, 2, cx_hierarchical, by norm_num, by norm_num, ?_, ?_⟩
  · rw [cx_amplitude]
    have h1 : ((10 : ℝ) ^ 5) ^ ((1 : ℝ) / 3) ≤ 50 := by
      calc ((10 : ℝ) ^ 5) ^ ((1 : ℝ) / 3) ≤ (50 ^ (3 : ℝ)) ^ ((1 : ℝ) / 3) := Real.rpow_le_rpow (by norm_num) (by norm_num) (by norm_num)
        _ = 50 := by rw [← Real.rpow_mul (by norm_num)]; norm_num
    have h2 : (10 : ℝ) ≤ ((10 : ℝ) ^ 5) ^ ((1 : ℝ) / 3) := by
      calc (10 : ℝ) = (10 ^ (3 : ℝ)) ^ ((1 : ℝ) / 3) := by rw [← Real.rpow_mul (by norm_num)]; norm_num
        _ ≤ _ := Real.rpow_le_rpow (by norm_num) (by norm_num) (by norm_num)
    have := tinker_large (s := 1 * (1000 / ((10 : ℝ) ^ 5) ^ ((1 : ℝ) / 3))) (by rw [one_mul, le_div_iff₀ (by linarith)]; linarith)
      (by rw [one_mul, div_le_iff₀ (by linarith)]; linarith)
    norm_num at this ⊢
    linarith
  · rw [cx_amplitude]
    have h2 : (10 : ℝ) ^ 5 ≤ ((10 : ℝ) ^ 16) ^ ((1 : ℝ) / 3) := by
      calc (10 : ℝ) ^ 5 = ((10 ^ 5) ^ (3 : ℝ)) ^ ((1 : ℝ) / 3) := by rw [← Real.rpow_mul (by norm_num)]; norm_num
        _ ≤ _ := Real.rpow_le_rpow (by norm_num) (by norm_num) (by norm_num)
    have := tinker_small (s := 1 * (1000 / ((10 : ℝ) ^ 16) ^ ((1 : ℝ) / 3))) (by positivity)
      (by rw [one_mul, div_le_iff₀ (by linarith)]; norm_num at h2 ⊢; linarith)
    linarith

/-- The fluctuations as filled in the table, without spline error. -/
def exactSpl : Cosmo → ℝ → ℝ := fun c => c.Sigma

theorem node_bounds (i j : ℕ) (hi : i < 100) (hj : j < 70) : 0.3 ≤ s8Node i ∧ s8Node i ≤ 1 ∧ 0.9 ≤ b1Node j ∧ b1Node j ≤ 8 := by
  have h1 := s8Node_le (Nat.zero_le i)
  have h2 := s8Node_le (show i ≤ 99 by omega)
  have h3 := b1Node_le (Nat.zero_le j)
  have h4 := b1Node_le (show j ≤ 69 by omega)
  have e1 : s8Node 0 = 0.3 := by norm_num [s8Node]
  have e2 : s8Node 99 = 1 := by norm_num [s8Node]
  have e3 : b1Node 0 = 0.9 := by norm_num [b1Node]
  have e4 : b1Node 69 = 8 := by norm_num [b1Node]
  rw [e1] at h1; rw [e2] at h2; rw [e3] at h3; rw [e4] at h4
  exact ⟨h1, h2, h3, h4⟩

/-- The table can be filled. -/
theorem cx_table (brentq : Solver) (hB : IsBrentq brentq) : ∃ t, mkTable brentq exactSpl cx = .ok t := by
  have key : ∀ i < 100, ∀ j < 70, ∃ M, tableEntry brentq exactSpl cx (s8Node i) (b1Node j) = .ok M := by
    intro i hi j hj
    obtain ⟨s1, s2, b1, b2⟩ := node_bounds i j hi hj
    have hs : 0 < s8Node i := by linarith
    have e : (fun M => biasTinker (s8Node i / cx.sigma8 * exactSpl cx (massToRadius cx M)) 1.686 200 - b1Node j) =
        fun M => biasTinker (s8Node i * (1000 / (M * 10 ^ 13) ^ ((1 : ℝ) / 3))) 1.686 200 - b1Node j := by
      funext M
      rw [← cx_amplitude, ← amplitude_code]
      rfl
    have hcont : ContinuousOn (fun M : ℝ => biasTinker (s8Node i * (1000 / (M * 10 ^ 13) ^ ((1 : ℝ) / 3))) 1.686 200 - b1Node j) (Icc ((10 : ℝ) ^ (-10 : ℤ)) (10 ^ 4)) := by
      have hp : ∀ M ∈ Icc ((10 : ℝ) ^ (-10 : ℤ)) (10 ^ 4), (0 : ℝ) < M * 10 ^ 13 := fun M hM => mul_pos (lt_of_lt_of_le (by positivity) hM.1) (by norm_num)
      refine ContinuousOn.sub ?_ continuousOn_const
      refine (tinker_continuousOn 1.686 200 (by norm_num)).comp (continuousOn_const.mul (continuousOn_const.div ?_ fun M hM => (Real.rpow_pos_of_pos (hp M hM) _).ne')) fun M hM => ?_
      · exact (continuousOn_id.mul continuousOn_const).rpow_const fun M hM => Or.inl (hp M hM).ne'
      · have := Real.rpow_pos_of_pos (hp M hM) ((1 : ℝ) / 3)
        exact mul_pos hs (by positivity)
    obtain ⟨x, hx⟩ := hB.finds (fun M => biasTinker (s8Node i * (1000 / (M * 10 ^ 13) ^ ((1 : ℝ) / 3))) 1.686 200 - b1Node j) (10 ^ (-10 : ℤ)) (10 ^ 4) (by norm_num) hcont (by
      apply mul_nonpos_of_nonpos_of_nonneg
      · have e10 : ((10 : ℝ) ^ (-10 : ℤ) * 10 ^ 13) ^ ((1 : ℝ) / 3) = 10 := by
          have : (10 : ℝ) ^ (-10 : ℤ) * 10 ^ 13 = 10 ^ (3 : ℝ) := by norm_num
          rw [this, ← Real.rpow_mul (by norm_num)]
          norm_num
        simp only [e10]
        have := tinker_large (s := s8Node i * (1000 / 10)) (by norm_num at s1 ⊢; linarith) (by norm_num; linarith)
        linarith
      · have h2 : (10 : ℝ) ^ 5 ≤ ((10 : ℝ) ^ 4 * 10 ^ 13) ^ ((1 : ℝ) / 3) := by
          calc (10 : ℝ) ^ 5 = ((10 ^ 5) ^ (3 : ℝ)) ^ ((1 : ℝ) / 3) := by rw [← Real.rpow_mul (by norm_num)]; norm_num
            _ ≤ _ := Real.rpow_le_rpow (by norm_num) (by norm_num) (by norm_num)
        have h3 : 1000 / ((10 : ℝ) ^ 4 * 10 ^ 13) ^ ((1 : ℝ) / 3) ≤ 0.01 := by
          rw [div_le_iff₀ (by positivity)]
          norm_num at h2 ⊢
          linarith
        have h4 : 0 < 1000 / ((10 : ℝ) ^ 4 * 10 ^ 13) ^ ((1 : ℝ) / 3) := by positivity
        have := tinker_small (s := s8Node i * (1000 / ((10 : ℝ) ^ 4 * 10 ^ 13) ^ ((1 : ℝ) / 3))) (by positivity) (by nlinarith)
        linarith)
    refine ⟨x * 10 ^ 13, ?_⟩
    unfold tableEntry
    simp only [e, hx]
  unfold mkTable
  rw [dif_pos key]
  exact ⟨_, rfl⟩

/-! ### What the table does not see -/

/-- Once filled, the table answers inside its range whatever the cosmology and the overdensity have become. -/
theorem C114_stale (brentq : Solver) (spl : Cosmo → ℝ → ℝ) (r : Rel) (t : ℕ → ℕ → ℝ) (ht : r.table = some t) (hr : r.interpolate = true) (s b : ℝ)
    (hs : s ∈ Icc (s8Node 0) (s8Node 99)) (hb : b ∈ Icc (b1Node 0) (b1Node 69)) (c : Cosmo) (d z : ℝ) :
    (mass brentq spl { r with cosmo := c, deltaHalo := d, z := z } s b).1 = (mass brentq spl r s b).1 := by
  have hin : ∀ x ∈ [[s, b]], InDomain (tableInterp t).grid x := by
    intro x hx
    simp only [List.mem_singleton] at hx
    subst hx
    rw [inDomain_iff]
    exact ⟨hs, hb⟩
  have hcall := (C90_domain (tableInterp t) (tableInterp_good t) rfl [[s, b]] (by simp [tableInterp]) none).2 hin
  unfold mass
  simp only [hr, if_true, ht, hcall, List.map_cons, List.map_nil, Option.getD_none]
  cases evalPoint (tableInterp t) (tableInterp t).method [s, b] <;> rfl

/-- C114 fails: after the cosmology is changed, the mass returned does not have the bias asked for in the new cosmology. -/
theorem C114_stale_counterexample (brentq : Solver) (hB : IsBrentq brentq) :
    ∃ M, (mass brentq exactSpl { (mass brentq exactSpl (mkRel 0 cx true none none) 1 8).2 with cosmo := cx2 } 1 8).1 = .ok M ∧
      biasTinker (amplitude cx2 1 M) 1.686 200 ≠ 8 := by
  obtain ⟨t, ht⟩ := cx_table brentq hB
  have e1 : s8Node 99 = 1 := by norm_num [s8Node]
  have e2 : b1Node 69 = 8 := by norm_num [b1Node]
  obtain ⟨M, hM, hb⟩ := C114_table_node brentq hB exactSpl (mkRel 0 cx true none none) rfl rfl t ht 99 69 (by norm_num) (by norm_num)
  rw [e1, e2] at hM hb
  have hst := C114_stale brentq exactSpl { mkRel 0 cx true none none with table := some t } t rfl rfl 1 8
    (by rw [← e1]; exact ⟨s8Node_le (by norm_num), le_rfl⟩) (by rw [← e2]; exact ⟨b1Node_le (by norm_num), le_rfl⟩) cx2 200 0
  have hnode : (mass brentq exactSpl { mkRel 0 cx true none none with table := some t } 1 8).1 = .ok (t 99 69) := by
    unfold mass
    have := call_node t 99 69 (by norm_num) (by norm_num)
    rw [e1, e2] at this
    simp only [mkRel, if_true, this]
  have hnode0 : (mass brentq exactSpl (mkRel 0 cx true none none) 1 8).1 = .ok (t 99 69) := by
    unfold mass
    have := call_node t 99 69 (by norm_num) (by norm_num)
    rw [e1, e2] at this
    simp only [mkRel, if_true, this, show mkTable brentq exactSpl cx = .ok t from ht]
  have hMt : M = t 99 69 := by
    rw [hM] at hnode0
    simpa using hnode0
  refine ⟨M, ?_, ?_⟩
  · rw [hM]
    refine (Eq.trans ?_ hst).trans (by rw [hnode, hMt])
    rfl
  · intro h8
    have hMpos : 0 < M := by
      have := mkTable_spec brentq exactSpl cx t ht 99 69 (by norm_num) (by norm_num)
      rw [← hMt] at this
      unfold tableEntry at this
      simp only at this
      split at this
      · rename_i x hx
        simp only [Except.ok.injEq] at this
        have h1 := (hB.root _ _ _ _ hx).1
        rw [← this]
        exact mul_pos (lt_of_lt_of_le (by positivity) h1) (by norm_num)
      · cases this
    rw [cx2_amplitude 1 M hMpos.le] at h8
    have hb' : biasTinker (amplitude cx 1 M) 1.686 200 = 8 := hb
    have hA : 0 < amplitude cx 1 M := by rw [cx_amplitude]; positivity
    have h2 : (1 : ℝ) < 2 ^ ((1 : ℝ) / 3) := Real.one_lt_rpow (by norm_num) (by norm_num)
    have := tinker_injective 1.686 200 (by norm_num) ⟨by norm_num, by norm_num⟩ (mul_pos (by linarith) hA) hA (by rw [hb']; norm_num) (h8.trans hb'.symm)
    nlinarith

theorem tinker_overdensity {s : ℝ} (hs : 0 < s) (h : biasTinker s 1.686 200 = 8) : 8 < biasTinker s 1.686 (10 ^ 4) := by
  have hy : Real.logb 10 (10 ^ 4) = 4 := by
    rw [Real.logb_pow, Real.logb_self_eq_one (by norm_num)]; norm_num
  have f2 := tinker_form s 1.686 (10 ^ 4) hs (by norm_num)
  rw [tinker_form s 1.686 200 hs (by norm_num)] at h
  rw [hy] at f2
  have hA1 := tA200
  have hC1 := tC200
  obtain ⟨e, he⟩ : ∃ e, e = Real.exp (-1) := ⟨_, rfl⟩
  have he1 := Real.exp_neg_one_gt_d9
  have he2 := Real.exp_neg_one_lt_d9
  rw [← he] at he1 he2
  have hA2 : tA 4 ≤ 1.356 := by
    unfold tA
    norm_num
    rw [← he]
    linarith
  have hC2 : 0.5168 ≤ tC 4 := by
    unfold tC
    norm_num
    rw [← he]
    linarith
  set n := 1.686 / s with hn
  have hn0 : 0 < n := by positivity
  have q1 : 0 < s ^ ta (Real.logb 10 200) := Real.rpow_pos_of_pos hs _
  have q2 : 0 < s ^ ta 4 := Real.rpow_pos_of_pos hs _
  have g1 : 0 ≤ tA (Real.logb 10 200) / (1 + s ^ ta (Real.logb 10 200)) := div_nonneg (by linarith) (by linarith)
  have g2 : tA 4 / (1 + s ^ ta 4) ≤ 1.356 := by
    rw [div_le_iff₀ (by linarith)]
    norm_num at hA2 ⊢
    linarith
  have hn3 : 3 ≤ n := by
    by_contra hcon
    push Not at hcon
    have k1 : n ^ (1.5 : ℝ) ≤ 9 := by
      calc n ^ (1.5 : ℝ) ≤ 3 ^ (1.5 : ℝ) := Real.rpow_le_rpow hn0.le hcon.le (by norm_num)
        _ ≤ 3 ^ (2 : ℝ) := Real.rpow_le_rpow_of_exponent_le (by norm_num) (by norm_num)
        _ = 9 := by norm_num
    have k2 : n ^ (2.4 : ℝ) ≤ 14 := by
      calc n ^ (2.4 : ℝ) ≤ 3 ^ (2.4 : ℝ) := Real.rpow_le_rpow hn0.le hcon.le (by norm_num)
        _ = (3 ^ (12 : ℝ)) ^ ((1 : ℝ) / 5) := by rw [← Real.rpow_mul (by norm_num)]; norm_num
        _ ≤ (14 ^ (5 : ℝ)) ^ ((1 : ℝ) / 5) := Real.rpow_le_rpow (by norm_num) (by norm_num) (by norm_num)
        _ = 14 := by rw [← Real.rpow_mul (by norm_num)]; norm_num
    have k3 : tC (Real.logb 10 200) * n ^ (2.4 : ℝ) ≤ 0.3462 * 14 := mul_le_mul hC1.2 k2 (by positivity) (by norm_num)
    norm_num at k1 k3 h
    linarith
  have k4 : 9 ≤ n ^ (2.4 : ℝ) := by
    calc (9 : ℝ) = 3 ^ (2 : ℝ) := by norm_num
      _ ≤ n ^ (2 : ℝ) := Real.rpow_le_rpow (by norm_num) hn3 (by norm_num)
      _ ≤ n ^ (2.4 : ℝ) := Real.rpow_le_rpow_of_exponent_le (by linarith) (by norm_num)
  have k5 : (0.5168 - 0.3462) * 9 ≤ (tC 4 - tC (Real.logb 10 200)) * n ^ (2.4 : ℝ) :=
    mul_le_mul (by linarith [hC1.2]) k4 (by norm_num) (by linarith [hC1.2])
  rw [f2]
  norm_num at g2 k5 h ⊢
  linarith

/-- C114 fails: with the table the overdensity set on the object is ignored: the mass does not have the bias asked for. -/
theorem C114_overdensity_counterexample (brentq : Solver) (hB : IsBrentq brentq) :
    ∃ M, (mass brentq exactSpl { mkRel 0 cx true none none with deltaHalo := 10 ^ 4 } 1 8).1 = .ok M ∧ biasTinker (amplitude cx 1 M) 1.686 (10 ^ 4) ≠ 8 := by
  obtain ⟨t, ht⟩ := cx_table brentq hB
  have e1 : s8Node 99 = 1 := by norm_num [s8Node]
  have e2 : b1Node 69 = 8 := by norm_num [b1Node]
  obtain ⟨M, hM, hb⟩ := C114_table_node brentq hB exactSpl { mkRel 0 cx true none none with deltaHalo := 10 ^ 4 } rfl rfl t ht 99 69 (by norm_num) (by norm_num)
  rw [e1, e2] at hM hb
  refine ⟨M, by rw [hM], fun h => ?_⟩
  have hb' : biasTinker (amplitude cx 1 M) 1.686 200 = 8 := hb
  have hnode0 : (mass brentq exactSpl { mkRel 0 cx true none none with deltaHalo := 10 ^ 4 } 1 8).1 = .ok (t 99 69) := by
    unfold mass
    have := call_node t 99 69 (by norm_num) (by norm_num)
    rw [e1, e2] at this
    simp only [mkRel, if_true, this, show mkTable brentq exactSpl cx = .ok t from ht]
  have hMt : M = t 99 69 := by
    rw [hM] at hnode0
    simpa using hnode0
  have hMpos : 0 < M := by
    have := mkTable_spec brentq exactSpl cx t ht 99 69 (by norm_num) (by norm_num)
    rw [← hMt] at this
    unfold tableEntry at this
    simp only at this
    split at this
    · rename_i x hx
      simp only [Except.ok.injEq] at this
      have h1 := (hB.root _ _ _ _ hx).1
      rw [← this]
      exact mul_pos (lt_of_lt_of_le (by positivity) h1) (by norm_num)
    · cases this
  have hA : 0 < amplitude cx 1 M := by rw [cx_amplitude]; positivity
  have := tinker_overdensity hA hb'
  linarith

/-- C114 fails: if one node of the table cannot be bracketed, every call with the table raises a `NameError`, also those the table would not be used for. -/
theorem C114_name_error_counterexample (brentq : Solver) (hB : IsBrentq brentq) (spl : Cosmo → ℝ → ℝ) (r : Rel) (hr : r.interpolate = true) (hn : r.table = none) (i j : ℕ) (hi : i < 100)
    (hj : j < 70) (h : 0 < (biasTinker (amplitude { r.cosmo with Sigma := spl r.cosmo } (s8Node i) (10 ^ 3)) 1.686 200 - b1Node j) *
      (biasTinker (amplitude { r.cosmo with Sigma := spl r.cosmo } (s8Node i) (10 ^ 17)) 1.686 200 - b1Node j)) (s b : ℝ) :
    mass brentq spl r s b = (.error .name, r) := by
  have hm : mkTable brentq spl r.cosmo = .error .name := by
    unfold mkTable
    rw [dif_neg]
    · have hall : ∀ L : List Err, (∀ e ∈ L, e = .name) → L.headD .name = .name := by
        intro L hL
        cases L with
        | nil => rfl
        | cons e L => exact hL e (by simp)
      rw [hall]
      intro e he
      simp only [List.mem_flatMap, List.mem_filterMap] at he
      obtain ⟨i', _, j', _, he⟩ := he
      unfold tableEntry at he
      simp only at he
      split at he
      · cases he
      · rename_i h2
        split at h2
        · cases h2
        · cases h2; cases he; rfl
    intro hall
    obtain ⟨M, hM⟩ := hall i hi j hj
    unfold tableEntry at hM
    simp only at hM
    rw [hB.refuse] at hM
    · cases hM
    · have e : ∀ M, s8Node i / r.cosmo.sigma8 * spl r.cosmo (massToRadius r.cosmo M) = amplitude { r.cosmo with Sigma := spl r.cosmo } (s8Node i) (M * 10 ^ 13) := by
        intro M
        simp only [amplitude, massToRadius, mul_assoc]
      rw [e, e]
      have e1 : (10 : ℝ) ^ (-10 : ℤ) * 10 ^ 13 = 10 ^ 3 := by norm_num
      have e2 : (10 : ℝ) ^ 4 * 10 ^ 13 = 10 ^ 17 := by norm_num
      rw [e1, e2]
      exact h
  unfold mass
  simp only [hr, if_true, hn, hm]

/-! ### The fallbacks of the model -/

/-- C114: when the relation succeeds, the model uses it unchanged. -/
theorem C114_fallback_unused (brentq : Solver) (spl : Cosmo → ℝ → ℝ) (r : Rel) (s b v : ℝ) (h : (sigmav brentq spl r s b).1 = .ok v) :
    (sigmavFromBias brentq spl r s b).1 = .ok v := by
  unfold sigmavFromBias
  rcases hx : sigmav brentq spl r s b with ⟨e | v', r'⟩
  · rw [hx] at h; cases h
  · rw [hx] at h
    simpa using h

/-- C114: beyond the biases of the table, a failure is replaced by the value at the nearest end. -/
theorem C114_fallback_clamp (brentq : Solver) (spl : Cosmo → ℝ → ℝ) (r : Rel) (hr : r.interpolate = false) (s b : ℝ) (e : Err) (h : (sigmav brentq spl r s b).1 = .error e) :
    (b < 0.9 → (sigmavFromBias brentq spl r s b).1 = (sigmav brentq spl r s 0.9).1) ∧ (8 < b → (sigmavFromBias brentq spl r s b).1 = (sigmav brentq spl r s 8).1) := by
  have e1 : b1Node 0 = 0.9 := by norm_num [b1Node]
  have e2 : b1Node 69 = 8 := by norm_num [b1Node]
  have hst : (sigmav brentq spl r s b).2 = r := by
    unfold sigmav mass
    simp only [hr, Bool.false_eq_true, if_false]
    cases massFresh brentq r.cosmo r.deltaHalo s b <;> rfl
  unfold sigmavFromBias
  rcases hx : sigmav brentq spl r s b with ⟨e' | v', r'⟩
  · rw [hx] at hst
    simp only at hst
    subst hst
    constructor
    · intro hb
      simp only [e1, if_pos hb]
    · intro hb
      simp only [e1, e2, if_neg (by norm_num; linarith : ¬ b < 0.9), if_pos hb]
  · rw [hx] at h; cases h

/-- C114 fails: any failure at an ordinary bias gives a vanishing dispersion instead of an error. -/
theorem C114_silent_zero_counterexample (brentq : Solver) (hB : IsBrentq brentq) :
    (∀ spl r s b e, 0.9 ≤ b → b ≤ 8 → (sigmav brentq spl r s b).1 = .error e → (sigmavFromBias brentq spl r s b).1 = .ok 0) ∧
      (sigmavFromBias brentq exactSpl (mkRel 0 cx false none none) 0.0001 2).1 = .ok 0 := by
  have e1 : b1Node 0 = 0.9 := by norm_num [b1Node]
  have e2 : b1Node 69 = 8 := by norm_num [b1Node]
  have key : ∀ spl r s b e, 0.9 ≤ b → b ≤ 8 → (sigmav brentq spl r s b).1 = .error e → (sigmavFromBias brentq spl r s b).1 = .ok 0 := by
    intro spl r s b e h1 h2 h
    unfold sigmavFromBias
    rcases hx : sigmav brentq spl r s b with ⟨e' | v', r'⟩
    · simp only [e1, e2, if_neg (not_lt.mpr h1), if_neg (not_lt.mpr h2)]
    · rw [hx] at h; cases h
  refine ⟨key, key _ _ _ _ .noBracket (by norm_num) (by norm_num) ?_⟩
  have href : massFresh brentq cx 200 0.0001 2 = .error .noBracket := by
    apply C114_mass_refused brentq hB
    have hbig : ∀ M : ℝ, 10 ^ 5 ≤ M → 8 < biasTinker (amplitude cx 0.0001 M) 1.686 200 := by
      intro M hM
      rw [cx_amplitude]
      have h2 : (10 : ℝ) ≤ M ^ ((1 : ℝ) / 3) := by
        calc (10 : ℝ) = (10 ^ (3 : ℝ)) ^ ((1 : ℝ) / 3) := by rw [← Real.rpow_mul (by norm_num)]; norm_num
          _ ≤ _ := Real.rpow_le_rpow (by norm_num) (by norm_num at hM ⊢; linarith) (by norm_num)
      apply tinker_small
      · have : 0 < M ^ ((1 : ℝ) / 3) := by linarith
        positivity
      · have : 1000 / M ^ ((1 : ℝ) / 3) ≤ 100 := by
          rw [div_le_iff₀ (by linarith)]; linarith
        norm_num
        linarith
    have h1 := hbig (10 ^ 5) le_rfl
    have h2 := hbig (10 ^ 16) (by norm_num)
    exact mul_pos (by linarith) (by linarith)
  unfold sigmav mass
  simp only [mkRel, Bool.false_eq_true, if_false, href]

/-! ### The stand-alone functions -/

/-- C114: `mass_from_bias`: the mass returned has the bias asked for, at overdensity 200, with the fluctuations grown to the redshift asked for. -/
theorem C114_mass_from_bias_sound (brentq : Solver) (hB : IsBrentq brentq) (c : Cosmo) (hc : c.sigma8 ≠ 0) (D b M : ℝ) (h : massFromBias brentq c D b = .ok M) :
    M ∈ Icc (10 ^ 8) (10 ^ 18) ∧ biasTinker (amplitude c (D * c.sigma8) M) 1.686 200 = b := by
  unfold massFromBias at h
  cases hx : brentq (fun M => biasTinker (D * c.Sigma (massToRadius c M)) 1.686 200 - b) (10 ^ (-5 : ℤ)) (10 ^ 5) with
  | error e => rw [hx] at h; cases h
  | ok x =>
    rw [hx] at h
    simp only [Except.map, Except.ok.injEq] at h
    subst h
    obtain ⟨h1, h2, h3⟩ := hB.root _ _ _ _ hx
    refine ⟨?_, ?_⟩
    · norm_num at h1 h2 ⊢
      constructor <;> linarith
    · have e : amplitude c (D * c.sigma8) (x * 10 ^ 13) = D * c.Sigma (massToRadius c x) := by
        rw [← amplitude_code]
        field_simp
      rw [e]
      linarith

/-- C114: `sigma_from_bias`: 3.6 at the pivot mass, growing as the cube root of the mass. -/
theorem C114_sigma_from_bias (brentq : Solver) (c : Cosmo) (D b M : ℝ) (hM : 0 ≤ M) (h : massFromBias brentq c D b = .ok M) :
    ∃ v, sigmaFromBias brentq c D b = .ok v ∧ 0 ≤ v ∧ v ^ 3 * (5.4903 * 10 ^ 13) = 3.6 ^ 3 * M := by
  refine ⟨3.6 * (M / (5.4903 * 10 ^ 13)) ^ ((1 : ℝ) / 3), ?_, by positivity, ?_⟩
  · unfold sigmaFromBias
    rw [h]
    rfl
  · rw [mul_pow, ← Real.rpow_natCast ((M / (5.4903 * 10 ^ 13)) ^ ((1 : ℝ) / 3)) 3, ← Real.rpow_mul (by positivity)]
    norm_num
    ring

end

end Verif.HaloBias
