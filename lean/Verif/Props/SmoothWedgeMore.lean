/-
C127: convergence, the bias of the means, and what fails.
-/
import Verif.Props.SmoothWedge

namespace Verif.SmoothWedge

open Verif.Transfers MeasureTheory intervalIntegral

noncomputable section

open Classical

variable {nk : ℕ}

theorem card_bound (N : ℕ) (hN : 0 < N) (lo hi : ℝ) (h0 : 0 ≤ lo) (hlh : lo < hi) (h1 : hi ≤ 1) (he : hi = 1 ∨ ¬ EndsAtOne hi) :
    (hi - lo) * N - 1 < (samples N lo hi).card := by
  have a2 := (first_bounds N lo h0).2
  have b1 := (past_bounds N hi (by linarith) he).1
  have h : (past N hi : ℝ) ≤ ((past N hi - first N lo : ℕ) : ℝ) + first N lo := by
    have : past N hi ≤ (past N hi - first N lo) + first N lo := by omega
    exact_mod_cast this
  rw [card_samples N hN lo hi h1]
  linarith

/-- C127: for every continuous power the mean over the samples of a bin of positive width tends to the mean over the bin when the number of samples
grows. -/
theorem C127_converges (lo hi : ℝ) (h0 : 0 ≤ lo) (hlh : lo < hi) (h1 : hi ≤ 1) (he : hi = 1 ∨ ¬ EndsAtOne hi) (g : ℝ → ℝ)
    (hc : ContinuousOn g (Set.Icc lo hi)) (ε : ℝ) (hε : 0 < ε) :
    ∃ N0, ∀ N ≥ N0, (samples N lo hi).Nonempty ∧ |mean (samples N lo hi) (fun j => g ((j.val : ℝ) / N)) - binMean g lo hi| ≤ ε := by
  have hu := isCompact_Icc.uniformContinuousOn_of_continuous hc
  rw [Metric.uniformContinuousOn_iff] at hu
  obtain ⟨δ, hδ, hu⟩ := hu ε hε
  obtain ⟨N0, hN0⟩ := exists_nat_gt (((hi - lo) / δ + 1) / (hi - lo))
  have hl : 0 < hi - lo := by linarith
  refine ⟨N0 + 1, fun N hN => ?_⟩
  have hN' : ((hi - lo) / δ + 1) / (hi - lo) < N := hN0.trans_le (by exact_mod_cast (by omega : N0 ≤ N))
  rw [div_lt_iff₀ hl] at hN'
  have hcard := card_bound N (by omega) lo hi h0 hlh h1 he
  have hpos : 0 < (hi - lo) / δ := div_pos hl hδ
  have hs : (samples N lo hi).Nonempty := by
    rw [← Finset.card_pos]
    have : (0 : ℝ) < (samples N lo hi).card := by linarith
    exact_mod_cast this
  refine ⟨hs, samples_error N (by omega) lo hi h0 hlh h1 he g hc hs ε (fun a b c hab hw ha hb hac hcb => ?_)⟩
  refine cell_const g a b c ε hab.le (hc.mono (Set.Icc_subset_Icc ha hb)) (fun x hx => ?_)
  have hwd : b - a < δ := by
    rw [hw, div_lt_iff₀ (by linarith)]
    have : (hi - lo) / δ < (samples N lo hi).card := by linarith
    rw [div_lt_iff₀ hδ] at this
    linarith
  have hd : dist c x < δ := by
    rw [Real.dist_eq, abs_lt]
    constructor <;> linarith [hx.1, hx.2]
  have := hu c ⟨ha.trans hac, hcb.trans hb⟩ x ⟨ha.trans hx.1, hx.2.trans hb⟩ hd
  rw [Real.dist_eq] at this
  exact this.le

theorem first_aligned (N a : ℕ) (hN : 0 < N) : first N ((a : ℝ) / N) = a := by
  have hN' : (N : ℝ) ≠ 0 := by exact_mod_cast hN.ne'
  rw [first, div_mul_cancel₀ _ hN', Nat.ceil_natCast]

theorem past_aligned (N c : ℕ) (hN : 0 < N) (h : ¬ EndsAtOne ((c : ℝ) / N)) : past N ((c : ℝ) / N) = c := by
  have hN' : (N : ℝ) ≠ 0 := by exact_mod_cast hN.ne'
  rw [past, if_neg h, div_mul_cancel₀ _ hN', Nat.ceil_natCast]

theorem past_one (N : ℕ) : past N 1 = N + 1 := by
  rw [past, if_pos (by norm_num [EndsAtOne])]

theorem sum_affine (m : ℕ) (x s : ℝ) : ∑ j ∈ Finset.range m, (x + s * j) = m * x + s * (m * (m - 1) / 2) := by
  induction m with
  | zero => simp
  | succ m ih => rw [Finset.sum_range_succ, ih]; push_cast; ring

theorem affine_aux (N a m : ℕ) (hN : 0 < N) (lo hi : ℝ) (h1 : hi ≤ 1) (α β : ℝ) (hf : first N lo = a) (hp : past N hi = a + m) (hm : 0 < m) :
    mean (samples N lo hi) (fun j => α + β * ((j.val : ℝ) / N)) = α + β * ((a : ℝ) / N + ((m : ℝ) - 1) / (2 * N)) := by
  have hN' : (N : ℝ) ≠ 0 := by exact_mod_cast hN.ne'
  have hm' : (m : ℝ) ≠ 0 := by exact_mod_cast hm.ne'
  have h := mean_samples N hN lo hi h1 (fun x => α + β * x)
  rw [card_samples N hN lo hi h1, hp, hf, Nat.add_sub_cancel_left] at h
  rw [h]
  have e : ∀ j : ℕ, α + β * (((a + j : ℕ) : ℝ) / N) = (α + β * (a / N)) + (β / N) * j := by intro j; push_cast; ring
  simp only [e]
  rw [sum_affine]
  field_simp
  ring

theorem binMean_affine (lo hi α β : ℝ) (h : lo < hi) : binMean (fun x => α + β * x) lo hi = α + β * ((lo + hi) / 2) := by
  have : hi - lo ≠ 0 := by linarith
  rw [binMean, integral_add (by simp) (Continuous.intervalIntegrable (by fun_prop) _ _), intervalIntegral.integral_const,
    intervalIntegral.integral_const_mul, integral_id, smul_eq_mul]
  field_simp
  ring

/-- C127: the bias.  For a power linear in `mu` and a bin whose bounds are samples, the result is the value of the power not at the middle of the bin but half
a spacing below it - unless the bin ends at 1, where it is the mean over the bin, the value at the middle. -/
theorem C127_bias (N a c : ℕ) (hac : a < c) (hcN : c ≤ N) (α β : ℝ) :
    (¬ EndsAtOne ((c : ℝ) / N) → mean (samples N ((a : ℝ) / N) ((c : ℝ) / N)) (fun j => α + β * ((j.val : ℝ) / N)) =
      binMean (fun mu => α + β * mu) ((a : ℝ) / N) ((c : ℝ) / N) - β / (2 * N)) ∧
    (c = N → mean (samples N ((a : ℝ) / N) 1) (fun j => α + β * ((j.val : ℝ) / N)) = binMean (fun mu => α + β * mu) ((a : ℝ) / N) 1) := by
  have hN : 0 < N := by omega
  have hN' : (0 : ℝ) < N := by exact_mod_cast hN
  have hac' : (a : ℝ) < c := by exact_mod_cast hac
  have hcN' : (c : ℝ) ≤ N := by exact_mod_cast hcN
  constructor
  · intro he
    rw [affine_aux N a (c - a) hN _ _ (by rw [div_le_one hN']; exact hcN') α β (first_aligned N a hN) (by rw [past_aligned N c hN he]; omega) (by omega),
      binMean_affine _ _ _ _ (by gcongr)]
    rw [Nat.cast_sub hac.le]
    field_simp
    ring
  · intro hc
    subst hc
    rw [affine_aux c a (c + 1 - a) hN _ _ le_rfl α β (first_aligned c a hN) (by rw [past_one]; omega) (by omega),
      binMean_affine _ _ _ _ (by rw [div_lt_one hN']; exact hac')]
    rw [Nat.cast_sub (by omega)]
    push_cast
    field_simp
    ring

/-- C127 (counterexample): with the default 40 samples and the five bins of the documentation, the wedge of `P(k, mu) = mu` around `mu = 0.1` is 0.0875. -/
theorem C127_bias_counterexample :
    mean (samples 40 0 0.2) (fun j => ((j.val : ℝ) / (40 : ℕ))) = 0.0875 ∧ binMean (fun mu => mu) 0 0.2 = 0.1 := by
  have h := (C127_bias 40 0 8 (by norm_num) (by norm_num) 0 1).1 (by norm_num [EndsAtOne, abs_le])
  have e1 : ((0 : ℕ) : ℝ) / (40 : ℕ) = 0 := by norm_num
  have e2 : ((8 : ℕ) : ℝ) / (40 : ℕ) = 0.2 := by norm_num
  rw [e1, e2] at h
  simp only [zero_add, one_mul] at h
  have h2 : binMean (fun mu => mu) 0 0.2 = 0.1 := by
    have := binMean_affine 0 0.2 0 1 (by norm_num)
    simp only [zero_add, one_mul] at this
    rw [this]; norm_num
  exact ⟨by rw [h, h2]; norm_num, h2⟩

/-- C127 (counterexample): a bin between two samples has no value, whatever the power. -/
theorem C127_empty_counterexample (k : Fin nk → ℝ) (P : Fin nk → Fin 41 → Val) (i : Fin nk) :
    ∃ R, (Smooth.init k (.tuple (0.01, 0.02))).1.call (.grid P) = .ok R ∧ R i 0 = none := by
  have ho : Ordered [((0.01 : ℝ), (0.02 : ℝ))] := by
    simp only [Ordered, upper]
    rw [if_neg (by norm_num [abs_le])]
    norm_num
  obtain ⟨R, hR, h⟩ := (C127_mean k 40 [(0.01, 0.02)] ho (.grid P) P (Or.inl rfl)).2
  refine ⟨R, hR, (h i 0 (by simp)).2 (Or.inl ?_)⟩
  have hne : ¬ EndsAtOne 0.02 := by norm_num [EndsAtOne, abs_le]
  refine Finset.eq_empty_of_forall_notMem fun j hj => ?_
  simp only [List.getElem_cons_zero, samples, Finset.mem_filter, Finset.mem_univ, true_and, hne, or_false] at hj
  obtain ⟨h1, h2⟩ := hj
  rw [div_lt_iff₀ (by norm_num)] at h2
  rw [le_div_iff₀ (by norm_num)] at h1
  norm_num at h1 h2
  have h3 : (j.val : ℝ) < (1 : ℕ) := by push_cast; linarith
  have h4 : j.val < 1 := by exact_mod_cast h3
  have h5 : j.val = 0 := by omega
  rw [h5] at h1
  norm_num at h1

/-- C127 (counterexample): the list of bounds given to one transfer is changed by it, and a second transfer built from the same list gives the last bin another
centre. -/
theorem C127_alias_counterexample (k : Fin nk → ℝ) :
    (Smooth.init k (.list [(0.8, 1)])).1.muCen = [0.9] ∧
    (Smooth.init k (.list [(0.8, 1)])).2 = .list [(0.8, 1.0005)] ∧
    (Smooth.init k (Smooth.init k (.list [(0.8, 1)])).2).1.muCen = [0.90025] := by
  have h : adjust (0.8, 1) = (0.8, 1.0005) := by
    rw [adjust, if_pos (by norm_num [closeToOne])]
    norm_num
  refine ⟨by simp only [Smooth.init, List.map_cons, List.map_nil]; norm_num, by simp only [Smooth.init, List.map_cons, List.map_nil, h], ?_⟩
  simp only [Smooth.init, List.map_cons, List.map_nil, h]
  norm_num

/-- C127 (counterexample): other bounds can be assigned, but the result keeps the old centres, and bins beyond the old number are lost: the same values, if
the number is not larger, under the coordinates of other bins; with fewer bins the call fails. -/
theorem C127_setBounds_counterexample (k : Fin nk → ℝ) (P : Fin nk → Fin 41 → Val) :
    ((Smooth.init k (.list [(0, 0.5), (0.5, 1)])).1.setBounds [(0.5, 0.6), (0.6, 1)]).muCen = [0.25, 0.75] ∧
    ((Smooth.init k (.list [(0, 0.5), (0.5, 1)])).1.setBounds [(0.5, 0.6)]).call (.grid P) = .error .index := by
  constructor
  · simp only [Smooth.init, Smooth.setBounds, List.map_cons, List.map_nil]
    norm_num
  · have ho : Ordered [((0.5 : ℝ), (0.6 : ℝ))] := by
      simp only [Ordered, upper]
      rw [if_neg (by norm_num [abs_le])]
      norm_num
    have hE := muEdges_eq [((0.5 : ℝ), (0.6 : ℝ))]
    rw [if_pos ho] at hE
    unfold Smooth.call
    have h1 : ((Smooth.init k (.list [(0, 0.5), (0.5, 1)])).1.setBounds [(0.5, 0.6)]).grid = unitGrid k 40 := rfl
    have h2 : ((Smooth.init k (.list [(0, 0.5), (0.5, 1)])).1.setBounds [(0.5, 0.6)]).bounds = [(0.5, 0.6)].map adjust := rfl
    have h3 : ((Smooth.init k (.list [(0, 0.5), (0.5, 1)])).1.setBounds [(0.5, 0.6)]).muCen.length = 2 := rfl
    rw [h1, given_set k _ P (Or.inl rfl), h2, h3, hE]
    simp

/-- C127: assigning bounds as many as there were (or more) gives the means over the new bins. -/
theorem C127_setBounds (k : Fin nk → ℝ) (N : ℕ) (old bounds : List (ℝ × ℝ)) (hl : old.length ≤ bounds.length) (ho : Ordered bounds)
    (arg : PowerArg nk (N + 1)) (P : Fin nk → Fin (N + 1) → Val) (ha : Given arg P) :
    ∃ R, ((Smooth.init k (.list old) N).1.setBounds bounds).call arg = .ok R ∧ ∀ i b, (hb : b < bounds.length) →
      (∀ f, (∀ j ∈ samples N bounds[b].1 bounds[b].2, P i j = some (f j)) → (samples N bounds[b].1 bounds[b].2).Nonempty →
        R i b = some (mean (samples N bounds[b].1 bounds[b].2) f)) ∧
      ((samples N bounds[b].1 bounds[b].2 = ∅ ∨ ∃ j ∈ samples N bounds[b].1 bounds[b].2, P i j = none) → R i b = none) :=
  call_eq k N bounds ho _ rfl rfl (by simpa [Smooth.init, Smooth.setBounds] using hl) arg P ha

/-- C127 (counterexample): the fitting code asks the package for the class by a name that the package does not have, so a fit to wedges without a grid file
stops there; the other three choices are found. -/
theorem C127_unreachable_counterexample :
    (∃ e, transferClass true false = .error e) ∧ transferClass false false = .ok "MultipoleTransfer" ∧
    transferClass true true = .ok "GriddedWedgeTransfer" ∧ transferClass false true = .ok "GriddedMultipoleTransfer" := by
  refine ⟨⟨_, rfl⟩, rfl, rfl, rfl⟩

/-! ### A case -/

/-- The five bins of the documentation with 40 samples: eight samples each, nine in the last one. -/
theorem exCards : (samples 40 0 0.2).card = 8 ∧ (samples 40 0.8 1).card = 9 := by
  have e1 : ((0 : ℕ) : ℝ) / (40 : ℕ) = 0 := by norm_num
  have e2 : ((8 : ℕ) : ℝ) / (40 : ℕ) = 0.2 := by norm_num
  have e3 : ((32 : ℕ) : ℝ) / (40 : ℕ) = 0.8 := by norm_num
  constructor
  · rw [card_samples 40 (by norm_num) _ _ (by norm_num), ← e2, past_aligned 40 8 (by norm_num) (by norm_num [EndsAtOne, abs_le]), ← e1,
      first_aligned 40 0 (by norm_num)]
  · rw [card_samples 40 (by norm_num) _ _ le_rfl, past_one, ← e3, first_aligned 40 32 (by norm_num)]

/-- The bins `[0, 0.2]`, `[0.8, 1]` are in order, have samples, and for `P = mu²` (which changes by at most 2 per unit) the theorem on the accuracy applies. -/
theorem C127_example (k : Fin nk → ℝ) (i : Fin nk) :
    ∃ R v, (Smooth.init k (.list [(0, 0.2), (0.8, 1)])).1.call
        (.flat (List.zipWith (fun _ mu => some (mu ^ 2)) (unitGrid k 40).flatk (unitGrid k 40).flatmu)) = .ok R ∧
      R i 1 = some v ∧ |v - binMean (fun mu => mu ^ 2) 0.8 1| ≤ 2 * (1 - 0.8) / (2 * 9) ∧ |v - binMean (fun mu => mu ^ 2) 0.8 1| ≤ 2 / 40 := by
  have ho : Ordered [((0 : ℝ), (0.2 : ℝ)), (0.8, 1)] := by
    simp only [Ordered, upper]
    rw [if_neg (by norm_num [abs_le]), if_pos (by norm_num)]
    norm_num
  have h := C127_accuracy k 40 (by norm_num) [(0, 0.2), (0.8, 1)] ho (fun _ mu => mu ^ 2) i 1 (by simp) 0.8 1 rfl (by norm_num) (by norm_num) le_rfl (Or.inl rfl)
    (by rw [← Finset.card_pos, exCards.2]; norm_num) 2 (by norm_num) (by
      intro x hx y hy
      have e : x ^ 2 - y ^ 2 = (x + y) * (x - y) := by ring
      rw [e, abs_mul]
      refine mul_le_mul_of_nonneg_right ?_ (abs_nonneg _)
      rw [abs_le]
      constructor <;> linarith [hx.1, hx.2, hy.1, hy.2])
  rw [exCards.2] at h
  exact_mod_cast h

/-- The five bins satisfy the hypotheses of `C127_partition`. -/
example : let e : ℕ → ℝ := fun b => b / 5
    e 0 = 0 ∧ e 5 = 1 ∧ (∀ b < 5, e b ≤ e (b + 1)) ∧ ∀ b, b + 1 < 5 → ¬ EndsAtOne (e (b + 1)) := by
  refine ⟨by norm_num, by norm_num, fun b _ => by push_cast; linarith, fun b hb => ?_⟩
  have hb' : (b : ℝ) + 1 ≤ 4 := by exact_mod_cast (by omega : b + 1 ≤ 4)
  simp only [EndsAtOne, abs_le, not_and_or]
  left
  push_cast
  norm_num
  linarith

end

end Verif.SmoothWedge
