/-
C127: wedges of a smooth power spectrum.
-/
import Verif.Model.SmoothWedge
import Verif.Lemmas.SmoothWedge
import Verif.Props.Transfers

namespace Verif.SmoothWedge

open Verif.Transfers MeasureTheory intervalIntegral

noncomputable section

open Classical

variable {nk : ℕ}

theorem notnull_unit (k : Fin nk → ℝ) (N : ℕ) (c : Fin nk × Fin (N + 1)) : (unitGrid k N).notnull c := by
  simp [Grid.notnull, unitGrid]

theorem valid_unit (k : Fin nk → ℝ) (N : ℕ) : (unitGrid k N).valid = cells nk (N + 1) := by
  rw [Grid.valid, List.filter_eq_self]
  intro c _
  simpa using notnull_unit k N c

theorem upper_gt (hi : ℝ) (h : EndsAtOne hi) : 1 < upper hi := by
  have h' : |hi - 1| ≤ 1 / 10 ^ 8 + 1 / 10 ^ 5 := h
  rw [upper, if_pos h']
  have := (abs_le.1 h').1
  norm_num at this ⊢
  linarith

theorem bin_unit (k : Fin nk → ℝ) (N : ℕ) (i : Fin nk) (lo hi : ℝ) : bin (unitGrid k N) i lo hi = samples N lo hi := by
  ext j
  simp only [bin, samples, Finset.mem_filter, Finset.mem_univ, true_and, notnull_unit]
  refine and_congr_right fun _ => ?_
  show (j.val : ℝ) / N < upper hi ↔ _
  by_cases h : EndsAtOne hi
  · simp only [h, or_true, iff_true]
    have h1 : (j.val : ℝ) / N ≤ 1 := by
      rcases Nat.eq_zero_or_pos N with rfl | hN
      · simp
      · rw [div_le_one (by exact_mod_cast hN)]
        exact_mod_cast Nat.lt_succ_iff.1 j.isLt
    exact h1.trans_lt (upper_gt hi h)
  · have h' : ¬ |hi - 1| ≤ 1 / 10 ^ 8 + 1 / 10 ^ 5 := h
    rw [upper, if_neg h']
    simp [h]

/-- The power given to the transfer: the values `P i j` at the wavenumber `i` and the sample `j`, as an array, or flattened row by row. -/
def Given {N : ℕ} (arg : PowerArg nk (N + 1)) (P : Fin nk → Fin (N + 1) → Val) : Prop :=
  arg = .grid P ∨ arg = .flat ((List.finRange nk).flatMap (fun i => (List.finRange (N + 1)).map (P i)))

theorem given_set (k : Fin nk → ℝ) {N : ℕ} (arg : PowerArg nk (N + 1)) (P : Fin nk → Fin (N + 1) → Val) (h : Given arg P) :
    setPower (unitGrid k N) arg = .ok (fun c => P c.1 c.2) := by
  have h1 : argVal (unitGrid k N) arg P := by
    rcases h with h | h
    · exact Or.inl h
    · refine Or.inr (h.trans ?_)
      rw [valid_unit, cells]
      congr 1
      show _ = List.map _ (List.flatMap _ _)
      rw [List.map_flatMap]
      congr 1
      funext i
      rw [List.map_map]
      rfl
  rw [setPower_arg _ _ _ h1]
  congr 1
  funext c
  rw [if_pos (notnull_unit k N c)]

theorem init_bounds (k : Fin nk → ℝ) (N : ℕ) (bounds : List (ℝ × ℝ)) :
    (Smooth.init k (.list bounds) N).1.bounds = bounds.map adjust := rfl

theorem total_eq (k : Fin nk → ℝ) (N : ℕ) (bounds : List (ℝ × ℝ)) (ho : Ordered bounds) (t : Smooth nk N) (ht : t.grid = unitGrid k N)
    (d : Fin nk × Fin (N + 1) → Val) (i : Fin nk) (b : ℕ) (hb : b < bounds.length) :
    (∀ f : Fin (N + 1) → ℝ, (∀ j ∈ samples N bounds[b].1 bounds[b].2, d (i, j) = some (f j)) →
      total t (edgesOf bounds) d i b = some (∑ j ∈ samples N bounds[b].1 bounds[b].2, f j)) ∧
    ((∃ j ∈ samples N bounds[b].1 bounds[b].2, d (i, j) = none) → total t (edgesOf bounds) d i b = none) := by
  have h := sumBins_eq (unitGrid k N) bounds ho d i b hb
  rw [bin_unit] at h
  have e : total t (edgesOf bounds) d i b = sumBins (unitGrid k N) (edgesOf bounds) d i b := by
    unfold total sumBins
    rw [ht]
    congr 2
    funext c
    simp only [index, muIndex, ht]
  rw [e]
  exact h

theorem call_eq (k : Fin nk → ℝ) (N : ℕ) (bounds : List (ℝ × ℝ)) (ho : Ordered bounds) (t : Smooth nk N) (ht : t.grid = unitGrid k N)
    (hbd : t.bounds = bounds.map adjust) (hl : t.muCen.length ≤ bounds.length) (arg : PowerArg nk (N + 1))
    (P : Fin nk → Fin (N + 1) → Val) (ha : Given arg P) :
    ∃ R, t.call arg = .ok R ∧ ∀ i b, (hb : b < bounds.length) →
      (∀ f, (∀ j ∈ samples N bounds[b].1 bounds[b].2, P i j = some (f j)) → (samples N bounds[b].1 bounds[b].2).Nonempty →
        R i b = some (mean (samples N bounds[b].1 bounds[b].2) f)) ∧
      ((samples N bounds[b].1 bounds[b].2 = ∅ ∨ ∃ j ∈ samples N bounds[b].1 bounds[b].2, P i j = none) → R i b = none) := by
  have hE := muEdges_eq bounds
  rw [if_pos ho] at hE
  refine ⟨fun i b => divV (total t (edgesOf bounds) (fun c => P c.1 c.2) i b) (total t (edgesOf bounds) (fun _ => some 1) i b), ?_, ?_⟩
  · unfold Smooth.call
    rw [ht, given_set k arg P ha, hbd, hE]
    simp only [List.length_map]
    rw [if_neg (by omega)]
  · intro i b hb
    have h1 := (total_eq k N bounds ho t ht (fun _ => some 1) i b hb).1 (fun _ => 1) (fun _ _ => rfl)
    simp only [Finset.sum_const, nsmul_eq_mul, mul_one] at h1
    simp only [h1]
    obtain ⟨h2, h3⟩ := total_eq k N bounds ho t ht (fun c => P c.1 c.2) i b hb
    generalize samples N bounds[b].1 bounds[b].2 = s at *
    refine ⟨fun f hf hne => ?_, fun h => ?_⟩
    · rw [h2 f hf]
      have : (s.card : ℝ) ≠ 0 := by exact_mod_cast (Finset.card_pos.2 hne).ne'
      simp [divV, mean, this]
    · rcases h with h | h
      · have h4 := h2 (fun _ => 0) (by rw [h]; simp)
        rw [h4, h]
        simp [divV]
      · rw [h3 h]; rfl

/-- C127: with bounds in order a result is always returned, and its entry for the wavenumber `i` and the bin `b` is the plain mean of the power at this
wavenumber over the samples of the bin - `lo ≤ mu < hi`, or `lo ≤ mu ≤ 1` if `hi` is 1 - and nan if there is no sample or one of them is nan.  The
coordinate of the bin is the middle between its bounds. -/
theorem C127_mean (k : Fin nk → ℝ) (N : ℕ) (bounds : List (ℝ × ℝ)) (ho : Ordered bounds) (arg : PowerArg nk (N + 1))
    (P : Fin nk → Fin (N + 1) → Val) (ha : Given arg P) :
    (Smooth.init k (.list bounds) N).1.muCen = bounds.map (fun b => (b.1 + b.2) / 2) ∧
    ∃ R, (Smooth.init k (.list bounds) N).1.call arg = .ok R ∧ ∀ i b, (hb : b < bounds.length) →
      (∀ f, (∀ j ∈ samples N bounds[b].1 bounds[b].2, P i j = some (f j)) → (samples N bounds[b].1 bounds[b].2).Nonempty →
        R i b = some (mean (samples N bounds[b].1 bounds[b].2) f)) ∧
      ((samples N bounds[b].1 bounds[b].2 = ∅ ∨ ∃ j ∈ samples N bounds[b].1 bounds[b].2, P i j = none) → R i b = none) := by
  refine ⟨?_, call_eq k N bounds ho _ rfl rfl (by simp [Smooth.init]) arg P ha⟩
  simp only [Smooth.init]
  refine List.map_congr_left fun b _ => by ring

/-- C127: a single bin may be given as a tuple; the caller's value is left alone. -/
theorem C127_single (k : Fin nk → ℝ) (N : ℕ) (b : ℝ × ℝ) :
    (Smooth.init k (.tuple b) N).1 = (Smooth.init k (.list [b]) N).1 ∧ (Smooth.init k (.tuple b) N).2 = .tuple b := ⟨rfl, rfl⟩

/-- C127: bounds that are not in order are refused by every call. -/
theorem C127_unordered (k : Fin nk → ℝ) (N : ℕ) (bounds : List (ℝ × ℝ)) (ho : ¬ Ordered bounds) (arg : PowerArg nk (N + 1))
    (P : Fin nk → Fin (N + 1) → Val) (ha : Given arg P) :
    (Smooth.init k (.list bounds) N).1.call arg = .error (.base .monotone) := by
  have hE := muEdges_eq bounds
  rw [if_neg ho] at hE
  unfold Smooth.call
  have h1 : (Smooth.init k (.list bounds) N).1.grid = unitGrid k N := rfl
  rw [h1, given_set k arg P ha, init_bounds, hE]

/-- C127: the values of a function of `k` and `mu` at the flattened grid points of the transfer are put where they belong. -/
theorem C127_flat (k : Fin nk → ℝ) (N : ℕ) (F : ℝ → ℝ → Val) :
    Given (N := N) (.flat (List.zipWith F (unitGrid k N).flatk (unitGrid k N).flatmu)) (fun i j => F (k i) ((j.val : ℝ) / N)) := by
  right
  rw [zipWith_flat, valid_unit, cells]
  congr 1
  show List.map _ (List.flatMap _ _) = _
  rw [List.map_flatMap]
  congr 1
  funext i
  rw [List.map_map]
  rfl

/-! ### Means -/

/-- C127: the mean of a constant is the constant, a mean lies between any bounds of the values, and it is linear in them. -/
theorem C127_linear {N : ℕ} (s : Finset (Fin (N + 1))) (hs : s.Nonempty) (f g : Fin (N + 1) → ℝ) (a b lo hi : ℝ)
    (h : ∀ j ∈ s, lo ≤ f j ∧ f j ≤ hi) :
    mean s (fun _ => a) = a ∧ (lo ≤ mean s f ∧ mean s f ≤ hi) ∧ mean s (fun j => a * f j + b * g j) = a * mean s f + b * mean s g := by
  have hc : (0 : ℝ) < s.card := by exact_mod_cast Finset.card_pos.2 hs
  refine ⟨?_, ⟨?_, ?_⟩, ?_⟩
  · simp only [mean, Finset.sum_const, nsmul_eq_mul]; field_simp
  · rw [mean, le_div_iff₀ hc]
    have := Finset.card_nsmul_le_sum s f lo (fun j hj => (h j hj).1)
    rw [nsmul_eq_mul] at this; linarith
  · rw [mean, div_le_iff₀ hc]
    have := Finset.sum_le_card_nsmul s f hi (fun j hj => (h j hj).2)
    rw [nsmul_eq_mul] at this; linarith
  · simp only [mean, Finset.sum_add_distrib, ← Finset.mul_sum]; ring

/-- C127: of contiguous bins from 0 to 1 every sample belongs to exactly one. -/
theorem C127_partition (N n : ℕ) (hn : 0 < n) (e : ℕ → ℝ) (h0 : e 0 = 0) (h1 : e n = 1) (hm : ∀ b < n, e b ≤ e (b + 1))
    (hin : ∀ b, b + 1 < n → ¬ EndsAtOne (e (b + 1))) (j : Fin (N + 1)) : ∃! b, b < n ∧ j ∈ samples N (e b) (e (b + 1)) := by
  have hone : EndsAtOne 1 := by norm_num [EndsAtOne]
  obtain ⟨x, hx⟩ : ∃ x, x = (j.val : ℝ) / N := ⟨_, rfl⟩
  have hx0 : 0 ≤ x := by rw [hx]; positivity
  have hmono : ∀ a b, a ≤ b → b ≤ n → e a ≤ e b := by
    intro a b hab
    induction b, hab using Nat.le_induction with
    | base => intro _; exact le_rfl
    | succ b _ ih => intro hb; exact (ih (by omega)).trans (hm b (by omega))
  have hmem : ∀ b < n, (j ∈ samples N (e b) (e (b + 1)) ↔ e b ≤ x ∧ (x < e (b + 1) ∨ b + 1 = n)) := by
    intro b hb
    simp only [samples, Finset.mem_filter, Finset.mem_univ, true_and, ← hx]
    refine and_congr_right fun _ => or_congr_right ?_
    constructor
    · intro h; by_contra hne; exact hin b (by omega) h
    · intro h; rw [h, h1]; exact hone
  obtain ⟨b, ⟨hb, hbx⟩, hbmax⟩ : ∃ b, (b < n ∧ e b ≤ x) ∧ ∀ c, (c < n ∧ e c ≤ x) → c ≤ b := by
    have hne : ((Finset.range n).filter (fun b => e b ≤ x)).Nonempty := ⟨0, by simp [hn, h0, hx0]⟩
    have h1 := Finset.max'_mem _ hne
    rw [Finset.mem_filter, Finset.mem_range] at h1
    exact ⟨_, h1, fun c hc => Finset.le_max' _ c (by rw [Finset.mem_filter, Finset.mem_range]; exact hc)⟩
  refine ⟨b, ⟨hb, (hmem b hb).2 ⟨hbx, ?_⟩⟩, ?_⟩
  · by_contra hcon
    push Not at hcon
    have := hbmax (b + 1) ⟨by omega, hcon.1⟩
    omega
  · rintro c ⟨hc, hcm⟩
    obtain ⟨hcx, hcu⟩ := (hmem c hc).1 hcm
    have h2 := hbmax c ⟨hc, hcx⟩
    rcases hcu with hcu | hcu
    · by_contra hne
      have := hmono (c + 1) b (by omega) (by omega)
      linarith
    · omega

/-! ### How far the mean over the samples is from the mean over the bin -/

theorem mean_samples (N : ℕ) (hN : 0 < N) (lo hi : ℝ) (h1 : hi ≤ 1) (g : ℝ → ℝ) :
    mean (samples N lo hi) (fun j => g ((j.val : ℝ) / N)) =
      (∑ j ∈ Finset.range (samples N lo hi).card, g ((first N lo + j : ℕ) / (N : ℝ))) / (samples N lo hi).card := by
  rw [mean, sum_samples N hN lo hi h1 (fun j => g ((j : ℝ) / N)), card_samples N hN lo hi h1]

theorem samples_error (N : ℕ) (hN : 0 < N) (lo hi : ℝ) (h0 : 0 ≤ lo) (hlh : lo < hi) (h1 : hi ≤ 1) (he : hi = 1 ∨ ¬ EndsAtOne hi) (g : ℝ → ℝ)
    (hc : ContinuousOn g (Set.Icc lo hi)) (hs : (samples N lo hi).Nonempty) (E : ℝ)
    (hE : ∀ a b c, a < b → b - a = (hi - lo) / (samples N lo hi).card → lo ≤ a → b ≤ hi → a ≤ c → c ≤ b →
      |g c * (b - a) - ∫ x in a..b, g x| ≤ E * (b - a)) :
    |mean (samples N lo hi) (fun j => g ((j.val : ℝ) / N)) - binMean g lo hi| ≤ E := by
  rw [mean_samples N hN lo hi h1]
  have hm := Finset.card_pos.2 hs
  have hcell := sample_in_cell N hN lo hi h0 hlh he _ (card_samples N hN lo hi h1) hm
  obtain ⟨m, hmdef⟩ : ∃ m, m = (samples N lo hi).card := ⟨_, rfl⟩
  rw [← hmdef] at hm hcell hE ⊢
  obtain ⟨w, hw⟩ : ∃ w, w = (hi - lo) / m := ⟨_, rfl⟩
  have hm' : (0 : ℝ) < m := by exact_mod_cast hm
  have hwp : 0 < w := by rw [hw]; exact div_pos (by linarith) hm'
  have hmw : (m : ℝ) * w = hi - lo := by rw [hw]; field_simp
  have hend : lo + m * w = hi := by rw [hmw]; ring
  rw [← hw] at hcell hE
  have := mean_error g lo w hwp m hm (by rwa [hend]) (fun j => g ((first N lo + j : ℕ) / (N : ℝ))) (E * w) (fun j hj => by
    have e : lo + ((j + 1 : ℕ) : ℝ) * w - (lo + j * w) = w := by push_cast; ring
    have hj' : (j : ℝ) + 1 ≤ m := by exact_mod_cast hj
    have hj0 : (0 : ℝ) ≤ j := by positivity
    have h := hE (lo + j * w) (lo + (j + 1 : ℕ) * w) ((first N lo + j : ℕ) / (N : ℝ)) (by linarith) e (by nlinarith)
      (by rw [← hend]; push_cast; nlinarith) (hcell j hj).1 (hcell j hj).2
    rwa [e] at h)
  rw [hend, hmw, mul_div_assoc, div_self hwp.ne', mul_one] at this
  exact this

/-- C127: for a power that changes by at most `L` per unit of `mu`, the result in a bin with at least one sample differs from the mean of the power over the
bin by at most `L (hi - lo) / 2 n`, where `n` is the number of samples of the bin, and never by more than `L / Nmu`. -/
theorem C127_accuracy (k : Fin nk → ℝ) (N : ℕ) (hN : 0 < N) (bounds : List (ℝ × ℝ)) (ho : Ordered bounds) (F : ℝ → ℝ → ℝ) (i : Fin nk) (b : ℕ)
    (hb : b < bounds.length) (lo hi : ℝ) (hlo : bounds[b] = (lo, hi)) (h0 : 0 ≤ lo) (hlh : lo < hi) (h1 : hi ≤ 1) (he : hi = 1 ∨ ¬ EndsAtOne hi)
    (hs : (samples N lo hi).Nonempty) (L : ℝ) (hL : 0 ≤ L)
    (hF : ∀ x ∈ Set.Icc lo hi, ∀ y ∈ Set.Icc lo hi, |F (k i) x - F (k i) y| ≤ L * |x - y|) :
    ∃ R v, (Smooth.init k (.list bounds) N).1.call (.flat (List.zipWith (fun k mu => some (F k mu)) (unitGrid k N).flatk (unitGrid k N).flatmu)) = .ok R ∧
      R i b = some v ∧ |v - binMean (F (k i)) lo hi| ≤ L * (hi - lo) / (2 * (samples N lo hi).card) ∧ |v - binMean (F (k i)) lo hi| ≤ L / N := by
  obtain ⟨R, hR, h⟩ := (C127_mean k N bounds ho _ _ (C127_flat k N (fun k mu => some (F k mu)))).2
  have hv := (h i b hb).1 (fun j => F (k i) ((j.val : ℝ) / N)) (fun j _ => rfl)
  simp only [hlo] at hv
  have hc : ContinuousOn (F (k i)) (Set.Icc lo hi) := by
    have : LipschitzOnWith ⟨L, hL⟩ (F (k i)) (Set.Icc lo hi) := LipschitzOnWith.of_dist_le_mul (fun x hx y hy => by
      rw [Real.dist_eq, Real.dist_eq]; exact hF x hx y hy)
    exact this.continuousOn
  have hm : 0 < (samples N lo hi).card := Finset.card_pos.2 hs
  have hm' : (0 : ℝ) < (samples N lo hi).card := by exact_mod_cast hm
  have hacc := samples_error N hN lo hi h0 hlh h1 he (F (k i)) hc hs (L * ((hi - lo) / (samples N lo hi).card) / 2) (fun a b c hab hw ha hb' hac hcb => by
    have := cell_lip (F (k i)) a b c L hab hL (hc.mono (Set.Icc_subset_Icc ha hb')) hac hcb
      (fun x hx => hF c ⟨ha.trans hac, hcb.trans hb'⟩ x ⟨ha.trans hx.1, hx.2.trans hb'⟩)
    rw [hw] at this ⊢
    nlinarith)
  refine ⟨R, _, hR, hv hs, ?_, hacc.trans ?_⟩
  · refine hacc.trans (le_of_eq ?_)
    generalize ((samples N lo hi).card : ℝ) = c
    ring
  · have hN' : (0 : ℝ) < N := by exact_mod_cast hN
    have hcs := card_samples N hN lo hi h1
    have a2 := (first_bounds N lo h0).2
    have a1 := (first_bounds N lo h0).1
    have b1 := (past_bounds N hi (by linarith) he).1
    have hp : past N hi = first N lo + (samples N lo hi).card := by omega
    rw [hp] at b1
    push_cast at b1
    have hm1 : (1 : ℝ) ≤ (samples N lo hi).card := by exact_mod_cast hm
    have : (hi - lo) / (samples N lo hi).card / 2 ≤ 1 / N := by
      rw [div_div, div_le_div_iff₀ (mul_pos hm' two_pos) hN']
      nlinarith
    calc L * ((hi - lo) / (samples N lo hi).card) / 2 = L * ((hi - lo) / (samples N lo hi).card / 2) := by ring
      _ ≤ L * (1 / N) := mul_le_mul_of_nonneg_left this hL
      _ = L / N := by ring

end

end Verif.SmoothWedge
