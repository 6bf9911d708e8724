import Verif.Props.TraceMore

/-!
# C148: the limits of a chain, its order, its units
-/

namespace Verif.Trace

open Plot1D Classical

/-! ### The median -/

theorem sorted_perm (t : List ℝ) : (sorted t).Perm t := List.mergeSort_perm _ _

theorem sorted_pairwise (t : List ℝ) : (sorted t).Pairwise (· ≤ ·) := by
  unfold sorted
  refine (List.pairwise_mergeSort ?_ ?_ t).imp ?_
  · intro a b c h1 h2
    rw [decide_eq_true_iff] at *
    exact h1.trans h2
  · intro a b
    simpa using le_total a b
  · intro a b h
    exact of_decide_eq_true h

theorem sorted_length (t : List ℝ) : (sorted t).length = t.length := (sorted_perm t).length_eq

theorem sorted_mono {t : List ℝ} {i j : ℕ} (hij : i ≤ j) (hj : j < t.length) : (sorted t).getD i 0 ≤ (sorted t).getD j 0 := by
  rw [← sorted_length] at hj
  rw [List.getD_eq_getElem _ _ hj, List.getD_eq_getElem _ _ (by omega)]
  rcases Nat.lt_or_ge i j with h | h
  · exact List.pairwise_iff_getElem.1 (sorted_pairwise t) i j (by omega) hj h
  · have : i = j := by omega
    subst this
    exact le_rfl

theorem sorted_mem {t : List ℝ} {i : ℕ} (hi : i < t.length) : (sorted t).getD i 0 ∈ t := by
  rw [← sorted_length] at hi
  rw [List.getD_eq_getElem _ _ hi]
  exact (sorted_perm t).mem_iff.1 (List.getElem_mem _)

theorem count_below {t : List ℝ} {i : ℕ} (hi : i < t.length) {m : ℝ} (h : (sorted t).getD i 0 ≤ m) : i + 1 ≤ (t.filter fun x => decide (x ≤ m)).length := by
  have h1 : ((sorted t).take (i + 1)).filter (fun x => decide (x ≤ m)) = (sorted t).take (i + 1) := by
    rw [List.filter_eq_self]
    intro x hx
    obtain ⟨j, hj, rfl⟩ := List.mem_iff_getElem.1 hx
    rw [List.length_take, sorted_length] at hj
    rw [List.getElem_take]
    have := sorted_mono (t := t) (show j ≤ i by omega) hi
    rw [List.getD_eq_getElem _ _ (by rw [sorted_length]; omega)] at this
    simpa using this.trans h
  have h2 : (((sorted t).take (i + 1)).filter fun x => decide (x ≤ m)).length ≤ ((sorted t).filter fun x => decide (x ≤ m)).length :=
    ((List.take_sublist _ _).filter _).length_le
  rw [h1, List.length_take, sorted_length, ((sorted_perm t).filter _).length_eq] at h2
  omega

theorem count_above {t : List ℝ} {i : ℕ} (hi : i < t.length) {m : ℝ} (h : m ≤ (sorted t).getD i 0) : t.length - i ≤ (t.filter fun x => decide (m ≤ x)).length := by
  have h1 : ((sorted t).drop i).filter (fun x => decide (m ≤ x)) = (sorted t).drop i := by
    rw [List.filter_eq_self]
    intro x hx
    obtain ⟨j, hj, rfl⟩ := List.mem_iff_getElem.1 hx
    rw [List.length_drop, sorted_length] at hj
    rw [List.getElem_drop]
    have := sorted_mono (t := t) (show i ≤ i + j by omega) (by omega)
    rw [List.getD_eq_getElem (n := i + j) _ _ (by rw [sorted_length]; omega)] at this
    simpa using h.trans this
  have h2 : (((sorted t).drop i).filter fun x => decide (m ≤ x)).length ≤ ((sorted t).filter fun x => decide (m ≤ x)).length :=
    ((List.drop_sublist _ _).filter _).length_le
  rw [h1, List.length_drop, sorted_length, ((sorted_perm t).filter _).length_eq] at h2
  omega

/-- The median of a list: half of the samples are not above it, half are not below it, and it is between the smallest and the largest. -/
theorem C148_median {t : List ℝ} (ht : t ≠ []) : t.length ≤ 2 * (t.filter fun x => decide (x ≤ median t)).length ∧
    t.length ≤ 2 * (t.filter fun x => decide (median t ≤ x)).length ∧ least t ≤ median t ∧ median t ≤ most t := by
  have h0 := List.length_pos_iff.2 ht
  by_cases hodd : t.length % 2 = 1
  · have hm : median t = (sorted t).getD (t.length / 2) 0 := by rw [median, if_pos hodd]
    have hi : t.length / 2 < t.length := by omega
    have h1 := count_below hi hm.ge
    have h2 := count_above hi hm.le
    refine ⟨by omega, by omega, ?_, ?_⟩
    · rw [hm]; exact least_le (sorted_mem hi)
    · rw [hm]; exact le_most (sorted_mem hi)
  · have hm : median t = ((sorted t).getD (t.length / 2 - 1) 0 + (sorted t).getD (t.length / 2) 0) / 2 := by rw [median, if_neg hodd]
    have hi : t.length / 2 < t.length := by omega
    have hle := sorted_mono (t := t) (show t.length / 2 - 1 ≤ t.length / 2 by omega) hi
    have h1 := count_below (m := median t) (show t.length / 2 - 1 < t.length by omega) (by rw [hm]; linarith)
    have h2 := count_above (m := median t) hi (by rw [hm]; linarith)
    have h3 := least_le (sorted_mem (t := t) (show t.length / 2 - 1 < t.length by omega))
    have h4 := le_most (sorted_mem hi)
    exact ⟨by omega, by omega, by rw [hm]; linarith, by rw [hm]; linarith⟩

/-- `limits(factor)` of finite samples: with the factor one the smallest and the largest; with a factor that is not negative they hold the median, and a larger factor gives wider limits;
`factor` is the ratio of their distances to the median. With a sample that is not finite there are none; no samples are an error. -/
theorem C148_limits (t : Trace) :
    (t.data = [] → ∀ f, t.limits f = .error .value) ∧ (none ∈ t.data → ∀ f, t.limits f = .ok none) ∧
    (t.data ≠ [] → none ∉ t.data → t.limits 1 = .ok (some (least t.finite, most t.finite)) ∧
      ∀ f, 0 ≤ f → ∃ lo hi m, t.limits f = .ok (some (lo, hi)) ∧ t.loc = (if t.isArray then .ok (some m) else .error .type) ∧ lo ≤ m ∧ m ≤ hi ∧
        m - lo = f * (m - least t.finite) ∧ hi - m = f * (most t.finite - m) ∧
        ∀ g lo' hi', f ≤ g → t.limits g = .ok (some (lo', hi')) → lo' ≤ lo ∧ hi ≤ hi') := by
  refine ⟨fun h f => by rw [Trace.limits, if_pos h], fun h f => by rw [Trace.limits, if_neg (List.ne_nil_of_mem h), if_pos h], fun h h1 => ?_⟩
  have hf : t.data.filterMap id ≠ [] := by
    obtain ⟨a, l, hal⟩ := List.exists_cons_of_ne_nil h
    rw [hal] at h1 ⊢
    cases a with
    | none => simp at h1
    | some x => simp
  obtain ⟨_, _, h2, h3⟩ := C148_median hf
  have hl : ∀ f, t.limits f = .ok (some (median t.finite - f * (median t.finite - least t.finite), median t.finite + f * (most t.finite - median t.finite))) := fun f => by
    rw [Trace.limits, if_neg h, if_neg h1]
    rfl
  change least t.finite ≤ median t.finite at h2
  change median t.finite ≤ most t.finite at h3
  refine ⟨by rw [hl]; simp, fun f hf0 => ⟨_, _, median t.finite, hl f, ?_, ?_, ?_, by ring, by ring, ?_⟩⟩
  · rw [Trace.loc, keep_eq]
    have hb : t.finite ≠ [] := hf
    split_ifs <;> simp [hb]
  · have := mul_nonneg hf0 (show 0 ≤ median t.finite - least t.finite by linarith)
    linarith
  · have := mul_nonneg hf0 (show 0 ≤ most t.finite - median t.finite by linarith)
    linarith
  · intro g lo' hi' hfg hg
    rw [hl g] at hg
    simp only [Except.ok.injEq, Option.some.injEq, Prod.mk.injEq] at hg
    obtain ⟨rfl, rfl⟩ := hg
    have h4 := mul_le_mul_of_nonneg_right hfg (show 0 ≤ median t.finite - least t.finite by linarith)
    have h5 := mul_le_mul_of_nonneg_right hfg (show 0 ≤ most t.finite - median t.finite by linarith)
    constructor <;> linarith

/-- `loc` is a median of the finite samples, and `scale` their standard deviation; both are NaN if there are none. -/
theorem C148_loc_scale {t : Trace} (ha : t.isArray = true) : (t.finite = [] → t.loc = .ok none ∧ t.scale = .ok none) ∧
    (t.finite ≠ [] → ∃ m s : ℝ, t.loc = .ok (some m) ∧ 1 / 2 ≤ frac t.finite (· ≤ m) ∧ 1 / 2 ≤ frac t.finite (m ≤ ·) ∧
      t.scale = .ok (some s) ∧ 0 ≤ s ∧ s ^ 2 = (t.finite.map fun x => (x - t.finite.sum / t.finite.length) ^ 2).sum / t.finite.length) := by
  refine ⟨fun h => ?_, fun h => ?_⟩
  · simp only [Trace.loc, Trace.scale, keep_eq, ha, if_true, h]
    exact ⟨trivial, trivial⟩
  · obtain ⟨h1, h2, _, _⟩ := C148_median h
    have hlen : (0 : ℝ) < t.finite.length := by exact_mod_cast List.length_pos_iff.2 h
    refine ⟨median t.finite, std t.finite, ?_, ?_, ?_, ?_, std_nonneg _, ?_⟩
    · simp only [Trace.loc, keep_eq, ha, if_true, h, if_false]
    · rw [frac, div_le_div_iff₀ (by norm_num) hlen]
      have : (t.finite.length : ℝ) ≤ 2 * ((t.finite.filter fun x => decide (x ≤ median t.finite)).length : ℝ) := by exact_mod_cast h1
      linarith
    · rw [frac, div_le_div_iff₀ (by norm_num) hlen]
      have : (t.finite.length : ℝ) ≤ 2 * ((t.finite.filter fun x => decide (median t.finite ≤ x)).length : ℝ) := by exact_mod_cast h2
      linarith
    · simp only [Trace.scale, keep_eq, ha, if_true, h, if_false]
    · rw [std, Real.sq_sqrt]
      · rfl
      · refine div_nonneg (List.sum_nonneg fun y hy => ?_) hlen.le
        obtain ⟨x, _, rfl⟩ := List.mem_map.1 hy
        positivity

/-! ### The order -/

theorem least_perm {t t' : List ℝ} (h : t.Perm t') : least t = least t' := by
  by_cases ht : t = []
  · subst ht; rw [List.nil_perm.1 h]
  · have ht' : t' ≠ [] := fun hc => by subst hc; exact ht (List.perm_nil.1 h)
    exact le_antisymm (least_le (h.mem_iff.2 (least_mem ht'))) (least_le (h.mem_iff.1 (least_mem ht)))

theorem most_perm {t t' : List ℝ} (h : t.Perm t') : most t = most t' := by
  by_cases ht : t = []
  · subst ht; rw [List.nil_perm.1 h]
  · have ht' : t' ≠ [] := fun hc => by subst hc; exact ht (List.perm_nil.1 h)
    exact le_antisymm (le_most (h.mem_iff.1 (most_mem ht))) (le_most (h.mem_iff.2 (most_mem ht')))

theorem std_perm {t t' : List ℝ} (h : t.Perm t') : std t = std t' := by
  have hm : mean t = mean t' := by rw [mean, mean, h.sum_eq, h.length_eq]
  rw [std, std, hm, h.length_eq, (h.map _).sum_eq]

theorem nBins_perm {t t' : List ℝ} (h : t.Perm t') : nBins t = nBins t' := by
  have h0 : t = [] ↔ t' = [] := ⟨fun hc => by subst hc; exact List.nil_perm.1 h, fun hc => by subst hc; exact List.perm_nil.1 h⟩
  unfold nBins width
  simp only [h0, std_perm h, least_perm h, most_perm h, h.length_eq]

theorem edge_perm {t t' : List ℝ} (h : t.Perm t') (n j : ℕ) : edge t n j = edge t' n j := by
  simp only [edge, first, last, least_perm h, most_perm h]

theorem density_perm {t t' : List ℝ} (h : t.Perm t') (n : ℕ) : density t n = density t' n := by
  refine List.ext_getElem (by simp [density]) fun j h1 h2 => ?_
  have hj : j < n := by simpa [density] using h1
  have e1 := density_get (t := t) hj
  have e2 := density_get (t := t') hj
  rw [List.getD_eq_getElem _ _ h1] at e1
  rw [List.getD_eq_getElem _ _ h2] at e2
  have hh : ∀ x, holds t n j x ↔ holds t' n j x := fun x => by simp only [holds, edge_perm h]
  have hl : (t.filter fun x => decide (holds t n j x)).length = (t'.filter fun x => decide (holds t' n j x)).length := by
    simp only [hh]
    exact (h.filter _).length_eq
  have hw : last t - first t = last t' - first t' := by simp only [first, last, least_perm h, most_perm h]
  rw [e1, e2, hl, hw, h.length_eq]

theorem sorted_eq {t t' : List ℝ} (h : t.Perm t') : sorted t = sorted t' :=
  (((sorted_perm t).trans h).trans (sorted_perm t').symm).eq_of_pairwise (fun _ _ _ _ => le_antisymm) (sorted_pairwise t) (sorted_pairwise t')

/-- Neither the order of the samples matters, nor those that are not finite (to the limits they do). -/
theorem C148_order {t t' : Trace} (ha : t.isArray = t'.isArray) (h : t.finite.Perm t'.finite) (S : Interp) (B : Solver) :
    (∀ dom f, t.pdf dom f = t'.pdf dom f) ∧ (∀ dom f, t.cdf dom f = t'.cdf dom f) ∧ (∀ us, t.draw S B us = t'.draw S B us) ∧ (∀ s, t.grid S B s = t'.grid S B s) ∧
      t.loc = t'.loc ∧ t.scale = t'.scale := by
  have hc : ∀ n, centers t.finite n = centers t'.finite n := fun n => by simp only [centers, edge_perm h]
  have hcum : ∀ n, cumulative t.finite n = cumulative t'.finite n := fun n => by simp only [cumulative, edge_perm h, density_perm h]
  have hcdf : ∀ dom f, t.cdf dom f = t'.cdf dom f := fun dom f => by
    unfold Trace.cdf
    rw [keep_eq, keep_eq, ha]
    by_cases hb : t'.isArray = true
    · simp only [hb, if_true, nBins_perm h, hc, hcum]
    · simp only [hb]; rfl
  have h0 : t.finite = [] ↔ t'.finite = [] := ⟨fun he => by rw [he] at h; exact List.nil_perm.1 h, fun he => by rw [he] at h; exact List.perm_nil.1 h⟩
  refine ⟨fun dom f => ?_, hcdf, fun us => ?_, fun s => ?_, ?_, ?_⟩
  · unfold Trace.pdf
    rw [keep_eq, keep_eq, ha]
    by_cases hb : t'.isArray = true
    · simp only [hb, if_true, nBins_perm h, hc, density_perm h]
    · simp only [hb]; rfl
  · simp only [Trace.draw, Trace.fromDiscrete, hcdf]
  · simp only [Trace.grid, Trace.fromDiscrete, hcdf]
  · simp only [Trace.loc, keep_eq, ha]
    split_ifs
    · simp only [h0, median, sorted_eq h, h.length_eq]
    · rfl
  · simp only [Trace.scale, keep_eq, ha]
    split_ifs
    · simp only [h0, std_perm h]
    · rfl

end Verif.Trace
