/-
C115: the convergence test of chains.
-/
import Verif.Model.Converge
import Verif.Props.Results

namespace Verif.Converge

open Verif.Results

noncomputable section

/-! ### Means and variances -/

theorem mean_affine (a b : ℝ) (l : List ℝ) (h : l ≠ []) : mean (l.map fun x => a * x + b) = a * mean l + b := by
  have hl : (l.length : ℝ) ≠ 0 := by simpa using h
  unfold mean
  rw [List.sum_map_add, List.sum_map_mul_left, List.length_map]
  simp only [List.map_id', List.map_const', List.sum_replicate, nsmul_eq_mul]
  field_simp

theorem mean_mul (a : ℝ) (l : List ℝ) : mean (l.map fun x => a * x) = a * mean l := by
  unfold mean
  rw [List.sum_map_mul_left, List.length_map]
  simp only [List.map_id']
  ring

theorem var_affine (a b : ℝ) (l : List ℝ) : var (l.map fun x => a * x + b) = a ^ 2 * var l := by
  by_cases h : l = []
  · subst h; simp [var, mean]
  · unfold var
    rw [mean_affine a b l h, List.map_map, ← mean_mul (a ^ 2) (l.map fun x => (x - mean l) ^ 2), List.map_map]
    congr 1
    refine List.map_congr_left fun x _ => ?_
    simp only [Function.comp]
    ring

theorem mean_nonneg {l : List ℝ} (h : ∀ x ∈ l, 0 ≤ x) : 0 ≤ mean l := div_nonneg (List.sum_nonneg h) (Nat.cast_nonneg _)

theorem var_nonneg (l : List ℝ) : 0 ≤ var l := by
  refine mean_nonneg fun x hx => ?_
  obtain ⟨y, -, rfl⟩ := List.mem_map.mp hx
  positivity

theorem mean_perm {l l' : List ℝ} (h : l.Perm l') : mean l = mean l' := by
  unfold mean
  rw [h.sum_eq, h.length_eq]

theorem var_perm {l l' : List ℝ} (h : l.Perm l') : var l = var l' := by
  unfold var
  rw [mean_perm h]
  exact mean_perm (h.map _)

/-! ### Specification -/

/-- The variance of a sample, divided by the number of values minus one. -/
def sampleVar (l : List ℝ) : ℝ := (l.map fun x => (x - l.sum / l.length) ^ 2).sum / ((l.length : ℝ) - 1)

/-- Gelman and Rubin (1992): `((n-1)/n W + B/n) / W` for chains of `n` samples, with `W` the mean of the sample variances of the chains and `B/n` the sample variance of their means. -/
def potentialScale (n : ℝ) (chains : List (List ℝ)) : ℝ :=
  let W := (chains.map sampleVar).sum / chains.length
  ((n - 1) / n * W + sampleVar (chains.map fun c => c.sum / c.length)) / W

/-- What the number in the code is: the between-chain variance in units of the within-chain variance, plus almost one. -/
theorem C115_value (n : ℝ) (hn : n ≠ 0) (chains : List (List ℝ)) (R : ℝ) (h : scaleReduction n chains = some R) :
    chains.length ≠ 1 ∧ mean (chains.map var) ≠ 0 ∧ R = Real.sqrt (1 - 1 / n + sampleVar (chains.map mean) / mean (chains.map var)) := by
  unfold scaleReduction at h
  simp only at h
  split_ifs at h with hc
  push Not at hc
  obtain ⟨h1, -, hW⟩ := hc
  simp only [Option.some.injEq] at h
  refine ⟨h1, hW, ?_⟩
  rw [← h]
  congr 1
  have hB : ((chains.map mean).map fun m => n * (mean (chains.map mean) - m) ^ 2 / ((chains.length : ℝ) - 1)).sum = n * sampleVar (chains.map mean) := by
    unfold sampleVar
    rw [List.length_map]
    rw [← mul_div_assoc, ← List.sum_map_mul_left, div_eq_mul_inv, ← List.sum_map_mul_right]
    congr 1
    refine List.map_congr_left fun m _ => ?_
    unfold mean
    simp only [List.length_map]
    ring
  rw [hB, add_div, mul_div_assoc, div_self hW, mul_one, mul_comm n, mul_div_assoc, div_self hn, mul_one]

theorem sampleVar_eq (l : List ℝ) (n : ℕ) (hl : l.length = n) (hn : 1 < n) : sampleVar l = n / ((n : ℝ) - 1) * var l := by
  have h1 : (1 : ℝ) < n := by exact_mod_cast hn
  have h2 : (n : ℝ) - 1 ≠ 0 := by linarith
  unfold sampleVar var
  have h3 : (n : ℝ) ≠ 0 := by linarith
  simp only [mean, List.length_map, hl]
  generalize (l.map fun x => (x - l.sum / (n : ℝ)) ^ 2).sum = S
  field_simp

theorem sampleVar_nonneg (l : List ℝ) (h : 1 ≤ l.length) : 0 ≤ sampleVar l := by
  refine div_nonneg (List.sum_nonneg fun x hx => ?_) ?_
  · obtain ⟨y, -, rfl⟩ := List.mem_map.mp hx
    positivity
  · have : (1 : ℝ) ≤ l.length := by exact_mod_cast h
    linarith

/-- C115: for chains of `n` samples each, the number returned exceeds the one of Gelman and Rubin only by the factor `n/(n-1)` in the between-chain term. -/
theorem C115_gelman_rubin (n : ℕ) (hn : 1 < n) (chains : List (List ℝ)) (hl : ∀ c ∈ chains, c.length = n) (R : ℝ) (h : gelmanRubin chains = .ok (some R)) :
    0 ≤ R ∧ R ^ 2 = 1 - 1 / n + n / ((n : ℝ) - 1) * (potentialScale n chains - (1 - 1 / n)) := by
  have h1 : (1 : ℝ) < n := by exact_mod_cast hn
  cases chains with
  | nil => simp [gelmanRubin] at h
  | cons c cs =>
    simp only [gelmanRubin, Except.ok.injEq, hl c List.mem_cons_self] at h
    obtain ⟨-, hW, hR⟩ := C115_value n (by linarith) _ R h
    have hWs : ((c :: cs).map sampleVar).sum / ((c :: cs).length : ℝ) = n / ((n : ℝ) - 1) * mean ((c :: cs).map var) := by
      unfold mean
      rw [List.length_map, ← mul_div_assoc, ← List.sum_map_mul_left]
      congr 2
      refine List.map_congr_left fun x hx => ?_
      exact sampleVar_eq x n (hl x hx) hn
    have hV := sampleVar_nonneg ((c :: cs).map mean) (by simp)
    have hWn : 0 ≤ mean ((c :: cs).map var) := mean_nonneg fun x hx => by
      obtain ⟨y, -, rfl⟩ := List.mem_map.mp hx
      exact var_nonneg y
    have hpos : 0 ≤ 1 - 1 / (n : ℝ) := by
      rw [sub_nonneg, div_le_one (by linarith)]; linarith
    refine ⟨hR ▸ Real.sqrt_nonneg _, ?_⟩
    rw [hR, Real.sq_sqrt (add_nonneg hpos (div_nonneg hV hWn))]
    have hmm : (c :: cs).map (fun c => c.sum / (c.length : ℝ)) = (c :: cs).map mean := rfl
    unfold potentialScale
    simp only
    rw [hWs, hmm]
    have h3 : (n : ℝ) - 1 ≠ 0 := by linarith
    generalize sampleVar ((c :: cs).map mean) = V
    generalize mean ((c :: cs).map var) = W at hW
    field_simp
    ring

/-- C115: it is never below `√(1 - 1/n)`, and reaches it just when the chains have the same mean. -/
theorem C115_lower (n : ℝ) (hn : 1 ≤ n) (chains : List (List ℝ)) (R : ℝ) (h : scaleReduction n chains = some R) :
    Real.sqrt (1 - 1 / n) ≤ R ∧ (R = Real.sqrt (1 - 1 / n) ↔ ∀ c ∈ chains, ∀ c' ∈ chains, mean c = mean c') := by
  obtain ⟨h1, hW, hR⟩ := C115_value n (by linarith) chains R h
  have hW0 : 0 ≤ mean (chains.map var) := mean_nonneg fun x hx => by
    obtain ⟨y, -, rfl⟩ := List.mem_map.mp hx
    exact var_nonneg y
  have hWp : 0 < mean (chains.map var) := lt_of_le_of_ne hW0 (Ne.symm hW)
  have hl : 1 < chains.length := by
    rcases Nat.lt_or_ge 1 chains.length with h2 | h2
    · exact h2
    · have : chains.length = 0 := by omega
      rw [List.length_eq_zero_iff] at this
      subst this
      simp [mean] at hW
  have hl' : (1 : ℝ) < chains.length := by exact_mod_cast hl
  have hV := sampleVar_nonneg (chains.map mean) (by simpa using hl.le)
  have hp : 0 ≤ 1 - 1 / n := by rw [sub_nonneg, div_le_one (by linarith)]; linarith
  have hq : 0 ≤ sampleVar (chains.map mean) / mean (chains.map var) := div_nonneg hV hW0
  refine ⟨hR ▸ Real.sqrt_le_sqrt (by linarith), ?_⟩
  have e1 : R = Real.sqrt (1 - 1 / n) ↔ sampleVar (chains.map mean) = 0 := by
    rw [hR, Real.sqrt_inj (by linarith) hp]
    constructor
    · intro h0
      have : sampleVar (chains.map mean) / mean (chains.map var) = 0 := by linarith
      rcases div_eq_zero_iff.mp this with h2 | h2
      · exact h2
      · exact absurd h2 hW
    · intro h0
      rw [h0]; simp
  rw [e1]
  constructor
  · intro h0 c hc c' hc'
    unfold sampleVar at h0
    rw [div_eq_zero_iff] at h0
    rcases h0 with h0 | h0
    · have key : ∀ x ∈ chains.map mean, x = (chains.map mean).sum / (chains.map mean).length := by
        intro x hx
        have := (List.all_zero_of_le_zero_le_of_sum_eq_zero (l := (chains.map mean).map fun x => (x - (chains.map mean).sum / (chains.map mean).length) ^ 2)
          (by intro y hy; obtain ⟨z, -, rfl⟩ := List.mem_map.mp hy; positivity) h0) (List.mem_map_of_mem hx)
        have := pow_eq_zero_iff (two_ne_zero) |>.mp this
        linarith
      rw [key _ (List.mem_map_of_mem hc), key _ (List.mem_map_of_mem hc')]
    · rw [List.length_map] at h0
      linarith
  · intro hall
    obtain ⟨c, cs, rfl⟩ : ∃ c cs, chains = c :: cs := by
      cases chains with
      | nil => simp at hl
      | cons c cs => exact ⟨c, cs, rfl⟩
    have hconst : (c :: cs).map mean = List.replicate (c :: cs).length (mean c) := by
      rw [List.eq_replicate_iff]
      refine ⟨by simp, fun x hx => ?_⟩
      obtain ⟨y, hy, rfl⟩ := List.mem_map.mp hx
      exact hall y hy c List.mem_cons_self
    rw [hconst]
    have h0 : ((c :: cs).length : ℝ) ≠ 0 := by linarith
    unfold sampleVar
    rw [div_eq_zero_iff]
    left
    simp only [List.map_replicate, List.sum_replicate, List.length_replicate, nsmul_eq_mul]
    rw [mul_div_cancel_left₀ _ h0]
    simp

/-- C115: it does not depend on the units or the origin of the parameter. -/
theorem C115_units (n a b : ℝ) (ha : a ≠ 0) (chains : List (List ℝ)) (hne : ∀ c ∈ chains, c ≠ []) :
    scaleReduction n (chains.map fun c => c.map fun x => a * x + b) = scaleReduction n chains := by
  by_cases hc : chains = []
  · subst hc; rfl
  have hm : (chains.map fun c => c.map fun x => a * x + b).map mean = (chains.map mean).map fun x => a * x + b := by
    rw [List.map_map, List.map_map]
    exact List.map_congr_left fun c h => mean_affine a b c (hne c h)
  have hv : (chains.map fun c => c.map fun x => a * x + b).map var = (chains.map var).map fun x => a ^ 2 * x := by
    rw [List.map_map, List.map_map]
    exact List.map_congr_left fun c h => var_affine a b c
  have hmm : mean ((chains.map mean).map fun x => a * x + b) = a * mean (chains.map mean) + b := mean_affine a b _ (by simpa using hc)
  have hW : mean ((chains.map var).map fun x => a ^ 2 * x) = a ^ 2 * mean (chains.map var) := mean_mul _ _
  have ha2 : a ^ 2 ≠ 0 := pow_ne_zero 2 ha
  have hB : (((chains.map mean).map fun x => a * x + b).map fun m => n * (a * mean (chains.map mean) + b - m) ^ 2 / ((chains.length : ℝ) - 1)).sum =
      a ^ 2 * ((chains.map mean).map fun m => n * (mean (chains.map mean) - m) ^ 2 / ((chains.length : ℝ) - 1)).sum := by
    rw [← List.sum_map_mul_left, List.map_map]
    congr 1
    refine List.map_congr_left fun m _ => ?_
    simp only [Function.comp]
    ring
  have hex : (∃ c ∈ chains.map fun c => c.map fun x => a * x + b, c = []) ↔ ∃ c ∈ chains, c = [] := by simp
  unfold scaleReduction
  simp only [hm, hv, hmm, hW, List.length_map, hB, hex, mul_eq_zero, ha2, false_or]
  congr 3
  generalize mean (chains.map var) = W
  generalize (List.map (fun m => n * (mean (chains.map mean) - m) ^ 2 / ((chains.length : ℝ) - 1)) (chains.map mean)).sum = B
  have : (1 - 1 / n) * (a ^ 2 * W) + a ^ 2 * B / n = a ^ 2 * ((1 - 1 / n) * W + B / n) := by ring
  rw [this, mul_div_mul_left _ _ ha2]

/-- C115: nor on the order of the chains, nor on the order of the samples in each. -/
theorem C115_order (n : ℝ) (chains chains' : List (List ℝ)) (h : chains.Perm chains') : scaleReduction n chains = scaleReduction n chains' := by
  have h1 := h.map mean
  have h2 := mean_perm h1
  have h3 := mean_perm (h.map var)
  have hex : (∃ c ∈ chains, c = []) ↔ ∃ c ∈ chains', c = [] := by simp only [h.mem_iff]
  unfold scaleReduction
  simp only [h2, h3, h.length_eq, hex]
  congr 4
  rw [(h1.map _).sum_eq]

theorem C115_samples (n : ℝ) (chains chains' : List (List ℝ)) (h : List.Forall₂ List.Perm chains chains') : scaleReduction n chains = scaleReduction n chains' := by
  have h1 : chains.map mean = chains'.map mean := by
    induction h with
    | nil => rfl
    | cons h _ ih => simp [mean_perm h, ih]
  have h2 : chains.map var = chains'.map var := by
    clear h1
    induction h with
    | nil => rfl
    | cons h _ ih => simp [var_perm h, ih]
  have hl : chains.length = chains'.length := h.length_eq
  have hex : (∃ c ∈ chains, c = []) ↔ ∃ c ∈ chains', c = [] := by
    clear h1 h2 hl
    induction h with
    | nil => rfl
    | cons h _ ih => 
      simp only [List.exists_mem_cons_iff, ih]
      rw [show (_ = ([] : List ℝ)) = (_ = ([] : List ℝ)) from propext ⟨fun e => by subst e; exact List.nil_perm.mp h, fun e => by subst e; exact List.perm_nil.mp h⟩]
  unfold scaleReduction
  simp only [h1, h2, hl, hex]

/-- C115: there is no value just when there is one chain, an empty one, or no variance within any (or no chain). -/
theorem C115_none_iff (n : ℝ) (chains : List (List ℝ)) :
    scaleReduction n chains = none ↔ chains.length ≤ 1 ∨ [] ∈ chains ∨ ∀ c ∈ chains, ∀ x ∈ c, x = mean c := by
  have hW : mean (chains.map var) = 0 ↔ chains = [] ∨ ∀ c ∈ chains, var c = 0 := by
    unfold mean
    rw [div_eq_zero_iff]
    constructor
    · rintro (h | h)
      · right
        intro c hc
        exact (List.all_zero_of_le_zero_le_of_sum_eq_zero (l := chains.map var) (by intro y hy; obtain ⟨z, -, rfl⟩ := List.mem_map.mp hy; exact var_nonneg z) h) (List.mem_map_of_mem hc)
      · left
        simpa using h
    · rintro (h | h)
      · subst h; simp
      · left
        apply List.sum_eq_zero
        intro y hy
        obtain ⟨z, hz, rfl⟩ := List.mem_map.mp hy
        exact h z hz
  have hv : ∀ c : List ℝ, var c = 0 ↔ ∀ x ∈ c, x = mean c := by
    intro c
    unfold var
    rw [mean, div_eq_zero_iff]
    constructor
    · rintro (h | h)
      · intro x hx
        have := (List.all_zero_of_le_zero_le_of_sum_eq_zero (l := c.map fun x => (x - mean c) ^ 2) (by intro y hy; obtain ⟨z, -, rfl⟩ := List.mem_map.mp hy; positivity) h) (List.mem_map_of_mem hx)
        have := pow_eq_zero_iff (two_ne_zero) |>.mp this
        linarith
      · intro x hx
        simp only [List.length_map, Nat.cast_eq_zero, List.length_eq_zero_iff] at h
        simp [h] at hx
    · intro h
      left
      apply List.sum_eq_zero
      intro y hy
      obtain ⟨z, hz, rfl⟩ := List.mem_map.mp hy
      rw [← h z hz]; simp
  unfold scaleReduction
  simp only
  have : (if chains.length = 1 ∨ (∃ c ∈ chains, c = []) ∨ mean (chains.map var) = 0 then none
      else some (Real.sqrt (((1 - 1 / n) * mean (chains.map var) + ((chains.map mean).map fun m => n * (mean (chains.map mean) - m) ^ 2 / ((chains.length : ℝ) - 1)).sum / n) / mean (chains.map var)))) = none ↔
      (chains.length = 1 ∨ (∃ c ∈ chains, c = []) ∨ mean (chains.map var) = 0) := by
    split_ifs with h
    · simp only [true_iff]; exact h
    · simp only [reduceCtorEq, false_iff]; exact h
  rw [this, hW]
  simp only [hv, exists_eq_right]
  constructor
  · rintro (h | h | h | h)
    · left; omega
    · right; left; exact h
    · left; simp [h]
    · right; right; exact h
  · rintro (h | h | h)
    · rcases Nat.lt_or_ge 0 chains.length with h2 | h2
      · left; omega
      · right; right; left
        exact List.length_eq_zero_iff.mp (by omega)
    · right; left; exact h
    · right; right; right; exact h

/-- C115 fails: with chains of different lengths the number depends on which comes first, as only the length of the first is used. -/
theorem C115_first_chain_counterexample : gelmanRubin [[0, 2], [0, 2, 0, 2]] ≠ gelmanRubin [[0, 2, 0, 2], [0, 2]] := by
  have m1 : mean [0, 2] = 1 := by norm_num [mean]
  have m2 : mean [0, 2, 0, 2] = 1 := by norm_num [mean]
  have v1 : var [0, 2] = 1 := by
    unfold var; rw [m1]; norm_num [mean]
  have v2 : var [0, 2, 0, 2] = 1 := by
    unfold var; rw [m2]; norm_num [mean]
  have m3 : mean [1, 1] = 1 := by norm_num [mean]
  have h1 : gelmanRubin [[0, 2], [0, 2, 0, 2]] = .ok (some (Real.sqrt (1 / 2))) := by
    simp only [gelmanRubin, scaleReduction, List.map_cons, List.map_nil, m1, m2, v1, v2, m3]
    norm_num
    exact fun h => by rcases h with h | h <;> cases h
  have h2 : gelmanRubin [[0, 2, 0, 2], [0, 2]] = .ok (some (Real.sqrt (3 / 4))) := by
    simp only [gelmanRubin, scaleReduction, List.map_cons, List.map_nil, m1, m2, v1, v2, m3]
    norm_num
    exact fun h => by rcases h with h | h <;> cases h
  rw [h1, h2]
  intro h
  simp only [Except.ok.injEq, Option.some.injEq] at h
  rw [Real.sqrt_inj (by norm_num) (by norm_num)] at h
  norm_num at h

end

end Verif.Converge
