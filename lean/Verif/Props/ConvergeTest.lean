/-
C115: the convergence test while sampling.
-/
import Verif.Props.Converge

namespace Verif.Converge

open Verif.Results

noncomputable section

/-- A chain as sampled: `T` iterations of each walker, `ndim` parameters, no value exactly zero (see C82). -/
structure Data (ndim T : ℕ) (c : Chain) : Prop where
  ne : c ≠ []
  iters : ∀ w ∈ c, w.length = T
  dims : ∀ w ∈ c, ∀ row ∈ w, row.length = ndim
  nonzero : ∀ w ∈ c, ∀ row ∈ w, ∀ x ∈ row, x ≠ 0

/-- The values of parameter `d` in the iterations from number `n` on, of all walkers. -/
def late (n d : ℕ) (c : Chain) : List ℝ := c.flatMap fun w => (w.drop n).map fun row => row.getD d 0

theorem mapM_ok {α β : Type} (f : α → Except Err β) (g : α → β) (l : List α) (h : ∀ x ∈ l, f x = .ok (g x)) : l.mapM f = .ok (l.map g) := by
  induction l with
  | nil => rfl
  | cons a l ih =>
    rw [List.mapM_cons, h a List.mem_cons_self, ih fun x hx => h x (List.mem_cons_of_mem _ hx)]
    rfl

/-- C115: with Python 2, if no sampled value is zero, the test looks at each parameter in the second half of the iterations done, whatever was left to do. -/
theorem C115_test (ndim : ℕ) (hd : 0 < ndim) (cs : List Chain) (hcs : cs ≠ []) (T rest : ℕ) (hc : ∀ c ∈ cs, Data ndim T c) (eps : ℝ) :
    ∃ b, testConvergence false ndim (cs.map (padded rest ndim)) T eps = .ok b ∧
      (b = true ↔ ∀ d < ndim, ∃ R, scaleReduction (max (T / 2) 1 : ℕ) (cs.map (late (max (T / 2) 1) d)) = some R ∧ |1 - R| ≤ eps) := by
  have hm : (cs.map (padded rest ndim)).mapM (secondHalf false (max (T / 2) 1) ndim) = .ok (cs.map fun c => (c.map (List.drop (max (T / 2) 1))).flatten) := by
    rw [List.mapM_map]
    apply mapM_ok
    intro c h
    have := hc c h
    show secondHalf false (max (T / 2) 1) ndim (padded rest ndim c) = _
    simp only [secondHalf, C82_partial T ndim rest hd c this.ne this.iters this.dims this.nonzero, Bool.false_eq_true, if_false]
  unfold testConvergence
  simp only [List.map_eq_nil_iff, hcs, if_false, hm]
  refine ⟨_, rfl, ?_⟩
  simp only [decide_eq_true_eq]
  refine forall₂_congr fun d _ => ?_
  have e : (cs.map fun c => (c.map (List.drop (max (T / 2) 1))).flatten).map (fun rows => rows.map fun row => row.getD d 0) = cs.map (late (max (T / 2) 1) d) := by
    rw [List.map_map]
    refine List.map_congr_left fun c _ => ?_
    simp only [Function.comp, late, List.map_flatten, List.flatMap, List.map_map]
    rfl
  rw [e]
  cases scaleReduction (max (T / 2) 1 : ℕ) (cs.map (late (max (T / 2) 1) d)) with
  | none => simp [within]
  | some R => simp [within]

/-- C115: chains declared converged agree: for each parameter, the variance between the means of the chains is small compared with that within them. -/
theorem C115_sound (ndim : ℕ) (hd : 0 < ndim) (cs : List Chain) (hcs : cs ≠ []) (T rest : ℕ) (hc : ∀ c ∈ cs, Data ndim T c) (eps : ℝ)
    (h : testConvergence false ndim (cs.map (padded rest ndim)) T eps = .ok true) (d : ℕ) (hdn : d < ndim) :
    sampleVar (cs.map fun c => mean (late (max (T / 2) 1) d c)) ≤
      ((1 + eps) ^ 2 - 1 + 1 / (max (T / 2) 1 : ℕ)) * mean (cs.map fun c => var (late (max (T / 2) 1) d c)) := by
  obtain ⟨b, hb, hiff⟩ := C115_test ndim hd cs hcs T rest hc eps
  rw [h] at hb
  simp only [Except.ok.injEq] at hb
  subst hb
  obtain ⟨R, hR, hle⟩ := hiff.mp rfl d hdn
  set n := max (T / 2) 1
  have hn : (1 : ℝ) ≤ (n : ℕ) := by exact_mod_cast le_max_right _ _
  obtain ⟨-, hW, hv⟩ := C115_value n (by linarith) _ R hR
  have hlow := (C115_lower n hn _ R hR).1
  simp only [List.map_map] at hW hv
  have e1 : (mean ∘ late n d) = fun c => mean (late n d c) := rfl
  have e2 : (var ∘ late n d) = fun c => var (late n d c) := rfl
  rw [e1, e2] at hv
  rw [e2] at hW
  have hW0 : 0 ≤ mean (cs.map fun c => var (late n d c)) := mean_nonneg fun x hx => by
    obtain ⟨y, -, rfl⟩ := List.mem_map.mp hx
    exact var_nonneg _
  have hV : 0 ≤ sampleVar (cs.map fun c => mean (late n d c)) := sampleVar_nonneg _ (by
    rw [List.length_map]
    exact Nat.one_le_iff_ne_zero.mpr (by simpa using hcs))
  have hWp : 0 < mean (cs.map fun c => var (late n d c)) := lt_of_le_of_ne hW0 (Ne.symm hW)
  have hp : 0 ≤ 1 - 1 / (n : ℝ) := by rw [sub_nonneg, div_le_one (by linarith)]; exact hn
  have hR0 : 0 ≤ R := hv ▸ Real.sqrt_nonneg _
  have hR2 : R ^ 2 = 1 - 1 / (n : ℝ) + sampleVar (cs.map fun c => mean (late n d c)) / mean (cs.map fun c => var (late n d c)) := by
    rw [hv, Real.sq_sqrt (add_nonneg hp (div_nonneg hV hW0))]
  have h1 : R ≤ 1 + eps := by linarith [(abs_le.mp hle).1]
  have h2 : R ^ 2 ≤ (1 + eps) ^ 2 := pow_le_pow_left₀ hR0 h1 2
  rw [← div_le_iff₀ hWp]
  linarith

/-- C115: one chain is never declared converged. -/
theorem C115_single (ndim : ℕ) (hd : 0 < ndim) (c : Chain) (T rest : ℕ) (hc : Data ndim T c) (eps : ℝ) :
    testConvergence false ndim [padded rest ndim c] T eps = .ok false := by
  obtain ⟨b, hb, hiff⟩ := C115_test ndim hd [c] (by simp) T rest (by simpa using hc) eps
  simp only [List.map_cons, List.map_nil] at hb hiff
  rw [hb]
  cases b with
  | false => rfl
  | true =>
    obtain ⟨R, hR, -⟩ := hiff.mp rfl 0 hd
    rw [(C115_none_iff _ _).mpr (Or.inl (by simp))] at hR
    cases hR

/-- C115 fails: with Python 3 the test always raises a `TypeError`, so that a run asked to test for convergence ends at the first test. -/
theorem C115_python3_counterexample (ndim : ℕ) (hd : 0 < ndim) (cs : List Chain) (hcs : cs ≠ []) (T rest : ℕ) (hc : ∀ c ∈ cs, Data ndim T c) (eps : ℝ) :
    testConvergence true ndim (cs.map (padded rest ndim)) T eps = .error .type := by
  obtain ⟨c, cs', rfl⟩ := List.exists_cons_of_ne_nil hcs
  have := hc c List.mem_cons_self
  have h1 : secondHalf true (max (T / 2) 1) ndim (padded rest ndim c) = .error .type := by
    simp only [secondHalf, C82_partial T ndim rest hd c this.ne this.iters this.dims this.nonzero, if_true]
  unfold testConvergence
  simp only [List.map_cons, reduceCtorEq, if_false, List.mapM_cons, h1]
  rfl

/-- C115 fails: for a tolerance below `1/(2n)`, `n` half the number of iterations, chains that agree perfectly are not declared converged. -/
theorem C115_tolerance_counterexample (ndim : ℕ) (hd : 0 < ndim) (cs : List Chain) (hcs : cs ≠ []) (T rest : ℕ) (hc : ∀ c ∈ cs, Data ndim T c) (eps : ℝ)
    (heps : eps < 1 / (2 * (max (T / 2) 1 : ℕ))) (hsame : ∀ c ∈ cs, ∀ c' ∈ cs, c = c') : testConvergence false ndim (cs.map (padded rest ndim)) T eps = .ok false := by
  obtain ⟨b, hb, hiff⟩ := C115_test ndim hd cs hcs T rest hc eps
  rw [hb]
  cases b with
  | false => rfl
  | true =>
    exfalso
    obtain ⟨R, hR, hle⟩ := hiff.mp rfl 0 hd
    set n := max (T / 2) 1
    have hn : (1 : ℝ) ≤ (n : ℕ) := by exact_mod_cast le_max_right _ _
    have hval := (C115_lower n hn _ R hR).2.mpr (by
      intro a ha a' ha'
      obtain ⟨c, h1, rfl⟩ := List.mem_map.mp ha
      obtain ⟨c', h1', rfl⟩ := List.mem_map.mp ha'
      rw [hsame c h1 c' h1'])
    have hs : Real.sqrt (1 - 1 / (n : ℝ)) ≤ 1 - 1 / (2 * (n : ℝ)) := by
      rw [Real.sqrt_le_left (by
        rw [sub_nonneg, div_le_one (by linarith)]; linarith)]
      have : 0 ≤ (1 / (2 * (n : ℝ))) ^ 2 := by positivity
      have e : (1 - 1 / (2 * (n : ℝ))) ^ 2 = 1 - 1 / n + (1 / (2 * (n : ℝ))) ^ 2 := by
        field_simp
        ring
      linarith
    have := (abs_le.mp hle).2
    rw [hval] at this
    linarith

/-- C115 fails: a sampled value of exactly zero makes the test fail. -/
theorem C115_zero_counterexample (niter : ℕ) (eps : ℝ) : testConvergence false 2 [[[[0, 1], [2, 3]]], [[[4, 1], [2, 3]]]] niter eps = .error .value := by
  have h : secondHalf false (max (niter / 2) 1) 2 [[[0, 1], [2, 3]]] = .error .value := by
    simp only [secondHalf, C82_zero_counterexample.2]
  unfold testConvergence
  simp only [reduceCtorEq, if_false, List.mapM_cons, h]
  rfl

/-! ### When the test is made -/

/-- C115: no test before 600 iterations; then at least one every 200 iterations. -/
theorem C115_schedule : (∀ n, doConvergence n = true → 600 ≤ n) ∧ ∀ n, 600 ≤ n → ∃ m, n ≤ m ∧ m < n + 200 ∧ doConvergence m = true := by
  constructor
  · intro n h
    unfold doConvergence at h
    split_ifs at h with h1 h2 h3
    · omega
    · omega
  · intro n hn
    by_cases h : n ≤ 1400
    · refine ⟨(n + 199) / 200 * 200, by omega, by omega, ?_⟩
      unfold doConvergence
      have h1 : ¬ (n + 199) / 200 * 200 < 500 := by omega
      have h2 : (n + 199) / 200 * 200 < 1500 ∧ (n + 199) / 200 * 200 % 200 = 0 := by omega
      rw [if_neg h1, if_pos h2]
    · refine ⟨(n + 99) / 100 * 100, by omega, by omega, ?_⟩
      unfold doConvergence
      have h1 : ¬ (n + 99) / 100 * 100 < 500 := by omega
      have h3 : 1500 ≤ (n + 99) / 100 * 100 ∧ (n + 99) / 100 * 100 % 100 = 0 := by omega
      rw [if_neg h1]
      split_ifs
      · rfl
      · rfl

theorem gathered_padded (rest ndim : ℕ) (s c : Chain) : gathered (some s) (padded rest ndim c) = padded rest ndim (List.zipWith (· ++ ·) s c) := by
  unfold gathered padded
  simp only [List.zipWith_map_right, List.map_zipWith, List.append_assoc]

/-- C115: a run that continues another is tested on the iterations of both, and only when a test is due. -/
theorem C115_restart (py3 : Bool) (ndim : ℕ) (ranks : List (Chain × Chain)) (rest niter startIter : ℕ) (eps : ℝ) :
    checkConvergence py3 ndim (ranks.map fun r => (some r.1, padded rest ndim r.2)) niter startIter eps =
      if doConvergence (startIter + niter + 1) then
        testConvergence py3 ndim ((ranks.map fun r => List.zipWith (· ++ ·) r.1 r.2).map (padded rest ndim)) (startIter + niter + 1) eps
      else .ok false := by
  unfold checkConvergence
  simp only [List.map_map]
  congr 2
  refine List.map_congr_left fun r _ => ?_
  simp only [Function.comp, gathered_padded]

/-- C115: and its chain is one of that many iterations, so that `C115_test` applies. -/
theorem C115_restart_data (ndim T T' : ℕ) (s c : Chain) (hs : Data ndim T s) (hc : Data ndim T' c) (hl : s.length = c.length) : Data ndim (T + T') (List.zipWith (· ++ ·) s c) := by
  have key : ∀ w ∈ List.zipWith (· ++ ·) s c, ∃ a ∈ s, ∃ b ∈ c, w = a ++ b := by
    intro w hw
    rw [List.mem_iff_getElem] at hw
    obtain ⟨i, hi, rfl⟩ := hw
    rw [List.length_zipWith] at hi
    exact ⟨s[i], List.getElem_mem _, c[i], List.getElem_mem _, by simp⟩
  refine ⟨?_, ?_, ?_, ?_⟩
  · intro h
    have := congrArg List.length h
    rw [List.length_zipWith, hl, min_self, List.length_nil, List.length_eq_zero_iff] at this
    exact hc.ne this
  · intro w hw
    obtain ⟨a, ha, b, hb, rfl⟩ := key w hw
    rw [List.length_append, hs.iters a ha, hc.iters b hb]
  · intro w hw row hr
    obtain ⟨a, ha, b, hb, rfl⟩ := key w hw
    rcases List.mem_append.mp hr with h | h
    · exact hs.dims a ha row h
    · exact hc.dims b hb row h
  · intro w hw row hr
    obtain ⟨a, ha, b, hb, rfl⟩ := key w hw
    rcases List.mem_append.mp hr with h | h
    · exact hs.nonzero a ha row h
    · exact hc.nonzero b hb row h

/-- Case: two chains with two walkers, four iterations, one parameter. -/
example : Data 1 4 [[[1], [2], [1], [2]], [[3], [1], [1], [2]]] ∧
    testConvergence false 1 ([[[[1], [2], [1], [2]], [[3], [1], [1], [2]]], [[[5], [5], [2], [1]], [[5], [5], [2], [1]]]].map (padded 7 1)) 4 (1 / 2) = .ok true := by
  have h1 : Data 1 4 [[[1], [2], [1], [2]], [[3], [1], [1], [2]]] := by
    refine ⟨by simp, by simp, by simp, by simp⟩
  have h2 : Data 1 4 [[[5], [5], [2], [1]], [[5], [5], [2], [1]]] := by
    refine ⟨by simp, by simp, by simp, by simp⟩
  refine ⟨h1, ?_⟩
  obtain ⟨b, hb, hiff⟩ := C115_test 1 (by norm_num) [[[[1], [2], [1], [2]], [[3], [1], [1], [2]]], [[[5], [5], [2], [1]], [[5], [5], [2], [1]]]] (by simp) 4 7
    (by intro c hc; simp only [List.mem_cons, List.not_mem_nil, or_false] at hc; rcases hc with rfl | rfl; exacts [h1, h2]) (1 / 2)
  rw [hb]
  congr 1
  rw [hiff]
  intro d hd
  obtain rfl : d = 0 := by omega
  have e1 : late 2 0 [[[1], [2], [1], [2]], [[3], [1], [1], [2]]] = [1, 2, 1, 2] := by simp [late]
  have e2 : late 2 0 [[[5], [5], [2], [1]], [[5], [5], [2], [1]]] = [2, 1, 2, 1] := by simp [late]
  have m1 : mean [1, 2, 1, 2] = 3 / 2 := by norm_num [mean]
  have m2 : mean [2, 1, 2, 1] = 3 / 2 := by norm_num [mean]
  have v1 : var [1, 2, 1, 2] = 1 / 4 := by unfold var; rw [m1]; norm_num [mean]
  have v2 : var [2, 1, 2, 1] = 1 / 4 := by unfold var; rw [m2]; norm_num [mean]
  have m3 : mean [3 / 2, 3 / 2] = 3 / 2 := by norm_num [mean]
  have m4 : mean [1 / 4, 1 / 4] = 1 / 4 := by norm_num [mean]
  have hv : scaleReduction (max (4 / 2) 1 : ℕ) ([[[[1], [2], [1], [2]], [[3], [1], [1], [2]]], [[[5], [5], [2], [1]], [[5], [5], [2], [1]]]].map (late (max (4 / 2) 1) 0)) = some (Real.sqrt (1 / 2)) := by
    have : max (4 / 2) 1 = 2 := by norm_num
    rw [this]
    simp only [scaleReduction, List.map_cons, List.map_nil, e1, e2, m1, m2, v1, v2, m3, m4]
    norm_num
    exact fun h => by rcases h with h | h <;> cases h
  refine ⟨_, hv, ?_⟩
  have h3 : (1 : ℝ) / 2 ≤ Real.sqrt (1 / 2) := Real.le_sqrt_of_sq_le (by norm_num)
  have h4 : Real.sqrt (1 / 2) ≤ 1 := Real.sqrt_le_one.mpr (by norm_num)
  rw [abs_le]
  constructor <;> linarith

end

end Verif.Converge
