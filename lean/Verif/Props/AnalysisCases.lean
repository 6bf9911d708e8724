/-
C116: concrete analyses, and what goes wrong.
-/
import Verif.Props.AnalysisBest
import Mathlib.Topology.Algebra.Order.Field
import Mathlib.Topology.Order.Compact
import Mathlib.Analysis.SpecialFunctions.Sqrt

namespace Verif.Analysis

open Verif.Results Verif.Converge Verif.Analysis.Spec

noncomputable section

/-- Two iterations of one walker; the first is far from the maximum. -/
def exA : Emcee := saveResults ⟨["a", "b"], ["c"], [[[5, 6], [1, 2]]], some [("c", [[50, 10]])], [[-10, 0]], 0, []⟩

/-- One iteration, with the names in another order. -/
def exB : Emcee := saveResults ⟨["b", "a"], ["c"], [[[3, 4]]], some [("c", [[20]])], [[-1]], 0, []⟩

/-- One iteration, very far from the maximum. -/
def exFar : Emcee := saveResults ⟨["a", "b"], ["c"], [[[7, 8]]], some [("c", [[70]])], [[-100]], 0, []⟩

/-- The default options. -/
def exOpts : Options := ⟨none, 1, fun _ => 1, ["a", "b", "c"]⟩

theorem shape_exA : Shape 1 exA := by
  refine ⟨rfl, ?_, ?_, rfl, ?_, ⟨_, rfl, ?_⟩, ?_⟩
  · simp [exA, saveResults, iters]
  · simp [exA, saveResults]
  · simp [exA, saveResults, iters]
  · intro name hn
    simp only [exA, saveResults, List.mem_singleton] at hn
    subst hn
    exact ⟨_, rfl, rfl, by simp [exA, saveResults, iters]⟩
  · simp [exA, saveResults]

theorem shape_exB : Shape 1 exB := by
  refine ⟨rfl, ?_, ?_, rfl, ?_, ⟨_, rfl, ?_⟩, ?_⟩
  · simp [exB, saveResults, iters]
  · simp [exB, saveResults]
  · simp [exB, saveResults, iters]
  · intro name hn
    simp only [exB, saveResults, List.mem_singleton] at hn
    subst hn
    exact ⟨_, rfl, rfl, by simp [exB, saveResults, iters]⟩
  · simp [exB, saveResults]

theorem shape_exFar : Shape 1 exFar := by
  refine ⟨rfl, ?_, ?_, rfl, ?_, ⟨_, rfl, ?_⟩, ?_⟩
  · simp [exFar, saveResults, iters]
  · simp [exFar, saveResults]
  · simp [exFar, saveResults, iters]
  · intro name hn
    simp only [exFar, saveResults, List.mem_singleton] at hn
    subst hn
    exact ⟨_, rfl, rfl, by simp [exFar, saveResults, iters]⟩
  · simp [exFar, saveResults]

theorem avg_exA : average 1 exA 0 = -10 ∧ average 1 exA 1 = 0 ∧ iters exA = 2 := by
  simp [average, lnprob, exA, saveResults, iters]

theorem avg_exB : average 1 exB 0 = -1 ∧ iters exB = 1 := by
  simp [average, lnprob, exB, saveResults, iters]

theorem avg_exFar : average 1 exFar 0 = -100 ∧ iters exFar = 1 := by
  simp [average, lnprob, exFar, saveResults, iters]

/-- Two chains with the names in different orders are analysed; the hypotheses of the theorems hold, and the samples that count are the second of the first chain and the one of the
second chain. -/
theorem C116_case : ∃ i, analyse exOpts [exA, exB] = .ok i ∧ (∀ r ∈ [exA, exB], Shape 1 r) ∧ (∀ c0, [exA, exB].head? = some c0 → c0.free.Pairwise (· ≤ ·)) ∧
    (0, 0, 1) ∈ counted 1 [exA, exB] none ∧ (1, 0, 0) ∈ counted 1 [exA, exB] none ∧ (0, 0, 0) ∉ counted 1 [exA, exB] none ∧
    sampleValue [exA, exB] (1, 0, 0) "a" = 4 ∧ sampleValue [exA, exB] (0, 0, 1) "c" = 10 := by
  classical
  obtain ⟨a0, a1, aT⟩ := avg_exA
  obtain ⟨b0, bT⟩ := avg_exB
  have hsh : ∀ r ∈ [exA, exB], Shape 1 r := by
    intro r hr
    simp only [List.mem_cons, List.not_mem_nil, or_false] at hr
    rcases hr with rfl | rfl
    · exact shape_exA
    · exact shape_exB
  have hC : ∀ r t, Counts 1 [exA, exB] none r t ↔ (-10 < average 1 r t + 3 ∧ 0 < average 1 r t + 3) ∧ -1 < average 1 r t + 3 := by
    intro r t
    simp only [Counts, List.mem_cons, List.not_mem_nil, or_false, forall_eq_or_imp, forall_eq, aT, bT, reduceCtorEq, false_implies, implies_true, and_true]
    constructor
    · rintro ⟨h1, h2⟩
      have := h1 0 (by norm_num); have h3 := h1 1 (by norm_num); have h4 := h2 0 (by norm_num)
      rw [a0] at this; rw [a1] at h3; rw [b0] at h4
      exact ⟨⟨this, h3⟩, h4⟩
    · rintro ⟨⟨h1, h2⟩, h3⟩
      refine ⟨fun t' ht' => ?_, fun t' ht' => ?_⟩
      · rcases (by omega : t' = 0 ∨ t' = 1) with rfl | rfl
        · rw [a0]; exact h1
        · rw [a1]; exact h2
      · rw [show t' = 0 by omega, b0]; exact h3
  have hmem : ∀ c t, (c, 0, t) ∈ counted 1 [exA, exB] none ↔ (c = 0 ∧ t < 2 ∧ Counts 1 [exA, exB] none exA t) ∨ (c = 1 ∧ t < 1 ∧ Counts 1 [exA, exB] none exB t) := by
    intro c t
    simp [counted, countedOf, List.mem_flatMap, aT, bT]
    constructor
    · rintro (⟨⟨h1, h2⟩, h3⟩ | ⟨⟨h1, h2⟩, h3⟩)
      · exact Or.inl ⟨h3.symm, h1, h2⟩
      · exact Or.inr ⟨h3.symm, h1, h2⟩
    · rintro (⟨h1, h2, h3⟩ | ⟨h1, h2, h3⟩)
      · exact Or.inl ⟨⟨h2, h3⟩, h1.symm⟩
      · exact Or.inr ⟨⟨h2, h3⟩, h1.symm⟩
  obtain ⟨i, hi⟩ := C116_succeeds (o := exOpts) (loaded := [exA, exB]) Nat.one_pos hsh (by simp)
    (by intro r hr; simp only [List.mem_cons, List.not_mem_nil, or_false] at hr; rcases hr with rfl | rfl <;> simp [aT, bT])
    (by
      intro r hr c0 hc0
      simp only [List.head?_cons, Option.some.injEq] at hc0
      subst hc0
      simp only [List.mem_cons, List.not_mem_nil, or_false] at hr
      refine ⟨?_, ?_, by simp [exA, saveResults], by simp [exA, saveResults, exOpts]⟩
      · rcases hr with rfl | rfl
        · exact .refl _
        · exact List.Perm.swap _ _ _
      · rcases hr with rfl | rfl
        · exact .refl _
        · exact .refl _) rfl rfl
  refine ⟨i, hi, hsh, ?_, ?_, ?_, ?_, ?_, ?_⟩
  · intro c0 hc0
    simp only [List.head?_cons, Option.some.injEq] at hc0
    subst hc0
    have : ("a" : String) ≤ "b" := by decide
    simp only [exA, saveResults]
    simp [this]
  · rw [hmem]; left; refine ⟨rfl, by norm_num, (hC _ _).2 ?_⟩; rw [a1]; norm_num
  · rw [hmem]; right; refine ⟨rfl, by norm_num, (hC _ _).2 ?_⟩; rw [b0]; norm_num
  · rw [hmem]
    rintro (⟨_, _, h⟩ | ⟨h, _⟩)
    · have := ((hC _ _).1 h).1.2
      rw [a0] at this
      norm_num at this
    · cases h
  · simp [sampleValue, value, exB, saveResults]
  · simp [sampleValue, value, exA, saveResults]

/-- C116, violation (3): of two chains, only the best iteration of the first counts.  The analysis succeeds, but the combined result keeps all iterations of the first chain, and the
best-fit value of "a" reported is that of the first iteration, which does not count and has a log-probability smaller by ten than the best. -/
theorem C116_stale_counterexample : ∃ i, analyse exOpts [exA, exFar] = .ok i ∧ (∀ r ∈ [exA, exFar], Shape 1 r) ∧
    i.bestFit exOpts "a" = some 5 ∧ sampleValue [exA, exFar] (0, 0, 0) "a" = 5 ∧ sampleLnprob [exA, exFar] (0, 0, 0) = -10 ∧ ¬ Counts 1 [exA, exFar] none exA 0 ∧
    (∃ p, i.combined.get "a" = some p ∧ p.flat = [5, 1]) ∧ i.combined.lnprobs.flatten = [0] ∧ i.chain.length = 1 := by
  classical
  obtain ⟨a0, a1, aT⟩ := avg_exA
  obtain ⟨b0, bT⟩ := avg_exFar
  have hsh : ∀ r ∈ [exA, exFar], Shape 1 r := by
    intro r hr
    simp only [List.mem_cons, List.not_mem_nil, or_false] at hr
    rcases hr with rfl | rfl
    · exact shape_exA
    · exact shape_exFar
  obtain ⟨i, hi⟩ := C116_succeeds (o := exOpts) (loaded := [exA, exFar]) Nat.one_pos hsh (by simp)
    (by intro r hr; simp only [List.mem_cons, List.not_mem_nil, or_false] at hr; rcases hr with rfl | rfl <;> simp [aT, bT])
    (by
      intro r hr c0 hc0
      simp only [List.head?_cons, Option.some.injEq] at hc0
      subst hc0
      simp only [List.mem_cons, List.not_mem_nil, or_false] at hr
      refine ⟨?_, ?_, by simp [exA, saveResults], by simp [exA, saveResults, exOpts]⟩
      · rcases hr with rfl | rfl
        · exact .refl _
        · exact .refl _
      · rcases hr with rfl | rfl
        · exact .refl _
        · exact .refl _) rfl rfl
  refine ⟨i, hi, hsh, ?_⟩
  obtain ⟨chains, mn, raw, hr, he, ht, hm, hmn, hne, hraw, hcomb, hst, hacc, hR, hch⟩ := analyse_ok hi
  have hchains : chains = [exA, exFar] := by
    have : recover [exA, exFar] = .ok [exA, exFar] := by
      unfold recover
      dsimp only
      have hv : exFar.verify exA.free exA.cons = some exFar := verify_same exFar
      rw [List.mapM_cons, hv]
      rfl
    rw [this] at hr
    exact (Except.ok.inj hr).symm
  subst hchains
  have hA : iterMean exA = [-10, 0] := by simp [iterMean, exA, saveResults, mean, List.range_succ]
  have hF : iterMean exFar = [-100] := by simp [iterMean, exFar, saveResults, mean, List.range_succ]
  have hmn0 : mn = 0 := by
    have : minMinusLkl [exA, exFar] = some 0 := by
      unfold minMinusLkl
      rw [List.mapM_cons, List.mapM_cons, hA, hF]
      simp [maxOf, minOf]
    rw [this] at hm
    exact (Option.some.inj hm).symm
  subst hmn0
  have hmA : mask 0 none exA = [false, true] := by
    unfold mask cutoff
    rw [hA]
    simp
    norm_num
  have hmF : mask 0 none exFar = [false] := by
    unfold mask cutoff
    rw [hF]
    simp
    norm_num
  have hb : exOpts.burnin = none := rfl
  have hnew : newResults 0 exOpts.burnin [exA, exFar] = [onIterations (fun l => select [false, true] l) exA] := by
    unfold newResults
    simp [hb, hmA, hmF]
  rw [hnew] at hcomb
  have hc : i.combined = (onIterations (fun l => select [false, true] l) exA).setBurnin 0 := (Except.ok.inj hcomb).symm
  have hln : i.combined.lnprobs.flatten = [0] := by
    rw [hc]
    simp [Emcee.setBurnin, onIterations, exA, saveResults, select]
  have hget : ∃ p, i.combined.get "a" = some p ∧ p.flat = [5, 1] := by
    rw [hc, get_setBurnin]
    have h1 : (onIterations (fun l => select [false, true] l) exA).get "a" = exA.get "a" := rfl
    have h2 : exA.get "a" = some (Param.new (column [[[5, 6], [1, 2]]] 0)) := by
      simp [Emcee.get, exA, saveResults]
    rw [h1, h2]
    exact ⟨_, rfl, by simp [Param.flat, Param.setBurnin, Param.new, column]⟩
  have hstep := C116_steps Nat.one_pos hsh hi (by
    intro c0 hc0
    simp only [List.head?_cons, Option.some.injEq] at hc0
    subst hc0
    have : ("a" : String) ≤ "b" := by decide
    simp only [exA, saveResults]
    simp [this])
  have hacc1 : i.accepted = 1 := by
    rw [hacc]
    simp [hb, hmA, hmF]
  refine ⟨?_, by simp [sampleValue, value, exA, saveResults], by simp [sampleLnprob, lnprob, exA, saveResults], ?_, hget, hln, by rw [hstep.2.2, hacc1]⟩
  · obtain ⟨p, hp, hflat⟩ := hget
    unfold Info.bestFit
    rw [hp, hln]
    have : argmax [0] = 0 := by
      unfold argmax
      simp
    simp only [this, hflat]
    simp [exOpts]
  · rintro ⟨h1, _⟩
    have := h1 exA (by simp) 1 (by rw [aT]; norm_num)
    rw [a0, a1] at this
    norm_num at this

/-- C116, violation (4): names of the first chain not in alphabetical order; the columns of the table are then labelled with the wrong names. -/
theorem C116_order_counterexample : ∃ i, analyse exOpts [exB] = .ok i ∧ Shape 1 exB ∧ i.names = ["a", "b", "c"] ∧ i.chain = [[3, 4, 20]] ∧
    sampleValue [exB] (0, 0, 0) "a" = 4 ∧ sampleValue [exB] (0, 0, 0) "b" = 3 := by
  classical
  obtain ⟨b0, bT⟩ := avg_exB
  have hsh : ∀ r ∈ [exB], Shape 1 r := by
    intro r hr
    rw [List.mem_singleton] at hr
    subst hr
    exact shape_exB
  obtain ⟨i, hi⟩ := C116_succeeds (o := exOpts) (loaded := [exB]) Nat.one_pos hsh (by simp)
    (by intro r hr; rw [List.mem_singleton] at hr; subst hr; simp [bT])
    (by
      intro r hr c0 hc0
      simp only [List.head?_cons, Option.some.injEq] at hc0
      rw [List.mem_singleton] at hr
      subst hc0 hr
      exact ⟨.refl _, .refl _, by simp [exB, saveResults], by simp [exB, saveResults, exOpts]⟩) rfl rfl
  refine ⟨i, hi, shape_exB, ?_⟩
  obtain ⟨chains, mn, raw, hr, he, ht, hm, hmn, hne, hraw, hcomb, hst, hacc, hR, hch⟩ := analyse_ok hi
  have hchains : chains = [exB] := (Except.ok.inj hr).symm
  subst hchains
  obtain ⟨c0, hc0, hfc, _, _⟩ := extract_ok he
  simp only [List.head?_cons, Option.some.injEq] at hc0
  subst hc0
  obtain ⟨hf, hc⟩ := Prod.mk.injEq _ _ _ _ ▸ hfc
  have hf2 : i.free = ["a", "b"] := by
    rw [hf]
    have h1 : (sortNames exB.free).Perm ["a", "b"] := (sortNames_perm _).trans (List.Perm.swap _ _ _)
    have hab : ("a" : String) ≤ "b" := by decide
    exact h1.eq_of_pairwise (fun a b _ _ h1 h2 => String.le_antisymm h1 h2) (sortNames_sorted _) (by simp [hab])
  have hc2 : i.cons = ["c"] := by
    rw [hc]
    exact List.perm_singleton.1 (sortNames_perm _)
  have hB : iterMean exB = [-1] := by simp [iterMean, exB, saveResults, mean, List.range_succ]
  have hmn0 : mn = 1 := by
    have : minMinusLkl [exB] = some 1 := by
      unfold minMinusLkl
      rw [List.mapM_cons, hB]
      simp [maxOf, minOf]
    rw [this] at hm
    exact (Option.some.inj hm).symm
  subst hmn0
  have hmB : mask 1 none exB = [true] := by
    unfold mask cutoff
    rw [hB]
    simp
  have hb : exOpts.burnin = none := rfl
  have hnew : newResults 1 exOpts.burnin [exB] =
      (List.range 3).map fun i => onIterations (fun l => every3 i l) (onIterations (fun l => select [true] l) exB) := by
    unfold newResults
    simp [hb, hmB]
  have hraw2 : raw = [[[3, 4, 20]], [], []] := by
    rw [hnew, hc2] at hraw
    have : ((List.range 3).map fun i => onIterations (fun l => every3 i l) (onIterations (fun l => select [true] l) exB)).mapM (rows ["c"]) = .ok [[[3, 4, 20]], [], []] := by
      rw [mapM_ok]
      refine .cons ?_ (.cons ?_ (.cons ?_ .nil)) <;>
        simp [rows, onIterations, exB, saveResults, every3, select, field]
    rw [this] at hraw
    exact (Except.ok.inj hraw).symm
  refine ⟨by simp [Info.names, hf2, hc2], ?_, by simp [sampleValue, value, exB, saveResults], by simp [sampleValue, value, exB, saveResults]⟩
  rw [hch, hraw2, hf2, hc2]
  simp [scaleRows, paramIndex, exOpts]

/-- C116, violation (5): what is reported as the minimum of minus the log-likelihood, and goes into the reduced chi-squared, need not be the value of any sample: two walkers with
log-probabilities `0` and `-2` give `1`. -/
theorem C116_minimum_counterexample : ∃ (r : Emcee) (i : Info), Shape 2 r ∧ analyse exOpts [r] = .ok i ∧ i.minMinus = 1 ∧ lnprob r 0 0 = 0 := by
  let r : Emcee := saveResults ⟨["a"], ["c"], [[[1]], [[2]]], some [("c", [[3], [4]])], [[0], [-2]], 0, []⟩
  have hsr : Shape 2 r := by
    refine ⟨rfl, ?_, ?_, rfl, ?_, ⟨_, rfl, ?_⟩, ?_⟩
    · simp [r, saveResults, iters]
    · simp [r, saveResults]
    · simp [r, saveResults, iters]
    · intro name hn
      simp only [r, saveResults, List.mem_singleton] at hn
      subst hn
      exact ⟨_, rfl, rfl, by simp [r, saveResults, iters]⟩
    · simp [r, saveResults]
  have hit : iters r = 1 := by simp [r, saveResults, iters]
  have hsh : ∀ q ∈ [r], Shape 2 q := by
    intro q hq
    rw [List.mem_singleton] at hq
    subst hq
    exact hsr
  obtain ⟨i, hi⟩ := C116_succeeds (o := exOpts) (loaded := [r]) Nat.two_pos hsh (by simp)
    (by intro q hq; rw [List.mem_singleton] at hq; subst hq; simp [hit])
    (by
      intro q hq c0 hc0
      simp only [List.head?_cons, Option.some.injEq] at hc0
      rw [List.mem_singleton] at hq
      subst hc0 hq
      exact ⟨.refl _, .refl _, by simp [r, saveResults], by simp [r, saveResults, exOpts]⟩) rfl rfl
  refine ⟨r, i, hsr, hi, ?_, by simp [lnprob, r, saveResults]⟩
  obtain ⟨_, ⟨q, hq, t, ht, hmin⟩, _⟩ := C116_minimum Nat.two_pos hsh hi
  rw [List.mem_singleton] at hq
  subst hq
  rw [hit] at ht
  have : t = 0 := by omega
  subst this
  rw [hmin]
  simp [average, lnprob, r, saveResults, Finset.sum_range_succ]

/-! ### Reported numbers -/

/-- C116 (table): in the table of best-fit parameters the columns other than `lt_2sigma` and `gt_2sigma` hold what they say: half the width of the one-sigma interval, the bounds relative
to the median, the bounds of the one-sigma interval (`gt` the lower, `lt` the upper). -/
theorem C116_table_partial (scale R best median : ℝ) (b1 b2 : ℝ × ℝ) :
    let t := tableRow scale R best median b1 b2
    t.lookup "scale" = some scale ∧ t.lookup "R" = some R ∧ t.lookup "best_fit" = some best ∧ t.lookup "median" = some median ∧
    t.lookup "sigma" = some ((b1.2 - b1.1) / 2) ∧ t.lookup "lower_1sigma" = some b1.1 ∧ t.lookup "upper_1sigma" = some b1.2 ∧
    t.lookup "lower_2sigma" = some b2.1 ∧ t.lookup "upper_2sigma" = some b2.2 ∧ t.lookup "gt_1sigma" = some (median + b1.1) ∧ t.lookup "lt_1sigma" = some (median + b1.2) := by
  refine ⟨rfl, rfl, rfl, rfl, ?_, rfl, rfl, rfl, rfl, rfl, rfl⟩
  show some _ = some _
  congr 1
  ring

/-- C116, violation (6): the columns of the two-sigma interval are exchanged: `gt_2sigma` is the upper end and `lt_2sigma` the lower end. -/
theorem C116_table_counterexample : ∃ scale R best median : ℝ, ∃ b1 b2 : ℝ × ℝ, ∃ gt lt, (tableRow scale R best median b1 b2).lookup "gt_2sigma" = some gt ∧
    (tableRow scale R best median b1 b2).lookup "lt_2sigma" = some lt ∧ gt = median + b2.2 ∧ lt = median + b2.1 ∧ lt < gt := by
  refine ⟨1, 1, 1, 1, (-1, 1), (-2, 2), _, _, rfl, rfl, rfl, rfl, ?_⟩
  norm_num

/-- C116 (table of one chain): all columns but `lt_2sigma` hold what they say. -/
theorem C116_mcmc_table_partial (best median : ℝ) (s1 s2 : ℝ × ℝ) (h1 : s1.1 ≤ 0) :
    let t := mcmcRow best median s1 s2
    t.lookup "best_fit" = some best ∧ t.lookup "median" = some median ∧ t.lookup "sigma" = some ((s1.2 - s1.1) / 2) ∧ t.lookup "lower_1sigma" = some s1.1 ∧
    t.lookup "upper_1sigma" = some s1.2 ∧ t.lookup "lower_2sigma" = some s2.1 ∧ t.lookup "upper_2sigma" = some s2.2 ∧ t.lookup "gt_1sigma" = some (median + s1.1) ∧
    t.lookup "lt_1sigma" = some (median + s1.2) ∧ t.lookup "gt_2sigma" = some (median + s2.1) := by
  refine ⟨rfl, rfl, ?_, rfl, rfl, rfl, rfl, rfl, rfl, rfl⟩
  show some _ = some _
  rw [abs_of_nonpos h1]
  congr 1
  ring

/-- C116, violation (7): the upper end of the two-sigma interval in the table made from one chain is the lower end. -/
theorem C116_mcmc_table_counterexample (best median : ℝ) (s1 s2 : ℝ × ℝ) : (mcmcRow best median s1 s2).lookup "lt_2sigma" = some (median + s2.1) := rfl

/-- C116 (rescaling of the errors): with more mocks than bins plus four, the errors are enlarged exactly if the condition holds (in particular with two or more mocks to spare and bins outnumbering
twice the parameters by two). -/
theorem C116_rescaling {Nb Ns Np : ℝ} (hN : Nb + 4 < Ns) (hp : 0 ≤ Np) :
    1 ≤ errorRescaling Nb Ns Np ↔ 2 ≤ (Ns - Nb - 2) * (Nb - 2 * Np - 1) := by
  unfold errorRescaling
  have h1 : 0 < Ns - Nb - 1 := by linarith
  have h4 : 0 < Ns - Nb - 4 := by linarith
  have h2 : 0 < Ns - Nb - 2 := by linarith
  have hA : 0 < 2 / (Ns - Nb - 1) / (Ns - Nb - 4) := by positivity
  have hB : 0 < (Ns - Nb - 2) / (Ns - Nb - 1) / (Ns - Nb - 4) := by positivity
  dsimp only
  have hD : 0 < 1 + 2 / (Ns - Nb - 1) / (Ns - Nb - 4) + (Ns - Nb - 2) / (Ns - Nb - 1) / (Ns - Nb - 4) * (Np + 1) := by positivity
  rw [Real.one_le_sqrt, one_le_div hD]
  have e : (1 + (Ns - Nb - 2) / (Ns - Nb - 1) / (Ns - Nb - 4) * (Nb - Np)) - (1 + 2 / (Ns - Nb - 1) / (Ns - Nb - 4) + (Ns - Nb - 2) / (Ns - Nb - 1) / (Ns - Nb - 4) * (Np + 1)) =
      ((Ns - Nb - 2) * (Nb - 2 * Np - 1) - 2) / ((Ns - Nb - 1) * (Ns - Nb - 4)) := by
    field_simp
    ring
  rw [← sub_nonneg, e, le_div_iff₀ (by positivity), zero_mul, sub_nonneg]

/-- C116 (rescaling of the errors): with more and more mocks the factor tends to one. -/
theorem C116_rescaling_limit (Nb Np : ℝ) : Filter.Tendsto (fun Ns => errorRescaling Nb Ns Np) Filter.atTop (nhds 1) := by
  have t1 : Filter.Tendsto (fun Ns : ℝ => Ns - Nb - 1) Filter.atTop Filter.atTop := by
    have := Filter.tendsto_atTop_add_const_right Filter.atTop (-Nb - 1) Filter.tendsto_id
    refine this.congr fun x => ?_
    simp only [id]; ring
  have t4 : Filter.Tendsto (fun Ns : ℝ => Ns - Nb - 4) Filter.atTop Filter.atTop := by
    have := Filter.tendsto_atTop_add_const_right Filter.atTop (-Nb - 4) Filter.tendsto_id
    refine this.congr fun x => ?_
    simp only [id]; ring
  have i1 := t1.inv_tendsto_atTop
  have i4 := t4.inv_tendsto_atTop
  have hA : Filter.Tendsto (fun Ns : ℝ => 2 / (Ns - Nb - 1) / (Ns - Nb - 4)) Filter.atTop (nhds 0) := by
    have := (i1.const_mul 2).mul i4
    simp only [mul_zero] at this
    refine this.congr fun x => ?_
    simp only [Pi.inv_apply, div_eq_mul_inv]
  have hB : Filter.Tendsto (fun Ns : ℝ => (Ns - Nb - 2) / (Ns - Nb - 1) / (Ns - Nb - 4)) Filter.atTop (nhds 0) := by
    have := ((tendsto_const_nhds (x := (1 : ℝ))).sub i1).mul i4
    simp only [sub_zero, mul_zero] at this
    refine this.congr' ?_
    filter_upwards [Filter.eventually_gt_atTop (Nb + 4)] with x hx
    have h1 : x - Nb - 1 ≠ 0 := by intro h; linarith
    have h4 : x - Nb - 4 ≠ 0 := by intro h; linarith
    simp only [Pi.inv_apply]
    field_simp
    ring
  have hn := (hB.mul_const (Nb - Np)).const_add 1
  have hd := ((hA.const_add 1).add (hB.mul_const (Np + 1)))
  have hq := hn.div hd (by norm_num)
  have hs := (Real.continuous_sqrt.tendsto _).comp hq
  have e : Real.sqrt ((1 + 0 * (Nb - Np)) / (1 + 0 + 0 * (Np + 1))) = 1 := by norm_num
  rw [e] at hs
  exact hs

/-- C116, violation (8): without a number of mocks (`covariance_Nmocks = 0`, the default) the requested rescaling shrinks the errors: for 100 bins and 10 parameters by more than half. -/
theorem C116_rescaling_counterexample : errorRescaling 100 0 10 < 1 / 2 ∧ 0 < errorRescaling 100 0 10 := by
  unfold errorRescaling
  refine ⟨?_, Real.sqrt_pos.2 (by norm_num)⟩
  rw [Real.sqrt_lt' (by norm_num)]
  norm_num

end

end Verif.Analysis
