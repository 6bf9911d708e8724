/-
C116: the combined result, the best fit, the smallest value of minus the log-probability, when an analysis succeeds.
-/
import Verif.Props.Analysis

namespace Verif.Analysis

open Verif.Results Verif.Converge Verif.Analysis.Spec

noncomputable section

theorem get_setBurnin (r : Emcee) (name : String) : (r.setBurnin 0).get name = (r.get name).map fun p => p.setBurnin 0 := by
  unfold Emcee.setBurnin Emcee.get
  simp only [not_lt_zero, if_false, gt_iff_lt]
  rw [lookup_zip r.results (fun p => p.2.setBurnin 0) name]

theorem traceOf_rep {ι : Type} (val : ι → String → ℝ) (lp : ι → ℝ) (r : Emcee) (G : List (List ι)) (h : Rep val lp r G) (name : String) (hn : name ∈ r.free ++ r.cons) :
    traceOf r name = some (G.map fun l => l.map fun s => val s name) := by
  unfold traceOf
  by_cases hf : name ∈ r.free
  · rw [if_pos hf, h.chain]
    unfold column
    simp only [List.map_map, Option.some.injEq]
    refine List.map_congr_left fun l _ => ?_
    simp only [Function.comp, List.map_map]
    refine List.map_congr_left fun s _ => ?_
    simp only [Function.comp]
    exact getD_idxOf _ _ _ hf
  · have hc : name ∈ r.cons := (List.mem_append.1 hn).resolve_left hf
    obtain ⟨c, hcc, hl⟩ := h.cons
    rw [if_neg hf, hcc]
    simp only [if_pos hc, field, hl name hc, Option.getD_some]

/-- C116 (combined result): the combined result — of which medians, errors and plots are made — has for every parameter, by name, the values of exactly the samples that count, in one
common order with the log-probabilities, with no burn-in left to remove.  Missing: if several files are given but only one of the chains has anything that counts, see
`C116_stale_counterexample`. -/
theorem C116_combined_partial {W : ℕ} (hW : 0 < W) {o : Options} {loaded : List Emcee} (hs : ∀ r ∈ loaded, Shape W r) {i : Info} (h : analyse o loaded = .ok i)
    (htwo : loaded.length = 1 ∨ ∃ s ∈ counted W loaded o.burnin, ∃ s' ∈ counted W loaded o.burnin, s.1 ≠ s'.1) :
    ∃ L : List (ℕ × ℕ × ℕ), L.Perm (counted W loaded o.burnin) ∧ L ≠ [] ∧ i.combined.lnprobs.flatten = L.map (sampleLnprob loaded) ∧
      ∀ name ∈ i.names, ∃ p, i.combined.get name = some p ∧ p.burnin = 0 ∧ p.flat = L.map fun s => sampleValue loaded s name := by
  obtain ⟨c0, chains, ps, h0, hf, hc, _, _, _, _, _, hps, hperm, h3, hne, hsev, hcomb, _, _, _⟩ := run_core hW hs h
  cases ps with
  | nil => exact absurd rfl hne
  | cons p rest =>
    have hrest : rest ≠ [] := by
      intro hr
      subst hr
      rcases htwo with hl | ⟨s, hs1, s', hs1', hss⟩
      · have := h3 hl; simp at this
      · obtain ⟨c, hcs⟩ := (hps p (by simp)).2.2.2.2
        have hm : ∀ x ∈ counted W loaded o.burnin, x.1 = c := by
          intro x hx
          have := hperm.mem_iff.2 hx
          simp only [List.map_cons, List.map_nil, List.flatten_cons, List.flatten_nil, List.append_nil] at this
          exact hcs x this
        exact hss ((hm s hs1).trans (hm s' hs1').symm)
    obtain ⟨hp1, hp2, hp3, hp4, _⟩ := hps p (by simp)
    obtain ⟨r, K, hr, hK, hrf, hrc, hKW, hKp, hgood, _⟩ := rep_fold (sampleValue loaded) (sampleLnprob loaded) W c0.free c0.cons rest
      (fun q hq => by
        obtain ⟨q1, q2, q3, q4, _⟩ := hps q (List.mem_cons_of_mem _ hq)
        exact ⟨q1, q2, q3, q4⟩) p.1 p.2 hp1 hp2 hp3 hp4
    have hgr := hgood hrest
    rw [List.map_cons] at hcomb
    unfold combine at hcomb
    dsimp only at hcomb
    rw [hr] at hcomb
    simp only [Except.ok.injEq] at hcomb
    have hKperm : K.flatten.Perm (counted W loaded o.burnin) := by
      refine hKp.trans (List.Perm.trans ?_ hperm)
      rw [List.map_cons, List.flatten_cons]
    have hfirst : counted W loaded o.burnin ≠ [] := by
      intro hnil
      have hl0 : (List.map (fun p : Emcee × List (List (ℕ × ℕ × ℕ)) => p.2.flatten) (p :: rest)).flatten = [] := by
        rw [hnil] at hperm
        exact hperm.eq_nil
      by_cases hl : loaded.length = 1
      · -- a chain of which nothing counts is dropped
        obtain ⟨chains', mn', raw', hr', he', ht', hm', hmn', hne', _⟩ := analyse_ok h
        obtain ⟨_, hp'⟩ := recover_paired W loaded chains' hs hr' c0 h0
        obtain ⟨ps', e1, _, _, _, e5, _⟩ := new_pairs hW hp' hm' o.burnin
        exact hne' (by rw [e1, e5.2 hnil]; rfl)
      · have h4 := hsev hl
        have h5 : p.2.flatten ∈ (loaded.zipIdx.map (countedOf W loaded o.burnin)).filter (· ≠ []) := by rw [← h4]; simp
        have h6 := (List.mem_filter.1 h5).2
        have h7 : p.2.flatten = [] := by
          rw [List.map_cons, List.flatten_cons, List.append_eq_nil_iff] at hl0
          exact hl0.1
        rw [h7] at h6
        simp at h6
    refine ⟨K.flatten, hKperm, fun hn => ?_, ?_, fun name hname => ?_⟩
    · rw [hn] at hKperm
      exact hfirst hKperm.symm.eq_nil
    · rw [← hcomb]
      have : (r.setBurnin 0).lnprobs = r.lnprobs := rfl
      rw [this, hK.lnp, List.map_flatten]
    · have hnm : name ∈ r.free ++ r.cons := by
        rw [hrf, hrc]
        unfold Info.names at hname
        rw [hf, hc] at hname
        exact ((sortNames_perm _).append (sortNames_perm _)).mem_iff.1 hname
      have htr := traceOf_rep _ _ r K hK name hnm
      have hg := hgr name
      rw [htr] at hg
      obtain ⟨q, hq, hqt⟩ := Option.map_eq_some_iff.1 hg
      refine ⟨q.setBurnin 0, ?_, rfl, ?_⟩
      · rw [← hcomb, get_setBurnin, hq]; rfl
      · unfold Param.flat Param.setBurnin
        simp only [hqt]
        rw [List.map_flatten, show (List.drop 0 : List ℝ → List ℝ) = id from rfl, List.map_id]

theorem argmax_spec (l : List ℝ) (h : l ≠ []) : ∃ hk : argmax l < l.length, ∀ y ∈ l, y ≤ l[argmax l] := by
  classical
  obtain ⟨m, hm, hmax⟩ : ∃ m ∈ l, ∀ y ∈ l, y ≤ m := by
    cases l with
    | nil => exact absurd rfl h
    | cons x xs => exact ⟨_, (foldl_max xs x).1, (foldl_max xs x).2⟩
  have hlt : argmax l < l.length := by
    unfold argmax
    exact List.findIdx_lt_length_of_exists ⟨m, hm, by simpa using hmax⟩
  refine ⟨hlt, ?_⟩
  unfold argmax at hlt ⊢
  have := List.findIdx_getElem (w := hlt)
  simpa only [decide_eq_true_eq] using this

/-- C116 (best fit): the best-fit values of all parameters are those of one and the same sample, a sample that counts with the largest log-probability of all samples that count, each
divided by the scale of the parameter.  Missing: as for `C116_combined_partial`. -/
theorem C116_bestfit_partial {W : ℕ} (hW : 0 < W) {o : Options} {loaded : List Emcee} (hs : ∀ r ∈ loaded, Shape W r) {i : Info} (h : analyse o loaded = .ok i)
    (htwo : loaded.length = 1 ∨ ∃ s ∈ counted W loaded o.burnin, ∃ s' ∈ counted W loaded o.burnin, s.1 ≠ s'.1) :
    ∃ s ∈ counted W loaded o.burnin, (∀ s' ∈ counted W loaded o.burnin, sampleLnprob loaded s' ≤ sampleLnprob loaded s) ∧
      ∀ name ∈ i.names, i.bestFit o name = some (sampleValue loaded s name / o.scale name) := by
  obtain ⟨L, hL, hne, hln, hget⟩ := C116_combined_partial hW hs h htwo
  obtain ⟨hk, hmax⟩ := argmax_spec (L.map (sampleLnprob loaded)) (by simpa using hne)
  have hk' : argmax (L.map (sampleLnprob loaded)) < L.length := by simpa using hk
  refine ⟨L[argmax (L.map (sampleLnprob loaded))], hL.mem_iff.1 (List.getElem_mem _), fun s' hs' => ?_, fun name hname => ?_⟩
  · have := hmax (sampleLnprob loaded s') (List.mem_map.2 ⟨s', hL.mem_iff.2 hs', rfl⟩)
    rwa [List.getElem_map] at this
  · obtain ⟨p, hp, _, hflat⟩ := hget name hname
    unfold Info.bestFit
    rw [hp, hln]
    simp only [hflat, List.getElem?_map, List.getElem?_eq_getElem hk', Option.map_some]

/-- C116 (smallest minus log-probability): the number reported as the minimum of minus the log-likelihood is the smallest average over the walkers; some sample has a value at most as
large. -/
theorem C116_minimum {W : ℕ} (hW : 0 < W) {o : Options} {loaded : List Emcee} (hs : ∀ r ∈ loaded, Shape W r) {i : Info} (h : analyse o loaded = .ok i) :
    (∀ r ∈ loaded, ∀ t < iters r, i.minMinus ≤ -average W r t) ∧ (∃ r ∈ loaded, ∃ t < iters r, i.minMinus = -average W r t) ∧
    ∃ r ∈ loaded, ∃ w < W, ∃ t < iters r, -lnprob r w t ≤ i.minMinus := by
  obtain ⟨c0, chains, ps, h0, hf, hc, _, _, hp, hm, _⟩ := run_core hW hs h
  obtain ⟨h1, r, hr, t, ht, h2⟩ := minMinus_loaded hW hp hm
  refine ⟨fun r hr t ht => by have := h1 r hr t ht; linarith, ⟨r, hr, t, ht, by linarith⟩, r, hr, ?_⟩
  by_contra hcon
  push Not at hcon
  have hlt : ∀ w ∈ Finset.range W, lnprob r w t < average W r t := by
    intro w hw
    have := hcon w (Finset.mem_range.1 hw) t ht
    linarith
  have hsum := Finset.sum_lt_sum_of_nonempty (by simpa using hW.ne') hlt
  rw [Finset.sum_const, Finset.card_range, nsmul_eq_mul] at hsum
  unfold average at hsum
  rw [mul_div_cancel₀ _ (by positivity)] at hsum
  exact lt_irrefl _ hsum

/-! ### When an analysis succeeds -/

/-- C116 (success): chains written by the solver, with the same free and constrained parameters in whatever order, at least one constrained parameter and one iteration, are analysed
without error when no burn-in fraction and no thinning is asked for: the best iteration always counts. -/
theorem C116_succeeds {W : ℕ} (hW : 0 < W) {o : Options} {loaded : List Emcee} (hs : ∀ r ∈ loaded, Shape W r) (hne : loaded ≠ []) (hit : ∀ r ∈ loaded, 0 < iters r)
    (hnames : ∀ r ∈ loaded, ∀ c0, loaded.head? = some c0 → r.free.Perm c0.free ∧ r.cons.Perm c0.cons ∧ c0.cons ≠ [] ∧ ∀ n ∈ c0.free ++ c0.cons, n ∈ o.tex)
    (hb : o.burnin = none) (hthin : o.thin = 1) : ∃ i, analyse o loaded = .ok i := by
  classical
  obtain ⟨c0, cs, rfl⟩ : ∃ c0 cs, loaded = c0 :: cs := by
    cases loaded with
    | nil => exact absurd rfl hne
    | cons a l => exact ⟨a, l, rfl⟩
  -- the order of the names
  obtain ⟨cs', hcs'⟩ : ∃ cs', cs.mapM (fun r => r.verify c0.free c0.cons) = some cs' := by
    have : ∀ l : List Emcee, (∀ r ∈ l, r.free.Perm c0.free ∧ r.cons.Perm c0.cons) → ∃ l', l.mapM (fun r => r.verify c0.free c0.cons) = some l' := by
      intro l
      induction l with
      | nil => intro _; exact ⟨[], rfl⟩
      | cons r l ih =>
        intro hl
        obtain ⟨l', hl'⟩ := ih fun q hq => hl q (List.mem_cons_of_mem _ hq)
        obtain ⟨q1, q2⟩ := hl r (by simp)
        obtain ⟨r', hr'⟩ : ∃ r', r.verify c0.free c0.cons = some r' := by
          unfold Emcee.verify
          rw [if_neg (not_not.2 q1), if_neg (not_not.2 q2)]
          dsimp only
          split
          · exact ⟨_, rfl⟩
          · exact ⟨_, rfl⟩
        exact ⟨r' :: l', by rw [List.mapM_cons, hr', hl']; rfl⟩
    exact this cs fun r hr => ⟨(hnames r (List.mem_cons_of_mem _ hr) c0 rfl).1, (hnames r (List.mem_cons_of_mem _ hr) c0 rfl).2.1⟩
  have hrec : recover (c0 :: cs) = .ok (c0 :: cs') := by
    unfold recover
    dsimp only
    rw [hcs']
  obtain ⟨_, hp⟩ := recover_paired W (c0 :: cs) (c0 :: cs') hs hrec c0 rfl
  have hch : ∀ r ∈ c0 :: cs', r.free = c0.free ∧ r.cons = c0.cons := by
    intro r hr
    obtain ⟨rc, _, hpr⟩ := forall₂_mem_right hp r hr
    exact ⟨hpr.2.2.1, hpr.2.2.2⟩
  obtain ⟨_, _, hcons, htex⟩ := hnames c0 (by simp) c0 rfl
  obtain ⟨cc, hcc, _⟩ := (hs c0 (by simp)).cons
  have hext : extract o.tex (c0 :: cs') = .ok (sortNames c0.free, sortNames c0.cons) := by
    unfold extract
    dsimp only
    rw [if_neg (by rintro ⟨r, hr, hn⟩; exact hn (by rw [(hch r hr).1])), if_neg (by rintro ⟨r, hr, hn⟩; exact hn (by rw [(hch r hr).2])),
      if_neg (by rw [hcc]; simp), if_neg]
    rintro ⟨n, hn, hn2⟩
    exact hn2 (htex n (((sortNames_perm _).append (sortNames_perm _)).mem_iff.1 hn))
  obtain ⟨mn, hmn⟩ : ∃ mn, minMinusLkl (c0 :: cs') = some mn := by
    refine minMinus_some _ (by simp) fun r hr => ?_
    obtain ⟨rc, _, hpr⟩ := forall₂_mem_right hp r hr
    rw [(paired_mean hW hpr).1]
    have := hit rc.1 (List.mem_of_getElem? hpr.1)
    intro hn
    rw [List.map_eq_nil_iff, List.range_eq_nil] at hn
    omega
  obtain ⟨ps, e1, e2, e3, e4, e5, e6⟩ := new_pairs hW hp hmn o.burnin
  -- the best iteration counts
  have hps : ps ≠ [] := by
    intro h0
    have hnil := e5.1 h0
    obtain ⟨h1, r, hr, t, ht, h2⟩ := minMinus_loaded hW hp hmn
    obtain ⟨c, hc, he⟩ := List.getElem_of_mem hr
    have hmem : (c, 0, t) ∈ counted W (c0 :: cs) o.burnin := by
      unfold counted countedOf
      rw [List.mem_flatMap]
      refine ⟨(r, c), List.mem_zipIdx_iff_getElem?.2 (by rw [List.getElem?_eq_getElem hc, he]), ?_⟩
      rw [List.mem_flatMap]
      refine ⟨0, List.mem_range.2 hW, List.mem_map.2 ⟨t, List.mem_filter.2 ⟨List.mem_range.2 ht, ?_⟩, rfl⟩⟩
      rw [decide_eq_true_eq]
      refine ⟨fun r' hr' t' ht' => ?_, fun b hb' => by rw [hb] at hb'; cases hb'⟩
      have := h1 r' hr' t' ht'
      linarith
    rw [hnil] at hmem
    cases hmem
  have hsc : sortNames c0.cons ≠ [] := by
    intro hn
    have := sortNames_perm c0.cons
    rw [hn] at this
    exact hcons this.symm.eq_nil
  obtain ⟨raw, hraw⟩ : ∃ raw, (newResults mn o.burnin (c0 :: cs')).mapM (rows (sortNames c0.cons)) = .ok raw := by
    rw [e1]
    refine ⟨ps.map fun p => p.2.flatten.map fun s => (p.1.free ++ sortNames c0.cons).map (sampleValue (c0 :: cs) s), ?_⟩
    rw [mapM_ok]
    clear e1 e3 e4 e5 e6 hps
    induction ps with
    | nil => exact .nil
    | cons p ps ih =>
      refine .cons ?_ (ih fun q hq => e2 q (List.mem_cons_of_mem _ hq))
      obtain ⟨q1, q2, q3, _, _⟩ := e2 p (by simp)
      exact rep_rows _ _ p.1 p.2 q1 _ hsc fun n hn => by rw [q3]; exact (sortNames_perm _).mem_iff.1 hn
  obtain ⟨comb, hcomb⟩ : ∃ comb, combine (newResults mn o.burnin (c0 :: cs')) = .ok comb := by
    rw [e1]
    cases ps with
    | nil => exact absurd rfl hps
    | cons p rest =>
      obtain ⟨hp1, hp2, hp3, hp4, _⟩ := e2 p (by simp)
      obtain ⟨r, K, hr, _⟩ := rep_fold (sampleValue (c0 :: cs)) (sampleLnprob (c0 :: cs)) W c0.free c0.cons rest
        (fun q hq => by
          obtain ⟨q1, q2, q3, q4, _⟩ := e2 q (List.mem_cons_of_mem _ hq)
          exact ⟨q1, q2, q3, q4⟩) p.1 p.2 hp1 hp2 hp3 hp4
      refine ⟨r.setBurnin 0, ?_⟩
      rw [List.map_cons]
      unfold combine
      dsimp only
      rw [hr]
  have hnew : newResults mn o.burnin (c0 :: cs') ≠ [] := by
    rw [e1]
    simpa using hps
  unfold analyse
  rw [hrec]
  simp only [bind, Except.bind]
  rw [hext]
  simp only [hthin, hmn, hraw, hcomb, if_neg hnew, ne_eq, not_true_eq_false, if_false]
  exact ⟨_, rfl⟩

/-- C116, violation (1): thinning never works. -/
theorem C116_thin_counterexample (o : Options) (h : o.thin ≠ 1) (loaded : List Emcee) (i : Info) : analyse o loaded ≠ .ok i := by
  intro hi
  obtain ⟨_, _, _, _, _, ht, _⟩ := analyse_ok hi
  exact h ht

/-- C116, violation (2): chains of a model without constrained parameters cannot be analysed. -/
theorem C116_no_constrained_counterexample (o : Options) (loaded : List Emcee) (h : ∀ r ∈ loaded, r.cons = []) (i : Info) : analyse o loaded ≠ .ok i := by
  intro hi
  obtain ⟨chains, mn, raw, hr, he, ht, hm, hmn, hne, hraw, hrest⟩ := analyse_ok hi
  obtain ⟨c0, hc0, hfc, _, _⟩ := extract_ok he
  obtain ⟨hf, hc⟩ := Prod.mk.injEq _ _ _ _ ▸ hfc
  have hc0l : c0.cons = [] := by
    cases loaded with
    | nil => cases hr; cases hc0
    | cons a l =>
      unfold recover at hr
      dsimp only at hr
      split at hr
      · cases hr
      · cases hr
        cases hc0
        exact h _ (by simp)
  have hcons : i.cons = [] := by
    rw [hc, hc0l]
    exact (sortNames_perm []).eq_nil
  cases hn : newResults mn o.burnin chains with
  | nil => exact hne hn
  | cons r rs =>
    rw [hn] at hraw
    cases (mapM_ok _ _ _).1 hraw with
    | cons h1 _ =>
      unfold rows at h1
      split at h1
      · cases h1
      · rw [if_pos hcons] at h1; cases h1

end

end Verif.Analysis
