/-
C116: what the analysis of finished chains reports.
-/
import Verif.Lemmas.AnalysisRun

namespace Verif.Analysis

open Verif.Results Verif.Converge Verif.Analysis.Spec

noncomputable section

theorem bind_ok {α β ε : Type} {x : Except ε α} {f : α → Except ε β} {y : β} (h : x.bind f = .ok y) : ∃ a, x = .ok a ∧ f a = .ok y := by
  cases x with
  | error e => cases h
  | ok a => exact ⟨a, rfl, h⟩

theorem extract_ok {tex : List String} {chains : List Emcee} {fc : List String × List String} (h : extract tex chains = .ok fc) :
    ∃ c0, chains.head? = some c0 ∧ fc = (sortNames c0.free, sortNames c0.cons) ∧ c0.consChain ≠ none ∧ ∀ n ∈ fc.1 ++ fc.2, n ∈ tex := by
  unfold extract at h
  cases chains with
  | nil => cases h
  | cons c cs =>
    dsimp only at h
    split at h
    · cases h
    split at h
    · cases h
    split at h
    · cases h
    rename_i hc
    split at h
    · cases h
    rename_i ht
    simp only [Except.ok.injEq] at h
    subst h
    refine ⟨c, rfl, rfl, hc, fun n hn => ?_⟩
    by_contra hcon
    exact ht ⟨n, hn, hcon⟩

/-- The steps of a successful analysis. -/
theorem analyse_ok {o : Options} {loaded : List Emcee} {i : Info} (h : analyse o loaded = .ok i) :
    ∃ chains mn raw, recover loaded = .ok chains ∧ extract o.tex chains = .ok (i.free, i.cons) ∧ o.thin = 1 ∧ minMinusLkl chains = some mn ∧ i.minMinus = mn ∧
      newResults mn o.burnin chains ≠ [] ∧ (newResults mn o.burnin chains).mapM (rows i.cons) = .ok raw ∧ combine (newResults mn o.burnin chains) = .ok i.combined ∧
      i.steps = (chains.map fun r => (mask mn o.burnin r).length).sum ∧ i.accepted = (chains.map fun r => ((mask mn o.burnin r).filter (·)).length).sum ∧
      i.R = ((List.range (i.free ++ i.cons).length).map fun d =>
        match gelmanRubin ((raw.map (scaleRows i.free i.cons o.scale)).map fun rs => rs.map fun row => row.getD d 0) with
          | .ok v => v
          | .error _ => none) ∧
      i.chain = ((raw.map (scaleRows i.free i.cons o.scale)).map fun rs => rs.map fun row => ((i.free ++ i.cons).map (paramIndex i.free i.cons)).map fun k => row.getD k 0).flatten := by
  unfold analyse at h
  obtain ⟨chains, hr, h⟩ := bind_ok h
  obtain ⟨fc, he, h⟩ := bind_ok h
  obtain ⟨free, cons⟩ := fc
  dsimp only at h
  split at h
  · cases h
  rename_i ht
  rw [not_not] at ht
  cases hm : minMinusLkl chains with
  | none => rw [hm] at h; cases h
  | some mn =>
    rw [hm] at h
    dsimp only at h
    split at h
    · cases h
    rename_i hne
    obtain ⟨raw, hraw, h⟩ := bind_ok h
    obtain ⟨comb, hcomb, h⟩ := bind_ok h
    simp only [Except.ok.injEq] at h
    subst h
    exact ⟨chains, mn, raw, hr, he, ht, hm, rfl, hne, hraw, hcomb, rfl, rfl, rfl, rfl⟩

theorem sortNames_perm (l : List String) : (sortNames l).Perm l := List.mergeSort_perm l _

theorem sortNames_of_sorted (l : List String) (h : l.Pairwise (· ≤ ·)) : sortNames l = l := by
  unfold sortNames
  apply List.mergeSort_of_pairwise
  exact h.imp fun hab => by simpa using hab

theorem sortNames_sorted (l : List String) : (sortNames l).Pairwise (· ≤ ·) := by
  unfold sortNames
  have := List.pairwise_mergeSort (le := fun a b : String => decide (a ≤ b)) (fun a b c hab hbc => by simp only [decide_eq_true_eq] at *; exact String.le_trans hab hbc)
    (fun a b => by simp only [Bool.or_eq_true, decide_eq_true_eq]; exact String.le_total a b) l
  exact this.imp fun hab => by simpa using hab

/-- A successful analysis of chains written by the solver. -/
theorem run_core {W : ℕ} (hW : 0 < W) {o : Options} {loaded : List Emcee} (hs : ∀ r ∈ loaded, Shape W r) {i : Info} (h : analyse o loaded = .ok i) :
    ∃ c0 chains ps, loaded.head? = some c0 ∧ i.free = sortNames c0.free ∧ i.cons = sortNames c0.cons ∧ i.cons ≠ [] ∧ recover loaded = .ok chains ∧
      List.Forall₂ (Paired W loaded c0.free c0.cons) loaded.zipIdx chains ∧ minMinusLkl chains = some i.minMinus ∧
      newResults i.minMinus o.burnin chains = ps.map Prod.fst ∧
      (∀ p ∈ ps, Rep (sampleValue loaded) (sampleLnprob loaded) p.1 p.2 ∧ p.1.free = c0.free ∧ p.1.cons = c0.cons ∧ p.2.length = W ∧ ∃ c, ∀ s ∈ p.2.flatten, s.1 = c) ∧
      ((ps.map fun p => p.2.flatten).flatten).Perm (counted W loaded o.burnin) ∧ (loaded.length = 1 → ps.length = 3) ∧ ps ≠ [] ∧
      (loaded.length ≠ 1 → ps.map (fun p => p.2.flatten) = (loaded.zipIdx.map (countedOf W loaded o.burnin)).filter (· ≠ [])) ∧
      combine (ps.map Prod.fst) = .ok i.combined ∧
      i.steps = (chains.map fun r => (mask i.minMinus o.burnin r).length).sum ∧ i.accepted = (chains.map fun r => ((mask i.minMinus o.burnin r).filter (·)).length).sum ∧
      (c0.free.Pairwise (· ≤ ·) →
        i.R = (i.names.map fun n => match gelmanRubin (ps.map fun p => p.2.flatten.map fun s => sampleValue loaded s n / o.scale n) with
          | .ok v => v
          | .error _ => none) ∧
        i.chain = (ps.map fun p => p.2.flatten).flatten.map fun s => i.names.map fun n => sampleValue loaded s n / o.scale n) := by
  classical
  obtain ⟨chains, mn, raw, hr, he, ht, hm, hmn, hne, hraw, hcomb, hst, hacc, hR, hch⟩ := analyse_ok h
  subst hmn
  obtain ⟨c0, hc0, hfc, _, _⟩ := extract_ok he
  obtain ⟨hf, hc⟩ := Prod.mk.injEq _ _ _ _ ▸ hfc
  obtain ⟨c1, hc1⟩ : ∃ c1, loaded.head? = some c1 := by
    cases loaded with
    | nil => cases hr; cases hc0
    | cons a l => exact ⟨a, rfl⟩
  obtain ⟨hh, hp⟩ := recover_paired W loaded chains hs hr c1 hc1
  have e : c1 = c0 := Option.some.inj (hh.symm.trans hc0)
  subst e
  obtain ⟨ps, e1, e2, e3, e4, e5, e6⟩ := new_pairs hW hp hm o.burnin
  rw [e1] at hne hraw hcomb
  have hps : ps ≠ [] := fun hp0 => hne (by rw [hp0]; rfl)
  have hcons : i.cons ≠ [] := by
    intro hcn
    cases ps with
    | nil => exact hps rfl
    | cons p ps =>
      have hf2 := (mapM_ok _ _ _).1 hraw
      cases hf2 with
      | cons h1 _ =>
        obtain ⟨c, hcc, _⟩ := (e2 p (by simp)).1.cons
        unfold rows at h1
        rw [hcc] at h1
        simp only [hcn, if_true] at h1
        cases h1
  have hlen3 : loaded.length = 1 → ps.length = 3 := fun hl => (e4 hl).resolve_left fun h0 => hps (List.length_eq_zero_iff.1 h0)
  refine ⟨c1, chains, ps, hc1, hf, hc, hcons, hr, hp, hm, e1, e2, e3, hlen3, hps, e6, hcomb, hst, hacc, fun hsort => ?_⟩
  have hfree : i.free = c1.free := hf.trans (sortNames_of_sorted _ hsort)
  have hmem : c1 ∈ loaded := List.mem_of_mem_head? (by rw [hc1]; rfl)
  have hnd : i.names.Nodup := by
    have h1 := (hs c1 hmem).distinct
    have h2 : i.names.Perm (c1.free ++ c1.cons) := by
      unfold Info.names
      rw [hf, hc]
      exact (sortNames_perm _).append (sortNames_perm _)
    exact h2.nodup_iff.2 h1
  have hrawv : raw = ps.map fun p => p.2.flatten.map fun s => i.names.map (sampleValue loaded s) := by
    have hgoal : (ps.map Prod.fst).mapM (rows i.cons) = .ok (ps.map fun p => p.2.flatten.map fun s => i.names.map (sampleValue loaded s)) := by
      rw [mapM_ok]
      clear hraw hcomb e1 e3 e4 e5 e6 hlen3 hps hne
      induction ps with
      | nil => exact .nil
      | cons p ps ih =>
        refine .cons ?_ (ih fun q hq => e2 q (List.mem_cons_of_mem _ hq))
        obtain ⟨q1, q2, q3, _, _⟩ := e2 p (by simp)
        rw [rep_rows _ _ p.1 p.2 q1 i.cons hcons (fun n hn => by rw [q3]; rw [hc] at hn; exact (sortNames_perm _).mem_iff.1 hn), q2, ← hfree]
        rfl
    rw [hgoal] at hraw
    exact (Except.ok.inj hraw).symm
  have hspam : raw.map (scaleRows i.free i.cons o.scale) = ps.map fun p => p.2.flatten.map fun s => i.names.map fun n => sampleValue loaded s n / o.scale n := by
    rw [hrawv, List.map_map]
    refine List.map_congr_left fun p _ => ?_
    simp only [Function.comp, scaleRows]
    have h1 : ∀ rs : List (List ℝ), (i.free ++ i.cons).foldl (fun rs name => rs.map fun row => row.modify (paramIndex i.free i.cons name) fun x => x * (1 / o.scale name)) rs =
        (i.free ++ i.cons).foldl (fun rs name => rs.map fun row => row.modify (i.names.idxOf name) fun x => x * (1 / o.scale name)) rs := by
      intro rs
      refine List.foldl_ext _ _ _ fun a n hn => ?_
      rw [paramIndex_eq _ _ _ hn]
      rfl
    rw [h1]
    have := scale_fold i.names hnd o.scale p.2.flatten (sampleValue loaded) [] i.names rfl
    simp only [List.map_nil, List.nil_append] at this
    exact this
  refine ⟨?_, ?_⟩
  · rw [hR, hspam]
    apply List.ext_getElem
    · simp [Info.names]
    · intro d hd hd'
      have hd2 : d < i.names.length := by simpa using hd'
      simp only [List.getElem_map, List.getElem_range, List.map_map]
      have : ((fun rs : List (List ℝ) => rs.map fun row => row.getD d 0) ∘ fun p : Emcee × List (List (ℕ × ℕ × ℕ)) =>
          p.2.flatten.map fun s => i.names.map fun n => sampleValue loaded s n / o.scale n) =
          fun p => p.2.flatten.map fun s => sampleValue loaded s i.names[d] / o.scale i.names[d] := by
        funext p
        simp only [Function.comp, List.map_map]
        refine List.map_congr_left fun s _ => ?_
        simp only [Function.comp]
        rw [getD_map_lt _ _ _ _ hd2]
      rw [this]
  · rw [hch, hspam, List.map_map, List.map_flatten, List.map_map]
    congr 1
    refine List.map_congr_left fun p _ => ?_
    simp only [Function.comp, List.map_map]
    refine List.map_congr_left fun s _ => ?_
    rw [Function.comp_apply, ← List.map_map, idx_eq i.free i.cons hnd]
    apply List.ext_getElem
    · simp [Info.names]
    · intro d hd hd'
      have hd2 : d < i.names.length := by simpa using hd'
      simp only [List.getElem_map, List.getElem_range]
      rw [getD_map_lt _ _ _ _ hd2]

/-! ### C116 -/

/-- C116 (samples): the table of samples on which all estimates rest has one row for every sample of every chain that counts — its average log-probability is within three of the
best, and it is not burn-in — and no other; the entry in the column of a name is the value of that parameter, divided by its scale.  Missing: the free parameters of the first chain
must be in alphabetical order (as the solver writes them), see `C116_order_counterexample`. -/
theorem C116_samples_partial {W : ℕ} (hW : 0 < W) {o : Options} {loaded : List Emcee} (hs : ∀ r ∈ loaded, Shape W r) {i : Info} (h : analyse o loaded = .ok i)
    (hsort : ∀ c0, loaded.head? = some c0 → c0.free.Pairwise (· ≤ ·)) :
    (∀ c0, loaded.head? = some c0 → i.free.Perm c0.free ∧ i.cons.Perm c0.cons ∧ i.free.Pairwise (· ≤ ·) ∧ i.cons.Pairwise (· ≤ ·)) ∧
    ∃ L : List (ℕ × ℕ × ℕ), L.Perm (counted W loaded o.burnin) ∧ i.chain = L.map fun s => i.names.map fun n => sampleValue loaded s n / o.scale n := by
  obtain ⟨c0, chains, ps, h0, hf, hc, _, _, _, _, _, _, hperm, _, _, _, _, _, _, hchain⟩ := run_core hW hs h
  refine ⟨fun c1 h1 => ?_, _, hperm, (hchain (hsort c0 h0)).2⟩
  have : c0 = c1 := Option.some.inj (h0.symm.trans h1)
  subst this
  rw [hf, hc]
  exact ⟨sortNames_perm _, sortNames_perm _, sortNames_sorted _, sortNames_sorted _⟩

/-- C116 (covariance): the entry of the covariance matrix at two names is the sample covariance (over one less than their number) of the values of these parameters over the samples that count. -/
theorem C116_covar_partial {W : ℕ} (hW : 0 < W) {o : Options} {loaded : List Emcee} (hs : ∀ r ∈ loaded, Shape W r) {i : Info} (h : analyse o loaded = .ok i)
    (hsort : ∀ c0, loaded.head? = some c0 → c0.free.Pairwise (· ≤ ·)) :
    ∃ L : List (ℕ × ℕ × ℕ), L.Perm (counted W loaded o.burnin) ∧ ∀ a b (ha : a < i.names.length) (hb : b < i.names.length),
      i.covar a b = (L.map fun s => (sampleValue loaded s i.names[a] / o.scale i.names[a] - (L.map fun s => sampleValue loaded s i.names[a] / o.scale i.names[a]).sum / L.length) *
        (sampleValue loaded s i.names[b] / o.scale i.names[b] - (L.map fun s => sampleValue loaded s i.names[b] / o.scale i.names[b]).sum / L.length)).sum / (L.length - 1) := by
  obtain ⟨_, L, hL, hchain⟩ := C116_samples_partial hW hs h hsort
  refine ⟨L, hL, fun a b ha hb => ?_⟩
  have key : i.covar a b = cov (L.map fun s => sampleValue loaded s i.names[a] / o.scale i.names[a]) (L.map fun s => sampleValue loaded s i.names[b] / o.scale i.names[b]) := by
    unfold Info.covar
    rw [hchain, List.map_map, List.map_map]
    congr 1
    · refine List.map_congr_left fun s _ => ?_
      simp only [Function.comp]
      rw [getD_map_lt _ _ _ _ ha]
    · refine List.map_congr_left fun s _ => ?_
      simp only [Function.comp]
      rw [getD_map_lt _ _ _ _ hb]
  rw [key, cov, List.zipWith_map, List.zipWith_self, List.length_map]
  simp only [mean, List.length_map]

/-- C116 (convergence): the number `R` reported for a name is the Gelman-Rubin number of that parameter; the chains compared are the chains of which anything counts, each with all
its samples that count (several files), or three parts of the only chain that together are its samples that count (one file). -/
theorem C116_convergence_partial {W : ℕ} (hW : 0 < W) {o : Options} {loaded : List Emcee} (hs : ∀ r ∈ loaded, Shape W r) {i : Info} (h : analyse o loaded = .ok i)
    (hsort : ∀ c0, loaded.head? = some c0 → c0.free.Pairwise (· ≤ ·)) :
    ∃ parts : List (List (ℕ × ℕ × ℕ)), parts.flatten.Perm (counted W loaded o.burnin) ∧
      (loaded.length ≠ 1 → parts = (loaded.zipIdx.map (countedOf W loaded o.burnin)).filter (· ≠ [])) ∧ (loaded.length = 1 → parts.length = 3) ∧
      i.R.length = i.names.length ∧ ∀ d (hd : d < i.names.length) (hd' : d < i.R.length),
        gelmanRubin (parts.map fun l => l.map fun s => sampleValue loaded s i.names[d] / o.scale i.names[d]) = .ok i.R[d] := by
  obtain ⟨c0, chains, ps, h0, hf, hc, _, _, _, _, _, _, hperm, h3, hne, hsev, _, _, _, hchain⟩ := run_core hW hs h
  have hR := (hchain (hsort c0 h0)).1
  refine ⟨_, hperm, hsev, fun hl => by rw [List.length_map, h3 hl], by rw [hR, List.length_map], fun d hd hd' => ?_⟩
  simp only [hR, List.getElem_map, List.map_map]
  have he : ((fun l : List (ℕ × ℕ × ℕ) => l.map fun s => sampleValue loaded s i.names[d] / o.scale i.names[d]) ∘ fun p : Emcee × List (List (ℕ × ℕ × ℕ)) => p.2.flatten) =
      fun p => p.2.flatten.map fun s => sampleValue loaded s i.names[d] / o.scale i.names[d] := rfl
  rw [he]
  cases ps with
  | nil => exact absurd rfl hne
  | cons p ps => rfl

/-- C116 (counts): the numbers of steps reported are those of all chains and those that count, so that the table has one row for every walker of every counted step. -/
theorem C116_steps {W : ℕ} (hW : 0 < W) {o : Options} {loaded : List Emcee} (hs : ∀ r ∈ loaded, Shape W r) {i : Info} (h : analyse o loaded = .ok i)
    (hsort : ∀ c0, loaded.head? = some c0 → c0.free.Pairwise (· ≤ ·)) :
    i.steps = (loaded.map iters).sum ∧ i.accepted * W = (counted W loaded o.burnin).length ∧ i.chain.length = i.accepted * W := by
  classical
  obtain ⟨c0, chains, ps, h0, hf, hc, _, _, hp, hm, _, _, hperm, _, _, _, _, hst, hacc, hchain⟩ := run_core hW hs h
  have h1 : i.chain.length = (counted W loaded o.burnin).length := by
    rw [(hchain (hsort c0 h0)).2, List.length_map]
    exact hperm.length_eq
  have gen : ∀ (rcs : List (Emcee × ℕ)) (cs : List Emcee), List.Forall₂ (Paired W loaded c0.free c0.cons) rcs cs →
      (cs.map fun r => (mask i.minMinus o.burnin r).length).sum = (rcs.map fun rc => iters rc.1).sum ∧
      (cs.map fun r => ((mask i.minMinus o.burnin r).filter (·)).length).sum * W = (rcs.flatMap (countedOf W loaded o.burnin)).length := by
    intro rcs cs hf
    induction hf with
    | nil => simp
    | cons hpr _ ih =>
      have hmask := mask_eq hW hp hm o.burnin hpr
      refine ⟨?_, ?_⟩
      · simp only [List.map_cons, List.sum_cons, ih.1, hmask, List.length_map, List.length_range]
      · rw [List.map_cons, List.sum_cons, add_mul, ih.2, List.flatMap_cons, List.length_append, hmask]
        congr 1
        unfold countedOf
        rw [List.length_flatMap]
        simp only [List.length_map, List.filter_map, Function.comp_def, List.map_const', List.sum_replicate, List.length_range, smul_eq_mul]
        rw [Nat.mul_comm]
  obtain ⟨g1, g2⟩ := gen _ _ hp
  refine ⟨?_, ?_, ?_⟩
  · rw [hst, g1]
    congr 1
    rw [show (fun rc : Emcee × ℕ => iters rc.1) = iters ∘ Prod.fst from rfl, ← List.map_map, List.zipIdx_map_fst]
  · rw [hacc, g2]; rfl
  · rw [h1, hacc, g2]; rfl

end

end Verif.Analysis
