/-
C134: the parameters a driver takes from results or fiducial values.
-/
import Verif.Spec.Apply
import Verif.Props.GalParams
import Verif.Props.Results

namespace Verif.Apply

open Params Results

noncomputable section

local instance : DecidableEq ℝ := Classical.decEq ℝ

/-! ### `set_free_parameters` from a good state -/

theorem setFree_sane (c : Cfg) (hc : CfgOK c) (d : Drv) (hd : Sane c d) (theta : List ℝ) (st' : St String ℝ) (model' : String → Option ℝ)
    (hret : setFree c.sys c.children c.fuel c.free c.within c.modelParams c.accepts d.st d.model theta = .ret true st' model') :
    (∃ w, Solves c.sys st'.val w ∧ Inv c.sys w (Flat c.sys) st') ∧
    ∀ w, Solves c.sys st'.val w → ∀ m ∈ c.modelParams, model' m = some (w m) := by
  obtain ⟨pf, p, hp, hpc⟩ := hc.prepared
  have hch := prepare_direct hc.nodup hc.complete pf p hp
  rw [← hpc] at hch
  obtain ⟨w0, hw0, hi0⟩ := hd
  unfold setFree at hret
  split at hret
  · cases hret
  next hnot =>
    have hk : ∀ x ∈ c.free.zip theta, c.sys.expr x.1 = none ∧ c.sys.clamp x.1 x.2 = x.2 := by
      intro x hx
      refine ⟨((hc.free _).1 (List.of_mem_zip hx).1).1, hc.within _ _ ?_⟩
      have hall : ∀ x ∈ c.free.zip theta, ¬ (!c.within x.1 x.2) = true := fun y hy hb => hnot (List.any_eq_true.2 ⟨y, hy, hb⟩)
      simpa using hall x hx
    split at hret
    · cases hret
    next st1 e1 =>
      obtain ⟨w1, s1, i1⟩ := updateValues_inv hch hc.acyclic c.fuel _ hk d.st st1 w0 hw0.eqs hi0 e1
      split at hret
      · cases hret
      next vs st2 e2 =>
        obtain ⟨b1, b2⟩ := readAll_flat hch c.fuel w1 s1.eqs c.modelParams hc.flat st1 st2 vs i1 e2
        simp only at hret
        split at hret
        · simp only [Outcome.ret.injEq, true_and] at hret
          obtain ⟨rfl, rfl⟩ := hret
          have hs := Solves.mk b2.base s1.eqs
          refine ⟨⟨w1, hs, b2⟩, fun w hw m hm => ?_⟩
          have hww := solution_unique c.sys hc.acyclic st2.val w w1 hw hs
          subst hww
          subst b1
          have : ∀ l : List String, m ∈ l → (l.zip (l.map w)).lookup m = some (w m) := by
            intro l
            induction l with
            | nil => intro h; cases h
            | cons a l ih =>
              intro hm
              simp only [List.map_cons, List.zip_cons_cons, List.lookup_cons]
              by_cases hq : m = a
              · subst hq; simp
              · have hb : (m == a) = false := by simpa using hq
                simp only [hb]
                rcases List.mem_cons.1 hm with rfl | hm
                · exact absurd rfl hq
                · exact ih hm
          simp [this _ hm]
        · cases hret

theorem putFree_spec (c : Cfg) (hc : CfgOK c) (d d' : Drv) (hd : Sane c d) (v : String → ℝ) (h : putFree c d (c.free.map v) = .ok d') :
    Sane c d' ∧ d'.results = d.results ∧ (AllWithin c v → At c d.st.val v d') ∧ (¬ AllWithin c v → d' = d) := by
  obtain ⟨pf, p, hp, hpc⟩ := hc.prepared
  have h22 := C22_all_or_nothing_partial c.sys hc.nodup hc.complete pf p hp c.fuel c.free c.within c.modelParams c.accepts d.st d.model (c.free.map v)
    hc.freeNodup (fun n hn => (hc.free n).1 hn) hc.within (fun n h1 h2 h3 => absurd ((hc.free n).2 ⟨h1, h2⟩) h3) (by simp)
  rw [← hpc] at h22
  unfold putFree at h
  by_cases hw : AllWithin c v
  · have hall : ∀ (i : Nat) (n : String) (x : ℝ), c.free[i]? = some n → (c.free.map v)[i]? = some x → c.within n x = true := by
      intro i n x h1 h2
      rw [List.getElem?_map, h1] at h2
      simp only [Option.map_some, Option.some.injEq] at h2
      subst h2
      exact hw n (List.mem_of_getElem? h1)
    split at h
    next ok st model e =>
      simp only [Except.ok.injEq] at h
      subst h
      obtain ⟨hok, a1, a2, -, -⟩ := h22.2 hall ok st model e
      subst hok
      obtain ⟨s1, s2⟩ := setFree_sane c hc d hd _ st model e
      refine ⟨s1, rfl, fun _ => ⟨fun n hn => ?_, fun n h1 h2 => a2 n h1 h2, s2⟩, fun hn => absurd hw hn⟩
      obtain ⟨i, hi⟩ := List.getElem?_of_mem hn
      exact a1 i n (v n) hi (by rw [List.getElem?_map, hi]; rfl)
    · cases h
  · have hex : ∃ (i : Nat) (n : String) (x : ℝ), c.free[i]? = some n ∧ (c.free.map v)[i]? = some x ∧ c.within n x = false := by
      unfold AllWithin at hw
      push Not at hw
      obtain ⟨n, hn, hx⟩ := hw
      obtain ⟨i, hi⟩ := List.getElem?_of_mem hn
      exact ⟨i, n, v n, hi, by rw [List.getElem?_map, hi]; rfl, by simpa using hx⟩
    rw [h22.1 hex] at h
    simp only [Except.ok.injEq] at h
    subst h
    exact ⟨hd, rfl, fun h => absurd h hw, fun _ => rfl⟩

theorem putFree_err (c : Cfg) (d : Drv) (theta : List ℝ) (e : Err) (h : putFree c d theta = .error e) : e = .setFree := by
  unfold putFree at h
  split at h
  · cases h
  · simpa using h.symm

/-! ### The results object of the driver -/

/-- what the results held by the driver give, when they come from the file `f` -/
def Holds (S : Stats) (A : ArgMax) (c : Cfg) (f : File) (b : ℕ) : Res → Prop
  | .lbfgs r => r.values = c.free.map (fun n => f.best S A b .median n) ∧ ∀ m n, f.best S A b m n = f.best S A b .median n
  | .emcee r => r.free = c.free ∧ maxRow A r = c.free.map (fun n => f.best S A b .maxLnprob n) ∧
      ∃ smp : String → List ℝ, (∀ n, f.best S A b .median n = S.percentile (smp n) 50) ∧
        (∀ n, f.best S A b .peak n = S.peak (smp n) (S.percentile (smp n) 50)) ∧
        ∀ n ∈ c.free, ∃ p, r.results.lookup n = some p ∧ p.flat = smp n ∧
          (∀ x, p.median = some x → x = S.percentile (smp n) 50) ∧
          (∀ x, p.peak = some x → x = S.peak (smp n) (S.percentile (smp n) 50))

theorem getD2 (l : Chain) (i j : ℕ) (w : List (List ℝ)) (row : List ℝ) (h1 : l[i]? = some w) (h2 : w[j]? = some row) : (l.getD i []).getD j [] = row := by
  rw [List.getD_eq_getElem?_getD (l := l), h1, Option.getD_some, List.getD_eq_getElem?_getD, h2, Option.getD_some]

theorem map_idx_self (l : List String) (hl : l.Nodup) (row : List ℝ) (h : row.length = l.length) :
    l.map (fun n => row.getD (l.idxOf n) 0) = row := by
  refine List.ext_getElem (by simp [h]) fun i h1 h2 => ?_
  simp only [List.length_map] at h1
  rw [List.getElem_map, hl.idxOf_getElem, List.getD_eq_getElem?_getD, List.getElem?_eq_getElem h2, Option.getD_some]

theorem flat_column (free : List String) (chain : Chain) (b : ℕ) (name : String) :
    ((column chain (free.idxOf name)).map (List.drop b)).flatten = samplesOf free chain b name := by
  unfold column samplesOf
  rw [List.map_map]
  congr 1
  refine List.map_congr_left fun w _ => ?_
  simp only [Function.comp]
  rw [← List.map_drop]

theorem load_get (free cons : List String) (chain : Chain) (cc : Option (List (String × List (List ℝ)))) (lnp : List (List ℝ)) (b : ℕ) (n : String)
    (hn : n ∈ free) : (((saveResults ⟨free, cons, chain, cc, lnp, 0, []⟩).setBurnin b).results).lookup n =
      some ((Param.new (column chain (free.idxOf n))).setBurnin (if b > (chain.head?.getD []).length then 0 else b)) := by
  have h1 := get_save ⟨free, cons, chain, cc, lnp, 0, []⟩ n
  rw [traceOf_mk, if_pos hn, Option.map_some] at h1
  have h2 : ∀ (l : List (String × Param)) (b : ℕ), (l.map fun p => (p.1, p.2.setBurnin b)).lookup n = (l.lookup n).map (·.setBurnin b) := by
    intro l b
    induction l with
    | nil => rfl
    | cons a t ih =>
      obtain ⟨k, v⟩ := a
      rw [List.map_cons, List.lookup_cons, List.lookup_cons]
      by_cases h : n = k
      · subst h; simp
      · rw [beq_false_of_ne h]; exact ih
  unfold Emcee.setBurnin
  simp only
  rw [h2]
  unfold Emcee.get at h1
  rw [h1]
  rfl

theorem setResults_holds (S : Stats) (A : ArgMax) (c : Cfg) (hc : CfgOK c) (d d' : Drv) (f : File) (hf : f.WF A) (h : setResults c d f = .ok d') :
    d'.st = d.st ∧ d'.model = d.model ∧ ∃ r, d'.results = some r ∧ Holds S A c f (effBurnin c f) r := by
  cases f with
  | lbfgs r =>
    obtain ⟨hnd, hlen⟩ := hf
    simp only [setResults, load, Lbfgs.verify] at h
    by_cases h1 : r.free.Perm c.free
    · by_cases h2 : r.cons.Perm c.cons
      · simp only [h1, h2, not_true_eq_false, if_false, Except.ok.injEq] at h
        subst h
        refine ⟨rfl, rfl, _, rfl, ?_, fun _ _ => rfl⟩
        simp only [File.best]
        split_ifs with hne
        · rfl
        · have hne' : r.free = c.free := by simpa using hne
          rw [← hne', map_idx_self _ hnd _ hlen]
      · simp only [h1, h2, not_true_eq_false, if_false, not_false_eq_true, if_true] at h
        cases h
    · simp only [h1, not_false_eq_true, if_true] at h
      cases h
  | emcee free cons chain cc lnp b =>
    obtain ⟨hnd, hrow, w, row, hw, hr⟩ := hf
    have hlen : row.length = free.length := hrow w (List.mem_of_getElem? hw) row (List.mem_of_getElem? hr)
    simp only [setResults, load] at h
    obtain ⟨r, hrdef⟩ : ∃ r, r = (saveResults ⟨free, cons, chain, cc, lnp, 0, []⟩).setBurnin b := ⟨_, rfl⟩
    have hr1 : r.free = free := by rw [hrdef]; rfl
    have hr2 : r.cons = cons := by rw [hrdef]; rfl
    have hr3 : r.chain = chain := by rw [hrdef]; rfl
    have hr4 : r.lnprobs = lnp := by rw [hrdef]; rfl
    have hr5 : ∀ n ∈ free, r.results.lookup n =
        some ((Param.new (column chain (free.idxOf n))).setBurnin (if b > (chain.head?.getD []).length then 0 else b)) := by
      intro n hn; rw [hrdef]; exact load_get free cons chain cc lnp b n hn
    have hbest : ∀ b' n, File.best S A b' .maxLnprob n (.emcee free cons chain cc lnp b) = row.getD (free.idxOf n) 0 := by
      intro b' n
      simp only [File.best]
      rw [List.getD_eq_getElem?_getD (l := chain), hw, Option.getD_some, List.getD_eq_getElem?_getD (l := w), hr, Option.getD_some]
    rw [← hrdef] at h
    unfold Emcee.verify at h
    by_cases h1 : r.free.Perm c.free
    · by_cases h2 : r.cons.Perm c.cons
      · simp only [h1, h2, not_true_eq_false, if_false] at h
        by_cases hne : r.free ≠ c.free ∨ r.cons ≠ c.cons
        · simp only [hne, if_true, Except.ok.injEq] at h
          subst h
          refine ⟨rfl, rfl, _, rfl, rfl, ?_, fun n => samplesOf free chain 0 n, ?_, ?_, ?_⟩
          · simp only [hbest]
            unfold maxRow
            simp only [saveResults, hr4]
            by_cases hfe : r.free ≠ c.free
            · rw [if_pos hfe, hr3, hr1]
              refine getD2 _ _ _ (w.map fun row => c.free.map fun k => row.getD (free.idxOf k) 0) _ ?_ ?_
              · rw [List.getElem?_map, hw]; rfl
              · rw [List.getElem?_map, hr]; rfl
            · rw [if_neg hfe, hr3, getD2 chain _ _ w row hw hr]
              have hfe' : r.free = c.free := by simpa using hfe
              rw [← hfe', hr1, map_idx_self _ hnd _ hlen]
          · intro n
            have : effBurnin c (.emcee free cons chain cc lnp b) = 0 := by
              unfold effBurnin
              rw [if_neg]
              simp only [File.free, File.cons]
              rw [← hr1, ← hr2]
              rcases hne with h | h
              · exact fun hh => h hh.1
              · exact fun hh => h hh.2
            rw [this]; rfl
          · intro n
            have : effBurnin c (.emcee free cons chain cc lnp b) = 0 := by
              unfold effBurnin
              rw [if_neg]
              simp only [File.free, File.cons]
              rw [← hr1, ← hr2]
              rcases hne with h | h
              · exact fun hh => h hh.1
              · exact fun hh => h hh.2
            rw [this]; rfl
          · intro n hn
            obtain ⟨ch, hch⟩ : ∃ ch, ch = (if r.free ≠ c.free then r.chain.map (List.map fun row => c.free.map fun k => row.getD (r.free.idxOf k) 0) else r.chain) := ⟨_, rfl⟩
            have hget := get_save { r with chain := ch, free := c.free, cons := c.cons } n
            rw [traceOf_mk, if_pos hn, Option.map_some] at hget
            unfold Emcee.get at hget
            have hcol : column ch (c.free.idxOf n) = column chain (free.idxOf n) := by
              rw [hch]
              split_ifs with hfe
              · rw [column_reorder _ _ _ _ hn, hr3, hr1]
              · have hfe' : r.free = c.free := by simpa using hfe
                rw [hr3, ← hfe', hr1]
            refine ⟨Param.new (column ch (c.free.idxOf n)), ?_, ?_, fun x hx => ?_, fun x hx => ?_⟩
            · rw [hch] at hget ⊢; exact hget
            · rw [hcol]
              have := flat_column free chain 0 n
              simpa [Param.flat, Param.new] using this
            · simp [Param.new] at hx
            · simp [Param.new] at hx
        · simp only [hne, if_false, Except.ok.injEq] at h
          subst h
          push Not at hne
          obtain ⟨e1, e2⟩ := hne
          have hb : effBurnin c (.emcee free cons chain cc lnp b) = if b > (chain.head?.getD []).length then 0 else b := by
            unfold effBurnin
            rw [if_pos]
            · rfl
            · simp only [File.free, File.cons]
              rw [← hr1, ← hr2]; exact ⟨e1, e2⟩
          refine ⟨rfl, rfl, _, rfl, e1, ?_, fun n => samplesOf free chain (effBurnin c (.emcee free cons chain cc lnp b)) n, fun n => rfl, fun n => rfl, ?_⟩
          · simp only [hbest]
            unfold maxRow
            rw [hr4, hr3, getD2 chain _ _ w row hw hr, ← e1, hr1, map_idx_self _ hnd _ hlen]
          · intro n hn
            rw [← e1, hr1] at hn
            refine ⟨_, hr5 n hn, ?_, fun x hx => ?_, fun x hx => ?_⟩
            · rw [← hb]
              exact flat_column free chain _ n
            · simp [Param.setBurnin] at hx
            · simp [Param.setBurnin, Param.new] at hx
      · simp only [h1, h2, not_true_eq_false, if_false, not_false_eq_true, if_true] at h
        cases h
    · simp only [h1, not_false_eq_true, if_true] at h
      cases h

/-- reading a statistic of each parameter gives the right values and keeps the others right -/
theorem readEach_spec (g : Param → ℝ × Param) (val : String → ℝ) (P : String → Param → Prop)
    (hg : ∀ n p, P n p → (g p).1 = val n ∧ P n (g p).2) (all : List String) (ns : List String) (hns : ∀ n ∈ ns, n ∈ all) :
    ∀ l : List (String × Param), (∀ n ∈ all, ∃ p, l.lookup n = some p ∧ P n p) →
      ∃ l', readEach g ns l = some (ns.map val, l') ∧ ∀ n ∈ all, ∃ p, l'.lookup n = some p ∧ P n p := by
  induction ns with
  | nil => intro l h; exact ⟨l, rfl, h⟩
  | cons a ns ih =>
    intro l h
    obtain ⟨p, hp, hP⟩ := h a (hns a List.mem_cons_self)
    have hput : ∀ n ∈ all, ∃ q, (putParam l a (g p).2).lookup n = some q ∧ P n q := by
      intro n hn
      have hl : ∀ l : List (String × Param), (putParam l a (g p).2).lookup n = if n = a then (l.lookup n).map (fun _ => (g p).2) else l.lookup n := by
        intro l
        induction l with
        | nil => simp [putParam]
        | cons x t iht =>
          obtain ⟨k, v⟩ := x
          unfold putParam at iht ⊢
          rw [List.map_cons]
          by_cases hka : k = a
          · subst hka
            simp only [if_true]
            rw [List.lookup_cons, List.lookup_cons]
            by_cases hnk : n = k
            · subst hnk; simp
            · rw [beq_false_of_ne hnk]
              simp only [iht]
          · simp only [hka, if_false]
            rw [List.lookup_cons, List.lookup_cons]
            by_cases hnk : n = k
            · subst hnk; simp [hka]
            · rw [beq_false_of_ne hnk]
              simp only [iht]
      obtain ⟨q, hq, hQ⟩ := h n hn
      rw [hl]
      by_cases hna : n = a
      · subst hna
        rw [if_pos rfl, hq]
        exact ⟨_, rfl, (hg n p hP).2⟩
      · rw [if_neg hna]; exact ⟨q, hq, hQ⟩
    obtain ⟨l', h1, h2⟩ := ih (fun n hn => hns n (List.mem_cons_of_mem _ hn)) _ hput
    refine ⟨l', ?_, h2⟩
    simp only [readEach, hp, h1, List.map_cons, (hg a p hP).1]

theorem bestFit_spec (S : Stats) (A : ArgMax) (c : Cfg) (f : File) (b : ℕ) (m : Method) (r : Res) (h : Holds S A c f b r) :
    (∃ r', bestFit S A m r = .ok (c.free.map (fun n => f.best S A b m n), r') ∧ Holds S A c f b r') ∨
    (m = .other ∧ bestFit S A m r = .error .method) := by
  cases r with
  | lbfgs r =>
    left
    refine ⟨.lbfgs r, ?_, h⟩
    simp only [bestFit]
    rw [h.1]
    congr 2
    exact List.map_congr_left fun n _ => (h.2 m n).symm
  | emcee r =>
    obtain ⟨h1, h2, smp, h3, h4, h5⟩ := h
    cases m with
    | other => right; exact ⟨rfl, rfl⟩
    | maxLnprob => left; exact ⟨.emcee r, by simp only [bestFit]; rw [h2], h1, h2, smp, h3, h4, h5⟩
    | median =>
      left
      obtain ⟨l', e1, e2⟩ := readEach_spec (Param.readMedian S) (fun n => S.percentile (smp n) 50)
        (fun n p => p.flat = smp n ∧ (∀ x, p.median = some x → x = S.percentile (smp n) 50) ∧
          (∀ x, p.peak = some x → x = S.peak (smp n) (S.percentile (smp n) 50)))
        (by
          rintro n p ⟨q1, q2, q3⟩
          unfold Param.readMedian
          cases hm : p.median with
          | some x => exact ⟨q2 x hm, q1, fun y hy => q2 y hy, q3⟩
          | none =>
            simp only
            refine ⟨by rw [q1], q1, fun x hx => ?_, q3⟩
            simp only [Option.some.injEq] at hx
            rw [← hx, q1])
        c.free c.free (fun _ h => h) r.results h5
      refine ⟨.emcee { r with results := l' }, ?_, h1, h2, smp, h3, h4, e2⟩
      simp only [bestFit]
      rw [h1, e1]
      simp only
      congr 2
      exact List.map_congr_left fun n _ => (h3 n).symm
    | peak =>
      left
      obtain ⟨l', e1, e2⟩ := readEach_spec (Param.readPeak S) (fun n => S.peak (smp n) (S.percentile (smp n) 50))
        (fun n p => p.flat = smp n ∧ (∀ x, p.median = some x → x = S.percentile (smp n) 50) ∧
          (∀ x, p.peak = some x → x = S.peak (smp n) (S.percentile (smp n) 50)))
        (by
          rintro n p ⟨q1, q2, q3⟩
          unfold Param.readPeak
          cases hpk : p.peak with
          | some x => exact ⟨q3 x hpk, q1, q2, fun y hy => q3 y hy⟩
          | none =>
            unfold Param.readMedian
            cases hm : p.median with
            | some x =>
              simp only
              refine ⟨by rw [q1, q2 x hm], q1, q2, fun y hy => ?_⟩
              simp only [Option.some.injEq] at hy
              rw [← hy, q1, q2 x hm]
            | none =>
              simp only
              refine ⟨by rw [q1], q1, fun x hx => ?_, fun y hy => ?_⟩
              · simp only [Option.some.injEq] at hx
                rw [← hx, q1]
              · simp only [Option.some.injEq] at hy
                rw [← hy, q1])
        c.free c.free (fun _ h => h) r.results h5
      refine ⟨.emcee { r with results := l' }, ?_, h1, h2, smp, h3, h4, e2⟩
      simp only [bestFit]
      rw [h1, e1]
      simp only
      congr 2
      exact List.map_congr_left fun n _ => (h4 n).symm

/-- a driver in a good state with results from `f` -/
def DInv (S : Stats) (A : ArgMax) (c : Cfg) (base : String → ℝ) (f : File) (d : Drv) : Prop :=
  Sane c d ∧ (∀ n, c.sys.expr n = none → n ∉ c.free → d.st.val n = base n) ∧ ∃ r, d.results = some r ∧ Holds S A c f (effBurnin c f) r

theorem setFit_inv (S : Stats) (A : ArgMax) (c : Cfg) (hc : CfgOK c) (base : String → ℝ) (f : File) (d : Drv) (m : Method) (hd : DInv S A c base f d) :
    (∀ d', setFit S A c d m = .ok d' → DInv S A c base f d' ∧
      (AllWithin c (fun n => f.best S A (effBurnin c f) m n) → At c base (fun n => f.best S A (effBurnin c f) m n) d') ∧
      (¬ AllWithin c (fun n => f.best S A (effBurnin c f) m n) → d'.st = d.st ∧ d'.model = d.model)) ∧
    (∀ e, setFit S A c d m = .error e → (e = .method ∧ m = .other) ∨ e = .setFree) := by
  obtain ⟨hs, hb, r, hr, hh⟩ := hd
  rcases bestFit_spec S A c f _ m r hh with ⟨r', e1, e2⟩ | ⟨hm, e1⟩
  · have hset : setFit S A c d m = putFree c { d with results := some r' } (c.free.map fun n => f.best S A (effBurnin c f) m n) := by
      unfold setFit
      rw [hr]
      simp only [e1]
    constructor
    · intro d' h
      rw [hset] at h
      obtain ⟨a1, a2, a3, a4⟩ := putFree_spec c hc { d with results := some r' } d' hs _ h
      by_cases hw : AllWithin c (fun n => f.best S A (effBurnin c f) m n)
      · have := a3 hw
        have hat : At c base (fun n => f.best S A (effBurnin c f) m n) d' :=
          ⟨this.1, fun n h1 h2 => (this.2.1 n h1 h2).trans (hb n h1 h2), this.2.2⟩
        exact ⟨⟨a1, hat.2.1, r', a2, e2⟩, fun _ => hat, fun h => absurd hw h⟩
      · have := a4 hw
        subst this
        exact ⟨⟨a1, hb, r', rfl, e2⟩, fun h => absurd h hw, fun _ => ⟨rfl, rfl⟩⟩
    · intro e h
      rw [hset] at h
      exact .inr (putFree_err c _ _ e h)
  · have hset : setFit S A c d m = .error .method := by
      unfold setFit
      rw [hr]
      simp only [e1]
    constructor
    · intro d' h; rw [hset] at h; cases h
    · intro e h
      rw [hset] at h
      simp only [Except.error.injEq] at h
      exact .inl ⟨h.symm, hm⟩

theorem checkBounds_some (within : String → ℝ → Bool) (fid : String → Option ℝ) (v : String → ℝ) (l : List String) (h : ∀ n ∈ l, fid n = some (v n)) :
    checkBounds within (l.map fun n => (n, fid n)) = some (l.all fun n => within n (v n)) := by
  induction l with
  | nil => rfl
  | cons a l ih =>
    simp only [List.map_cons, h a List.mem_cons_self, checkBounds, List.all_cons]
    rw [ih fun n hn => h n (List.mem_cons_of_mem _ hn)]
    cases within a (v a) <;> simp

/-- **C134 (fiducial values).** `set_fiducial` puts every free parameter at its fiducial value, and the model follows, if all fiducial values are there and within bounds; if
they are there but not all within bounds nothing changes.  No error is reported then. -/
theorem C134_fiducial (c : Cfg) (hc : CfgOK c) (d d' : Drv) (hd : Sane c d) (v : String → ℝ) (hv : ∀ n ∈ c.free, c.fiducial n = some (v n))
    (h : setFiducial c d = .ok d') :
    Sane c d' ∧ d'.results = d.results ∧ (AllWithin c v → At c d.st.val v d') ∧ (¬ AllWithin c v → d' = d) := by
  unfold setFiducial at h
  rw [checkBounds_some c.within c.fiducial v c.free hv] at h
  by_cases hw : AllWithin c v
  · have hall : (c.free.all fun n => c.within n (v n)) = true := by rw [List.all_eq_true]; exact hw
    rw [hall] at h
    simp only at h
    have hmap : (c.free.map fun n => (c.fiducial n).getD 0) = c.free.map v := List.map_congr_left fun n hn => by rw [hv n hn]; rfl
    rw [hmap] at h
    exact putFree_spec c hc d d' hd v h
  · have hall : (c.free.all fun n => c.within n (v n)) = false := by
      rw [← Bool.not_eq_true, List.all_eq_true]; exact hw
    rw [hall] at h
    simp only [Except.ok.injEq] at h
    subst h
    exact ⟨hd, rfl, fun h => absurd h hw, fun _ => rfl⟩

theorem checkBounds_true (within : String → ℝ → Bool) (fid : String → Option ℝ) (l : List String) (h : checkBounds within (l.map fun n => (n, fid n)) = some true) :
    ∀ n ∈ l, (fid n).isSome := by
  induction l with
  | nil => simp
  | cons a l ih =>
    simp only [List.map_cons] at h
    cases ha : fid a with
    | none => rw [ha] at h; simp [checkBounds] at h
    | some v =>
      rw [ha] at h
      simp only [checkBounds] at h
      split_ifs at h with hw
      · intro n hn
        rcases List.mem_cons.1 hn with rfl | hn
        · rw [ha]; rfl
        · exact ih h n hn
      · simp at h

/-- A missing fiducial value never reaches a parameter: `set_fiducial` fails, or leaves everything as it was. -/
theorem C134_fiducial_missing (c : Cfg) (d d' : Drv) (n : String) (hn : n ∈ c.free) (hf : c.fiducial n = none) (h : setFiducial c d = .ok d') : d' = d := by
  unfold setFiducial at h
  split at h
  · cases h
  · simpa using h.symm
  next hc =>
    have := checkBounds_true _ _ _ hc n hn
    rw [hf] at this
    simp at this

theorem runOps_inv (S : Stats) (A : ArgMax) (c : Cfg) (hc : CfgOK c) (base : String → ℝ) (f : File) (ops : List Op) :
    ∀ d d', DInv S A c base f d → runOps S A c ops d = .ok d' → DInv S A c base f d' := by
  induction ops with
  | nil => intro d d' h e; simp only [runOps, Except.ok.injEq] at e; subst e; exact h
  | cons o ops ih =>
    intro d d' h e
    cases o with
    | fit m =>
      simp only [runOps] at e
      split at e
      · cases e
      next d1 e1 => exact ih d1 d' (((setFit_inv S A c hc base f d m h).1 d1 e1).1) e
    | fiducial =>
      simp only [runOps] at e
      split at e
      · cases e
      next d1 e1 =>
        refine ih d1 d' ?_ e
        by_cases hall : ∀ n ∈ c.free, (c.fiducial n).isSome
        · obtain ⟨a1, a2, a3, a4⟩ := C134_fiducial c hc d d1 h.1 (fun n => (c.fiducial n).getD 0)
            (fun n hn => by obtain ⟨x, hx⟩ := Option.isSome_iff_exists.1 (hall n hn); rw [hx]; rfl) e1
          obtain ⟨r, hr, hh⟩ := h.2.2
          refine ⟨a1, ?_, r, a2.trans hr, hh⟩
          by_cases hw : AllWithin c (fun n => (c.fiducial n).getD 0)
          · intro n h1 h2
            exact ((a3 hw).2.1 n h1 h2).trans (h.2.1 n h1 h2)
          · rw [a4 hw]; exact h.2.1
        · push Not at hall
          obtain ⟨n, hn, hx⟩ := hall
          have := C134_fiducial_missing c d d1 n hn (by simpa using hx) e1
          subst this
          exact h

/-- **C134 (fit results).** Load a results file on a driver in a good state, then set fit results and fiducial values any number of times in any order.  Whenever `set_fit_results(method)` goes through: if the best-fit values are all within the
bounds, then every free parameter has the value the file gives *under its name*, whatever the order of the names in the file, no other unconstrained parameter has moved since the file was loaded, and the model holds every model parameter (constrained ones at their
meaning).  It fails only for an unknown method or when the model refuses the values.
Missing: (a) if a value is outside the bounds, the call goes through without effect (`C134_out_of_bounds_counterexample`); (b) the burn-in is that of the file only if the names are in the order of the theory
(`C134_burnin_counterexample`). -/
theorem C134_fit_partial (S : Stats) (A : ArgMax) (c : Cfg) (hc : CfgOK c) (d0 d1 d2 : Drv) (f : File) (hf : f.WF A) (h0 : Sane c d0) (ops : List Op)
    (h1 : setResults c d0 f = .ok d1) (h2 : runOps S A c ops d1 = .ok d2) (m : Method) :
    (∀ d3, setFit S A c d2 m = .ok d3 →
      (AllWithin c (fun n => f.best S A (effBurnin c f) m n) → At c d0.st.val (fun n => f.best S A (effBurnin c f) m n) d3) ∧
      (¬ AllWithin c (fun n => f.best S A (effBurnin c f) m n) → d3.st = d2.st ∧ d3.model = d2.model)) ∧
    (∀ e, setFit S A c d2 m = .error e → (e = .method ∧ m = .other) ∨ e = .setFree) := by
  obtain ⟨a1, a2, a3⟩ := setResults_holds S A c hc d0 d1 f hf h1
  have hi : DInv S A c d0.st.val f d1 := by
    refine ⟨?_, fun n _ _ => by rw [a1], a3⟩
    unfold Sane; rw [a1]; exact h0
  have h := setFit_inv S A c hc d0.st.val f d2 m (runOps_inv S A c hc _ f ops d1 d2 hi h2)
  exact ⟨fun d3 e => (h.1 d3 e).2, h.2⟩

/-- **C134 (loading).** A file is accepted exactly when its names are those of the theory, in whatever order; loading changes no parameter and not the model. -/
theorem C134_load (c : Cfg) (d : Drv) (f : File) :
    ((∃ d', setResults c d f = .ok d') ↔ f.free.Perm c.free ∧ f.cons.Perm c.cons) ∧
    (∀ d', setResults c d f = .ok d' → d'.st = d.st ∧ d'.model = d.model) := by
  cases f with
  | lbfgs r =>
    simp only [setResults, load, Lbfgs.verify, File.free, File.cons]
    by_cases h1 : r.free.Perm c.free <;> by_cases h2 : r.cons.Perm c.cons <;> simp [h1, h2]
  | emcee free cons chain cc lnp b =>
    simp only [setResults, load, Emcee.verify, File.free, File.cons, Emcee.setBurnin, saveResults]
    by_cases h1 : free.Perm c.free <;> by_cases h2 : cons.Perm c.cons <;> simp [h1, h2]
    split_ifs <;> simp
    all_goals (rintro d' rfl; exact ⟨rfl, rfl⟩)

/-- **C134 (apply).** `apply(func, pattern)` gives one result per file, in order; the result of a file whose medians are within bounds is `func` of the driver at that file's values: what the other files held, and their order, do not matter.
Missing: if the medians of a file are not all within bounds, `func` is evaluated at the parameters left by the file before (`C134_apply_counterexample`). -/
theorem C134_apply_partial {R : Type} (S : Stats) (A : ArgMax) (c : Cfg) (hc : CfgOK c) (func : Drv → R) (files : List File) (hf : ∀ f ∈ files, f.WF A) :
    ∀ (base : String → ℝ) (d d' : Drv) (rs : List R), Sane c d → (∀ n, c.sys.expr n = none → n ∉ c.free → d.st.val n = base n) → applyAll S A c func files d = .ok (rs, d') →
      ∃ ds : List Drv, rs = ds.map func ∧ ds.length = files.length ∧
        ∀ (k : ℕ) (f : File) (dk prev : Drv), files[k]? = some f → ds[k]? = some dk → (d :: ds)[k]? = some prev →
          (AllWithin c (fun n => f.best S A (effBurnin c f) .median n) → At c base (fun n => f.best S A (effBurnin c f) .median n) dk) ∧
          (¬ AllWithin c (fun n => f.best S A (effBurnin c f) .median n) → dk.st = prev.st ∧ dk.model = prev.model) := by
  induction files with
  | nil =>
    intro base d d' rs _ _ h
    simp only [applyAll, Except.ok.injEq, Prod.mk.injEq] at h
    exact ⟨[], h.1.symm, rfl, fun k f dk prev h1 => by simp at h1⟩
  | cons f fs ih =>
    intro base d d' rs hs hb h
    simp only [applyAll] at h
    split at h
    · cases h
    next d1 e1 =>
      split at h
      · cases h
      next d2 e2 =>
        split at h
        · cases h
        next rs' d3 e3 =>
          simp only [Except.ok.injEq, Prod.mk.injEq] at h
          obtain ⟨rfl, rfl⟩ := h
          obtain ⟨a1, a2, a3⟩ := setResults_holds S A c hc d d1 f (hf f List.mem_cons_self) e1
          have hi : DInv S A c base f d1 := by
            refine ⟨?_, fun n p q => by rw [a1]; exact hb n p q, a3⟩
            unfold Sane; rw [a1]; exact hs
          obtain ⟨b1, b2, b3⟩ := (setFit_inv S A c hc base f d1 .median hi).1 d2 e2
          obtain ⟨ds, r1, r2, r3⟩ := ih (fun g hg => hf g (List.mem_cons_of_mem _ hg)) base d2 d3 rs' b1.1 b1.2.1 e3
          refine ⟨d2 :: ds, by simp [r1], by simp [r2], ?_⟩
          intro k g dk prev h1 h2 h3
          cases k with
          | zero =>
            simp only [List.getElem?_cons_zero, Option.some.injEq] at h1 h2 h3
            subst h1; subst h2; subst h3
            exact ⟨b2, fun hw => ⟨(b3 hw).1.trans a1, (b3 hw).2.trans a2⟩⟩
          | succ k =>
            simp only [List.getElem?_cons_succ] at h1 h2 h3
            exact r3 k g dk prev h1 h2 h3

/-! ### Starting a run -/

/-- **C134 (analytic bounds).** Whatever the history of the flags: the minimiser always works with the analytic approximations of bounds and priors for all free parameters (also when it only finds a starting point), the sampler never; one call of the solver asked for comes last, preceded
by the minimiser exactly when the start is its minimum; the flags of other parameters are left alone. -/
theorem C134_analytic (A : ArgMax) (c : Cfg) (lbfgs : List ℝ → Lbfgs) (s : Solver) (init : Option InitFrom) (start : Option File) (results : Option Res)
    (fl : String → Bool) (calls : List Call) (h : runCalls A c lbfgs s init start results fl = .ok calls) :
    (∀ k ∈ calls, (∀ n ∈ c.free, (k.analytic n = true ↔ k.solver = .nlopt)) ∧ ∀ n, n ∉ c.free → k.analytic n = fl n) ∧
    calls.map Call.solver = (if init = some .nlopt then [.nlopt, s] else [s]) := by
  unfold runCalls at h
  simp only at h
  have hfin : ∀ (fl : String → Bool) (n : String), n ∈ c.free → (setAnalytic c.free fl (decide (s = .nlopt)) n = true ↔ s = .nlopt) := by
    intro fl n hn; simp [setAnalytic, hn]
  have hout : ∀ (fl : String → Bool) (b : Bool) (n : String), n ∉ c.free → setAnalytic c.free fl b n = fl n := by
    intro fl b n hn; simp [setAnalytic, hn]
  cases init with
  | none =>
    simp only [Except.ok.injEq] at h
    subst h
    simp only [List.mem_singleton, List.map_cons, List.map_nil]
    refine ⟨?_, by simp⟩
    rintro k rfl
    exact ⟨fun n hn => hfin fl n hn, fun n hn => hout fl _ n hn⟩
  | some i =>
    cases i with
    | nlopt =>
      simp only at h
      split at h
      · cases h
      · simp only [Except.ok.injEq] at h
        subst h
        refine ⟨?_, by simp⟩
        intro k hk
        simp only [List.mem_cons, List.not_mem_nil, or_false] at hk
        rcases hk with rfl | rfl
        · refine ⟨fun n hn => ?_, fun n hn => hout _ _ n hn⟩
          simp [setAnalytic, hn]
        · exact ⟨fun n hn => hfin _ n hn, fun n hn => (hout _ _ n hn).trans (hout _ _ n hn)⟩
    | fiducial =>
      simp only at h
      split at h
      · cases h
      · simp only [Except.ok.injEq] at h
        subst h
        refine ⟨?_, by simp⟩
        intro k hk
        simp only [List.mem_singleton] at hk
        subst hk
        exact ⟨fun n hn => hfin fl n hn, fun n hn => hout fl _ n hn⟩
    | result =>
      simp only at h
      split at h
      · cases h
      · simp only [Except.ok.injEq] at h
        subst h
        refine ⟨?_, by simp⟩
        intro k hk
        simp only [List.mem_singleton] at hk
        subst hk
        exact ⟨fun n hn => hfin fl n hn, fun n hn => hout fl _ n hn⟩
    | prior =>
      simp only at h
      split at h
      · cases h
      · simp only [Except.ok.injEq] at h
        subst h
        refine ⟨?_, by simp⟩
        intro k hk
        simp only [List.mem_singleton] at hk
        subst hk
        exact ⟨fun n hn => hfin fl n hn, fun n hn => hout fl _ n hn⟩
    | previousRun =>
      simp only at h
      split at h
      · cases h
      · simp only [Except.ok.injEq] at h
        subst h
        refine ⟨?_, by simp⟩
        intro k hk
        simp only [List.mem_singleton] at hk
        subst hk
        exact ⟨fun n hn => hfin fl n hn, fun n hn => hout fl _ n hn⟩

theorem lookup_reverse_zip (l : List String) (hl : l.Nodup) (vs : List ℝ) (h : vs.length = l.length) (n : String) :
    (l.zip vs).reverse.lookup n = if n ∈ l then some (vs.getD (l.idxOf n) 0) else none := by
  induction l generalizing vs with
  | nil => simp
  | cons a l ih =>
    cases vs with
    | nil => simp at h
    | cons v vs =>
      simp only [List.length_cons, Nat.add_right_cancel_iff] at h
      simp only [List.nodup_cons] at hl
      rw [List.zip_cons_cons, List.reverse_cons, Verif.Results.lookup_append, ih hl.2 vs h]
      by_cases hna : n = a
      · subst hna
        simp [hl.1]
      · have hcons : List.lookup n [(a, v)] = none := by
          rw [List.lookup_cons, beq_false_of_ne hna]; rfl
        rw [hcons]
        simp only [List.mem_cons, hna, false_or]
        split_ifs
        · rw [List.idxOf_cons_ne _ (Ne.symm hna)]; rfl
        · rfl

/-- **C134 (starting values).** Where the solver asked for starts: from the result of a file, every free parameter has the value of the most probable sample (or the minimum) under its name, whatever the order of the names in the file and whichever other parameters it has, and its fiducial
value if the file does not have it; from the fiducial values, all of them, an error if one is missing; from a minimum found first, the values of the minimum reached from the fiducial values.
Missing: a parameter with neither a value in the file nor a fiducial value should be an error (`C134_start_counterexample`). -/
theorem C134_start_partial (A : ArgMax) (c : Cfg) (lbfgs : List ℝ → Lbfgs) (S : Stats) (s : Solver) (results : Option Res) (fl : String → Bool) (f : File) (hf : f.WF A) :
    (∃ k, runCalls A c lbfgs s (some .result) (some f) results fl = .ok [k] ∧
      k.start = .values (c.free.map fun n => if n ∈ f.free then some (f.best S A 0 .maxLnprob n) else c.fiducial n)) ∧
    ((∀ n ∈ c.free, (c.fiducial n).isSome) → ∃ k, runCalls A c lbfgs s (some .fiducial) none results fl = .ok [k] ∧
      k.start = .values (c.free.map c.fiducial)) ∧
    ((∀ n ∈ c.free, (c.fiducial n).isSome) → ∃ (k0 k : Call) (x0 : List ℝ), runCalls A c lbfgs s (some .nlopt) none results fl = .ok [k0, k] ∧
      x0.map some = c.free.map c.fiducial ∧ k0.start = .values (x0.map some) ∧ k.start = .values ((lbfgs x0).values.map some)) ∧
    ((∃ n ∈ c.free, c.fiducial n = none) → runCalls A c lbfgs s (some .fiducial) none results fl = .error .fiducial ∧
      runCalls A c lbfgs s (some .nlopt) none results fl = .error .fiducial) ∧
    runCalls A c lbfgs .nlopt (some .prior) none results fl = .error .prior ∧
    (∀ r, ∃ k, runCalls A c lbfgs s (some .previousRun) none (some r) fl = .ok [k] ∧ k.start = .resume r) := by
  have hfid : (∀ n ∈ c.free, (c.fiducial n).isSome) → freeFiducial c = .ok (c.free.map fun n => (c.fiducial n).getD 0) ∧
      (c.free.map fun n => (c.fiducial n).getD 0).map some = c.free.map c.fiducial := by
    intro h
    constructor
    · unfold freeFiducial
      rw [if_neg]
      rw [List.any_eq_true]
      rintro ⟨n, hn, hx⟩
      have := h n hn
      rw [Option.isNone_iff_eq_none] at hx
      rw [hx] at this
      simp at this
    · rw [List.map_map]
      refine List.map_congr_left fun n hn => ?_
      obtain ⟨x, hx⟩ := Option.isSome_iff_exists.1 (h n hn)
      simp [hx]
  refine ⟨⟨_, rfl, ?_⟩, fun h => ?_, fun h => ?_, ?_, rfl, fun r => ⟨_, rfl, rfl⟩⟩
  · simp only [StartAt.values.injEq, fromResult]
    refine List.map_congr_left fun n _ => ?_
    cases f with
    | lbfgs r =>
      obtain ⟨h1, h2⟩ := hf
      simp only [bestOf, load]
      rw [lookup_reverse_zip r.free h1 r.values h2 n]
      simp only [File.free, File.best]
      by_cases hm : n ∈ r.free
      · simp [hm]
      · simp [hm]
    | emcee free cons chain cc lnp b =>
      obtain ⟨hnd, hrow, w, row, hw, hr⟩ := hf
      have hlen : row.length = free.length := hrow w (List.mem_of_getElem? hw) row (List.mem_of_getElem? hr)
      have hmax : maxRow A ((saveResults ⟨free, cons, chain, cc, lnp, 0, []⟩).setBurnin b) = row := by
        unfold maxRow
        simp only [Emcee.setBurnin, saveResults]
        exact getD2 chain _ _ w row hw hr
      simp only [bestOf, load]
      rw [hmax]
      simp only [Emcee.setBurnin, saveResults]
      rw [lookup_reverse_zip free hnd row hlen n]
      simp only [File.free, File.best]
      rw [List.getD_eq_getElem?_getD (l := chain), hw, Option.getD_some, List.getD_eq_getElem?_getD (l := w), hr, Option.getD_some]
      by_cases hm : n ∈ free
      · simp [hm]
      · simp [hm]
  · obtain ⟨e1, e2⟩ := hfid h
    simp only [runCalls, e1]
    exact ⟨_, rfl, by rw [e2]⟩
  · obtain ⟨e1, e2⟩ := hfid h
    simp only [runCalls, e1]
    exact ⟨_, _, _, rfl, e2, rfl, rfl⟩
  · rintro ⟨n, hn, hx⟩
    have : freeFiducial c = .error .fiducial := by
      unfold freeFiducial
      rw [if_pos]
      rw [List.any_eq_true]
      exact ⟨n, hn, by rw [hx]; rfl⟩
    simp only [runCalls, this, and_self]

/-! ### What does not hold -/

/-- one free parameter, within `[0, 10]`, and the model takes it -/
def oneCfg : Cfg where
  sys := { names := ["a"], expr := fun _ => none, vary := fun n => decide (n = "a"), clamp := fun n v => if n = "a" then max 0 (min v 10) else v }
  children := fun _ => []
  fuel := 5
  free := ["a"]
  cons := []
  within := fun n v => if n = "a" then decide (0 ≤ v ∧ v ≤ 10) else false
  modelParams := ["a"]
  accepts := fun _ => true
  fiducial := fun _ => some 1

theorem oneCfg_ok : CfgOK oneCfg where
  nodup := by simp [oneCfg]
  complete := by intro n e h; simp [oneCfg] at h
  acyclic := by
    refine ⟨fun _ => 0, ?_⟩
    intro n e h
    simp [oneCfg] at h
  prepared := ⟨5, ⟨fun _ => [], fun _ => []⟩, by
    simp [prepare, prepLoop, prepPass, prepScan, prepInit, oneCfg], rfl⟩
  freeNodup := by simp [oneCfg]
  free := by intro n; simp [oneCfg]
  within := by
    intro n v h
    simp only [oneCfg] at h ⊢
    split_ifs at h ⊢ with hn
    · simp only [decide_eq_true_eq] at h
      rw [min_eq_left h.2, max_eq_right h.1]
    
  flat := by intro n _ e h; simp [oneCfg] at h

/-- the driver at `a = x` -/
def oneDrv (x : ℝ) : Drv := ⟨⟨fun _ => x, fun _ => none⟩, fun _ => some x, none⟩

theorem oneDrv_sane (x : ℝ) (h : 0 ≤ x ∧ x ≤ 10) : Sane oneCfg (oneDrv x) := by
  refine ⟨fun _ => x, Solves.mk (fun n _ => rfl) (fun n e h => by simp [oneCfg] at h), ⟨fun _ _ => rfl, fun _ _ => .inl rfl, ?_, fun _ _ => .inl rfl⟩⟩
  intro n hn hv
  simp only [oneCfg, oneDrv]
  split_ifs
  · rw [min_eq_left h.2, max_eq_right h.1]
  · rfl

/-- a minimum at `a = x` -/
def oneFile (x : ℝ) : File := .lbfgs ⟨["a"], [], [x], []⟩

theorem oneFile_wf (A : ArgMax) (x : ℝ) : (oneFile x).WF A := by simp [oneFile, File.WF]

theorem one_setFit (S : Stats) (A : ArgMax) (st : St String ℝ) (model : String → Option ℝ) (x : ℝ) (m : Method) :
    ∃ d, setFit S A oneCfg ⟨st, model, some (.lbfgs ⟨["a"], [], [x], []⟩)⟩ m = .ok d ∧ d.results = some (.lbfgs ⟨["a"], [], [x], []⟩) ∧
      (0 ≤ x ∧ x ≤ 10 → d.st.val "a" = x ∧ d.model "a" = some x) ∧ (¬ (0 ≤ x ∧ x ≤ 10) → d.st = st ∧ d.model = model) := by
  by_cases h : 0 ≤ x ∧ x ≤ 10
  · by_cases hx : x = max 0 (min (st.val "a") 10)
    · simp [setFit, bestFit, putFree, setFree, oneCfg, h, updateValues, readAll, getval, St.set, upd, ← hx, List.lookup]
    · have h1 : max 0 (min x 10) = x := by rw [min_eq_left h.2, max_eq_right h.1]
      simp [setFit, bestFit, putFree, setFree, oneCfg, h, updateValues, readAll, getval, St.set, upd, hx, List.lookup]
  · have hb : decide (0 ≤ x ∧ x ≤ 10) = false := by simpa using h
    refine ⟨⟨st, model, some (.lbfgs ⟨["a"], [], [x], []⟩)⟩, ?_, rfl, fun h' => absurd h' h, fun _ => ⟨rfl, rfl⟩⟩
    simp only [setFit, bestFit, putFree, setFree, oneCfg, List.zip_cons_cons, List.zip_nil_right, List.any_cons, List.any_nil, Bool.or_false, if_true, hb, Bool.not_false]

/-- an instance of `C134_fit_partial`: a minimum at `a = 4` -/
example (S : Stats) (A : ArgMax) : ∃ (d1 d2 : Drv), CfgOK oneCfg ∧ Sane oneCfg (oneDrv 3) ∧ (oneFile 4).WF A ∧ setResults oneCfg (oneDrv 3) (oneFile 4) = .ok d1 ∧
    setFit S A oneCfg d1 .median = .ok d2 ∧ AllWithin oneCfg (fun n => (oneFile 4).best S A 0 .median n) ∧ d2.st.val "a" = 4 ∧ d2.model "a" = some 4 := by
  obtain ⟨d, h1, h2, h3, h4⟩ := one_setFit S A (oneDrv 3).st (oneDrv 3).model 4 .median
  refine ⟨⟨(oneDrv 3).st, (oneDrv 3).model, some (.lbfgs ⟨["a"], [], [4], []⟩)⟩, d, oneCfg_ok, oneDrv_sane 3 (by norm_num), oneFile_wf A 4, ?_, h1, ?_, h3 (by norm_num)⟩
  · simp [setResults, load, oneFile, Lbfgs.verify, oneCfg]
  · intro n hn
    simp only [oneCfg, List.mem_singleton] at hn
    subst hn
    simp [oneCfg, oneFile, File.best]
    norm_num

/-- **C134, not so: values outside the bounds.** A minimum at `a = 12` for a parameter limited to `[0, 10]` (the minimiser works with soft bounds): `set_fit_results` goes through and the parameter stays where it was. -/
theorem C134_out_of_bounds_counterexample (S : Stats) (A : ArgMax) : ∃ (c : Cfg) (d0 d1 d2 : Drv) (f : File), CfgOK c ∧ Sane c d0 ∧ f.WF A ∧
    setResults c d0 f = .ok d1 ∧ setFit S A c d1 .median = .ok d2 ∧ ∃ n ∈ c.free, d2.st.val n ≠ f.best S A 0 .median n := by
  obtain ⟨d, h1, h2, h3, h4⟩ := one_setFit S A (oneDrv 3).st (oneDrv 3).model 12 .median
  refine ⟨oneCfg, oneDrv 3, ⟨(oneDrv 3).st, (oneDrv 3).model, some (.lbfgs ⟨["a"], [], [12], []⟩)⟩, d, oneFile 12, oneCfg_ok, oneDrv_sane 3 (by norm_num), oneFile_wf A 12, ?_, h1, "a", by simp [oneCfg], ?_⟩
  · simp [setResults, load, oneFile, Lbfgs.verify, oneCfg]
  · rw [(h4 (by norm_num)).1]
    simp [oneDrv, oneFile, File.best]

/-- **C134, not so: `apply` on a file outside the bounds.** Reading `a` over the files `a = 4`, `a = 12` gives `4, 4`; over the same files in the other order from `a = 3` it gives `3, 4`. -/
theorem C134_apply_counterexample (S : Stats) (A : ArgMax) :
    (∃ d, applyAll S A oneCfg (fun d => d.st.val "a") [oneFile 4, oneFile 12] (oneDrv 3) = .ok ([4, 4], d)) ∧
    (∃ d, applyAll S A oneCfg (fun d => d.st.val "a") [oneFile 12, oneFile 4] (oneDrv 3) = .ok ([3, 4], d)) := by
  have hset : ∀ (d : Drv) (x : ℝ), setResults oneCfg d (oneFile x) = .ok ⟨d.st, d.model, some (.lbfgs ⟨["a"], [], [x], []⟩)⟩ := by
    intro d x; simp [setResults, load, oneFile, Lbfgs.verify, oneCfg]
  constructor
  · obtain ⟨d, h1, h2, h3, -⟩ := one_setFit S A (oneDrv 3).st (oneDrv 3).model 4 .median
    obtain ⟨d', h1', h2', -, h4'⟩ := one_setFit S A d.st d.model 12 .median
    refine ⟨d', ?_⟩
    simp only [applyAll, hset, h1, h1']
    rw [(h4' (by norm_num)).1, (h3 (by norm_num)).1]
  · obtain ⟨d, h1, h2, -, h4⟩ := one_setFit S A (oneDrv 3).st (oneDrv 3).model 12 .median
    obtain ⟨d', h1', h2', h3', -⟩ := one_setFit S A d.st d.model 4 .median
    refine ⟨d', ?_⟩
    simp only [applyAll, hset, h1, h1']
    rw [(h4 (by norm_num)).1, (h3' (by norm_num)).1]
    rfl

/-- **C134, not so: the burn-in of a file in another order.** The chain of `a` is `9, 4` with a burn-in of one iteration.  For a file that lists the constrained parameters in another order than the theory, the value set on the driver is the median of all samples, not of those after the
burn-in (here the "percentile" of one or two samples is their maximum). -/
theorem C134_burnin_counterexample (A : ArgMax) (hA : A.pos [[0, 1]] = (0, 1)) : ∃ (S : Stats) (c : Cfg) (d0 d1 d2 : Drv) (f : File), CfgOK c ∧ Sane c d0 ∧ f.WF A ∧
    setResults c d0 f = .ok d1 ∧ setFit S A c d1 .median = .ok d2 ∧ d2.st.val "a" = 9 ∧ f.best S A f.burnin .median "a" = 4 := by
  obtain ⟨S, hS⟩ : ∃ S : Stats, S = ⟨fun l _ => l.foldl max 0, fun l _ => l.foldl max 0⟩ := ⟨_, rfl⟩
  obtain ⟨c, hcd⟩ : ∃ c : Cfg, c = { oneCfg with cons := ["x", "y"] } := ⟨_, rfl⟩
  have hc : CfgOK c := by
    have := oneCfg_ok
    rw [hcd]
    exact ⟨this.nodup, this.complete, this.acyclic, this.prepared, this.freeNodup, this.free, this.within, this.flat⟩
  obtain ⟨f, hfd⟩ : ∃ f : File, f = .emcee ["a"] ["y", "x"] [[[9], [4]]] none [[0, 1]] 1 := ⟨_, rfl⟩
  have hf : f.WF A := by
    rw [hfd]
    refine ⟨by simp, by simp, [[9], [4]], [4], ?_, ?_⟩ <;> rw [hA] <;> rfl
  have hs : Sane c (oneDrv 3) := by
    rw [hcd]; exact oneDrv_sane 3 (by norm_num)
  have hl := (C134_load c (oneDrv 3) f).1.2 (by
    rw [hcd, hfd]
    refine ⟨List.Perm.refl _, ?_⟩
    exact List.Perm.swap _ _ _)
  obtain ⟨d1, h1⟩ := hl
  have hb : effBurnin c f = 0 := by
    rw [hcd, hfd]; simp [effBurnin, File.free, File.cons]
  have hbest : f.best S A 0 .median "a" = 9 := by
    rw [hfd, hS]; simp [File.best, samplesOf]; norm_num
  have hw : AllWithin c (fun n => f.best S A (effBurnin c f) .median n) := by
    rw [hb]
    intro n hn
    rw [hcd] at hn
    simp only [oneCfg, List.mem_singleton] at hn
    subst hn
    show c.within "a" (f.best S A 0 .median "a") = true
    rw [hbest, hcd]
    simp [oneCfg]
    norm_num
  have hmain := C134_fit_partial S A c hc (oneDrv 3) d1 d1 f hf hs [] h1 rfl .median
  obtain ⟨a1, a2, a3⟩ := setResults_holds S A c hc (oneDrv 3) d1 f hf h1
  have hok : ∃ d2, setFit S A c d1 .median = .ok d2 := by
    obtain ⟨r, hr, hh⟩ := a3
    rcases bestFit_spec S A c f _ .median r hh with ⟨r', e1, e2⟩ | ⟨hm, -⟩
    · rw [hb] at e1
      have hmap : (c.free.map fun n => f.best S A 0 .median n) = [9] := by
        rw [← hbest, hcd]; rfl
      rw [hmap] at e1
      simp only [setFit, hr, e1]
      rw [a1, a2, hcd]
      have h9 : (0:ℝ) ≤ 9 ∧ (9:ℝ) ≤ 10 := by norm_num
      simp [putFree, setFree, oneCfg, h9, updateValues, readAll, getval]
    · cases hm
  obtain ⟨d2, h2⟩ := hok
  refine ⟨S, c, oneDrv 3, d1, d2, f, hc, hs, hf, h1, h2, ?_, ?_⟩
  · have := ((hmain.1 d2 h2).1 hw).1 "a" (by rw [hcd]; simp [oneCfg])
    rw [this, hb]
    exact hbest
  · rw [hfd, hS]; simp [File.best, samplesOf, File.burnin]

/-- **C134, not so: no value at all.** A free parameter with neither a value in the file nor a fiducial value: the run starts, with `nan` (`none`) for it. -/
theorem C134_start_counterexample (A : ArgMax) (lbfgs : List ℝ → Lbfgs) (s : Solver) (fl : String → Bool) :
    ∃ k, runCalls A { oneCfg with free := ["a", "b"], fiducial := fun _ => none } lbfgs s (some .result) (some (oneFile 4)) none fl = .ok [k] ∧
      k.start = .values [some 4, none] := by
  refine ⟨_, rfl, ?_⟩
  simp [fromResult, oneCfg, bestOf, load, oneFile, List.lookup]

end

end Verif.Apply
