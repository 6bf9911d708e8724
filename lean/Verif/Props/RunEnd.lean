/-
C139: nothing that a run computed is lost at its end.
-/
import Verif.Spec.RunEnd

namespace Verif.RunEnd

open Spec

variable {α : Type}

/-- the possible results of a run -/
def Made (d : Disk α) (e : Env α) (r' : Result α) : Prop := ∃ old ex, oldResult d e = some old ∧ solve old e.solved = some (some r', ex)

/-- the results files during the run: as before, or with a new file that is not whole, or whole; the restarted file is removed only then -/
inductive Phase (d : Disk α) (e : Env α) : (String → Option (Stored α)) → Prop where
  | same : Phase d e d.results
  | begun (n : String) (v : Stored α) (h : e.name = some n) : Phase d e (put d.results n (some v))
  | done (n f : String) (r : Result α) (h : e.name = some n) (hf : e.restart = some f) (hm : Made d e r) : Phase d e (put (put d.results n (some (.whole r))) f none)

lemma oldResult_temp (d : Disk α) (e : Env α) (t : Option (List String)) : oldResult { d with temp := t } e = oldResult d e := rfl

/-- what the body does to the disk -/
lemma body_cases (d : Disk α) (e : Env α) :
    ((body d e).hist = [d] ∧ (body d e).output = none ∧ (body d e).exc = true) ∨
    (∃ n, e.name = some n ∧ (body d e).output = some n ∧ (body d e).exc = true ∧ (e.save = .early ∧ (body d e).hist = [{ d with results := put d.results n (some .touched) }, d] ∨
      e.save = .late ∧ (body d e).hist = [{ d with results := put d.results n (some .part) }, { d with results := put d.results n (some .touched) }, d])) ∨
    (∃ n r, e.name = some n ∧ Made d e r ∧ e.save = .ok ∧ (body d e).output = some n ∧
      (body d e).hist = [{ d with results := put d.results n (some (.whole r)) }, { d with results := put d.results n (some .part) }, { d with results := put d.results n (some .touched) }, d]) := by
  cases ho : oldResult d e with
  | none => left; simp [body, ho]
  | some old =>
    cases hs : solve old e.solved with
    | none => left; simp [body, ho, hs]
    | some p =>
      obtain ⟨r, ex⟩ := p
      cases r with
      | none =>
        left
        have : ex.isSome = true := by
          cases hh : e.solved with
          | raised => rw [hh] at hs; cases hs
          | emcee new stop => rw [hh] at hs; simp [solve] at hs
          | lbfgs x stop =>
            rw [hh] at hs
            cases stop with
            | none => simp [solve] at hs
            | some s => cases s <;> simp [solve] at hs <;> rw [← hs] <;> rfl
        simp [body, ho, hs, this]
      | some r =>
        have hm : Made d e r := ⟨old, ex, ho, hs⟩
        cases hn : e.name with
        | none => left; simp [body, ho, hs, finalize, hn]
        | some n =>
          right
          cases hv : e.save with
          | early => left; exact ⟨n, by simp [body, ho, hs, finalize, hn, hv]⟩
          | late => left; exact ⟨n, by simp [body, ho, hs, finalize, hn, hv]⟩
          | ok => right; exact ⟨n, r, rfl, hm, rfl, by simp [body, ho, hs, finalize, hn, hv]⟩

lemma traced_results (d : Disk α) (e : Env α) (exc : Bool) : (traced d e exc).results = d.results := by unfold traced; split <;> rfl

lemma traced_logs (d : Disk α) (e : Env α) (exc : Bool) : (traced d e exc).logs = d.logs := by unfold traced; split <;> rfl

lemma traced_logdir (d : Disk α) (e : Env α) (exc : Bool) : (traced d e exc).logdir = d.logdir := by unfold traced; split <;> rfl

lemma traced_temp (d : Disk α) (e : Env α) (exc : Bool) : (traced d e exc).temp = d.temp.map (· ++ if exc then e.trace else []) := by
  unfold traced; cases exc <;> simp

lemma copied_results (d : Disk α) (e : Env α) (o : Option String) : ∀ d' ∈ copied d e o, d'.results = d.results := by
  intro d' h
  unfold copied at h
  split at h
  · simp at h; rw [h]
  · simp at h; rcases h with rfl | rfl | rfl <;> rfl

lemma copied_head (d d0 : Disk α) (e : Env α) (o : Option String) : (copied d e o).headD d0 ∈ copied d e o := by
  unfold copied
  split <;> simp

/-- the results files while the logger is left -/
lemma leave_results (d : Disk α) (e : Env α) (o : Option String) (exc : Bool) : ∀ d' ∈ leave d e o exc, d'.results = d.results ∨ ∃ f, e.restart = some f ∧ exc = false ∧ d'.results = put d.results f none := by
  intro d' h
  have hh : (untemp ((copied (traced d e exc) e o).headD d)).results = d.results := by
    show ((copied (traced d e exc) e o).headD d).results = _
    rw [copied_results _ e o _ (copied_head _ d e o), traced_results]
  unfold leave at h
  rw [List.append_assoc, List.mem_append, List.mem_append, List.mem_singleton] at h
  rcases h with h | rfl | h
  · right
    unfold removed at h
    split at h
    · rename_i f hf
      rw [List.mem_singleton] at h
      subst h
      exact ⟨f, hf, rfl, by rw [← hh]⟩
    · cases h
  · exact .inl hh
  · left; rw [copied_results _ e o _ h, traced_results]

lemma put_ne {β : Type} {f : String → Option β} {n m : String} {v : Option β} (h : m ≠ n) : put f n v m = f m := if_neg h

lemma put_eq {β : Type} {f : String → Option β} {n : String} {v : Option β} : put f n v n = v := if_pos rfl

/-- every state of the disk is in one of the phases -/
lemma phases (d : Disk α) (e : Env α) : ∀ d' ∈ history d e, Phase d e d'.results := by
  intro d' h
  unfold history at h
  dsimp only at h
  obtain ⟨d0, hd0⟩ : ∃ d0 : Disk α, d0 = { d with temp := some e.messages } := ⟨_, rfl⟩
  have h0 : d0.results = d.results := by rw [hd0]
  have hM : ∀ r, Made d0 e r → Made d e r := by rintro r ⟨old, ex, h1, h2⟩; exact ⟨old, ex, by rw [← h1, hd0]; rfl, h2⟩
  rw [← hd0, List.append_assoc, List.mem_append, List.mem_append] at h
  have hlast : d' ∈ [{ d with temp := some [] }, d] → Phase d e d'.results := by
    intro h
    simp only [List.mem_cons, List.not_mem_nil, or_false] at h
    rcases h with rfl | rfl <;> exact .same
  rcases body_cases d0 e with ⟨b1, b2, b3⟩ | ⟨n, b0, b2, b3, b1⟩ | ⟨n, r, b0, bm, bs, b2, b1⟩
  · rw [b1, b2, b3] at h
    rcases h with h | h | h
    · rcases leave_results _ e _ _ d' h with h | ⟨f, _, hc, _⟩
      · rw [h, List.headD_cons, h0]; exact .same
      · cases hc
    · rw [List.mem_singleton] at h; rw [h, h0]; exact .same
    · exact hlast h
  · rw [b2, b3] at h
    rcases b1 with ⟨_, b1⟩ | ⟨_, b1⟩ <;> rw [b1] at h <;> rcases h with h | h | h
    · rcases leave_results _ e _ _ d' h with h | ⟨f, _, hc, _⟩
      · rw [h, List.headD_cons]; exact h0 ▸ Phase.begun n _ b0
      · cases hc
    · simp only [List.mem_cons, List.not_mem_nil, or_false] at h
      rcases h with rfl | rfl
      · rw [h0]; exact .begun n _ b0
      · rw [h0]; exact .same
    · exact hlast h
    · rcases leave_results _ e _ _ d' h with h | ⟨f, _, hc, _⟩
      · rw [h, List.headD_cons]; exact h0 ▸ Phase.begun n _ b0
      · cases hc
    · simp only [List.mem_cons, List.not_mem_nil, or_false] at h
      rcases h with rfl | rfl | rfl
      · rw [h0]; exact .begun n _ b0
      · rw [h0]; exact .begun n _ b0
      · rw [h0]; exact .same
    · exact hlast h
  · rw [b1] at h
    rcases h with h | h | h
    · rcases leave_results _ e _ _ d' h with h | ⟨f, hf, _, h⟩
      · rw [h, List.headD_cons]; exact h0 ▸ Phase.begun n _ b0
      · rw [h, List.headD_cons, h0]; exact .done n f r b0 hf (hM r bm)
    · simp only [List.mem_cons, List.not_mem_nil, or_false] at h
      rcases h with rfl | rfl | rfl | rfl
      · rw [h0]; exact .begun n _ b0
      · rw [h0]; exact .begun n _ b0
      · rw [h0]; exact .begun n _ b0
      · rw [h0]; exact .same
    · exact hlast h

lemma made_extends {d : Disk α} {e : Env α} {f : String} {r r' : Result α} (hf : e.restart = some f) (hr : d.results f = some (.whole r)) (hk : SameSolver r e.solved) (h : Made d e r') : Extends r r' := by
  obtain ⟨old, ex, ho, hs⟩ := h
  unfold oldResult at ho
  rw [hf] at ho
  simp only [hr] at ho
  cases hb : e.reads with
  | false => simp [hb] at ho
  | true =>
    simp only [hb, Option.some.injEq] at ho
    subst ho
    cases hh : e.solved with
    | raised => rw [hh] at hs; cases hs
    | emcee new stop =>
      rw [hh] at hs hk
      cases r with
      | mcmc l =>
        simp only [solve, extend, Option.some.injEq, Prod.mk.injEq] at hs
        rw [← hs.1]
        exact List.prefix_append l new
      | nlopt x => exact hk.elim
    | lbfgs x stop =>
      rw [hh] at hs hk
      cases r with
      | mcmc l => exact hk.elim
      | nlopt y =>
        cases stop with
        | none => simp only [solve, Option.some.injEq, Prod.mk.injEq] at hs; rw [← hs.1]; trivial
        | some s => cases s <;> simp [solve] at hs; rw [← hs.1]; trivial

/-- **C139.** Whatever fails in a run that restarts a results file, and whenever it is killed, the file is on the disk as it was, or a whole new one is that has all of it. -/
theorem C139_never_lost (d : Disk α) (e : Env α) (f : String) (r : Result α) (hf : e.restart = some f) (hr : d.results f = some (.whole r)) (hn : ∀ n, e.name = some n → d.results n = none) (hk : SameSolver r e.solved) :
    ∀ d' ∈ history d e, d'.results f = some (.whole r) ∨ ∃ n r', e.name = some n ∧ d'.results n = some (.whole r') ∧ Extends r r' := by
  intro d' h
  have hfn : ∀ n, e.name = some n → f ≠ n := by
    rintro n hn' rfl
    rw [hn _ hn'] at hr; cases hr
  obtain ⟨R, hR⟩ : ∃ R, R = d'.results := ⟨_, rfl⟩
  have hp := phases d e d' h
  rw [← hR] at hp ⊢
  cases hp with
  | same => exact .inl hr
  | begun n v h1 => left; rw [put_ne (hfn n h1)]; exact hr
  | done n f' r' h1 h2 hm =>
    rw [hf] at h2
    injection h2 with h2
    subst h2
    right
    exact ⟨n, r', h1, by rw [put_ne (hfn n h1).symm, put_eq], made_extends hf hr hk hm⟩

lemma copied_logs (d : Disk α) (e : Env α) (o : Option String) : ∀ d' ∈ copied d e o, ∀ g, o ≠ some g → d'.logs g = d.logs g := by
  intro d' h g hg
  unfold copied at h
  split at h
  · simp at h; rw [h]
  · rename_i n l hc
    have : o = some n := by
      unfold copyLog at hc
      split at hc
      · cases hc
      · rename_i m
        split_ifs at hc
        split at hc
        · injection hc with hc; injection hc with hc; rw [hc]
        · obtain ⟨x, _, hx⟩ := Option.map_eq_some_iff.1 hc
          injection hx with hx; rw [hx]
    have hgn : g ≠ n := by rintro rfl; exact hg this
    simp at h; rcases h with rfl | rfl | rfl
    · exact put_ne hgn
    · exact put_ne hgn
    · rfl

lemma leave_logs (d : Disk α) (e : Env α) (o : Option String) (exc : Bool) : ∀ d' ∈ leave d e o exc, ∀ g, o ≠ some g → d'.logs g = d.logs g := by
  intro d' h g hg
  have hh : (untemp ((copied (traced d e exc) e o).headD d)).logs g = d.logs g := by
    show ((copied (traced d e exc) e o).headD d).logs g = _
    rw [copied_logs _ e o _ (copied_head _ d e o) g hg, traced_logs]
  unfold leave at h
  rw [List.append_assoc, List.mem_append, List.mem_append, List.mem_singleton] at h
  rcases h with h | rfl | h
  · unfold removed at h
    split at h
    · rw [List.mem_singleton] at h
      subst h
      exact hh
    · cases h
  · exact hh
  · rw [copied_logs _ e o _ h g hg, traced_logs]

/-- **C139.** No other file is touched: at every moment all results files but the new and the restarted one, and all logs but that of the new one, are as they were. -/
theorem C139_others (d : Disk α) (e : Env α) : ∀ d' ∈ history d e, (∀ g, e.restart ≠ some g → e.name ≠ some g → d'.results g = d.results g) ∧ ∀ g, e.name ≠ some g → d'.logs g = d.logs g := by
  intro d' h
  constructor
  · intro g h1 h2
    obtain ⟨R, hR⟩ : ∃ R, R = d'.results := ⟨_, rfl⟩
    have hp := phases d e d' h
    rw [← hR] at hp ⊢
    cases hp with
    | same => rfl
    | begun n v hn => exact put_ne (by rintro rfl; exact h2 hn)
    | done n f r hn hf hm => rw [put_ne (by rintro rfl; exact h1 hf), put_ne (by rintro rfl; exact h2 hn)]
  · intro g hg
    unfold history at h
    dsimp only at h
    obtain ⟨d0, hd0⟩ : ∃ d0 : Disk α, d0 = { d with temp := some e.messages } := ⟨_, rfl⟩
    have h0 : d0.logs = d.logs := by rw [hd0]
    rw [← hd0, List.append_assoc, List.mem_append, List.mem_append] at h
    have hb : ∀ x ∈ (body d0 e).hist, x.logs = d.logs := by
      intro x hx
      rcases body_cases d0 e with ⟨b1, _⟩ | ⟨n, _, _, _, ⟨_, b1⟩ | ⟨_, b1⟩⟩ | ⟨n, r, _, _, _, _, b1⟩ <;> rw [b1] at hx <;> simp only [List.mem_cons, List.not_mem_nil, or_false] at hx
      · rw [hx, h0]
      · rcases hx with rfl | rfl <;> exact h0
      · rcases hx with rfl | rfl | rfl <;> exact h0
      · rcases hx with rfl | rfl | rfl | rfl <;> exact h0
    have hhead : ((body d0 e).hist.headD d0).logs = d.logs := by
      rcases body_cases d0 e with ⟨b1, _⟩ | ⟨n, _, _, _, ⟨_, b1⟩ | ⟨_, b1⟩⟩ | ⟨n, r, _, _, _, _, b1⟩ <;> rw [b1] <;> exact h0
    have hout : (body d0 e).output ≠ some g := by
      rcases body_cases d0 e with ⟨_, b2, _⟩ | ⟨n, b0, b2, _⟩ | ⟨n, r, b0, _, _, b2, _⟩ <;> rw [b2]
      · simp
      · rw [← b0]; exact hg
      · rw [← b0]; exact hg
    rcases h with h | h | h
    · rw [leave_logs _ e _ _ d' h g hout, hhead]
    · rw [hb d' h]
    · simp only [List.mem_cons, List.not_mem_nil, or_false] at h
      rcases h with rfl | rfl <;> rfl

/-! ### After the run -/

lemma final_eq (d : Disk α) (e : Env α) :
    final d e = ((removed (untemp ((copied (traced ((body { d with temp := some e.messages } e).hist.headD { d with temp := some e.messages }) e (body { d with temp := some e.messages } e).exc) e
      (body { d with temp := some e.messages } e).output).headD ((body { d with temp := some e.messages } e).hist.headD { d with temp := some e.messages }))) e (body { d with temp := some e.messages } e).exc).headD
      (untemp ((copied (traced ((body { d with temp := some e.messages } e).hist.headD { d with temp := some e.messages }) e (body { d with temp := some e.messages } e).exc) e
      (body { d with temp := some e.messages } e).output).headD ((body { d with temp := some e.messages } e).hist.headD { d with temp := some e.messages })))) := by
  unfold final history leave
  dsimp only
  unfold removed
  split <;> rfl

/-- the results files without the restarted one, if there was no exception -/
def without (r : Option String) (exc : Bool) (f : String → Option (Stored α)) : String → Option (Stored α) :=
  match r, exc with
  | some g, false => put f g none
  | _, _ => f

/-- the logs with one more -/
def withLog (logs : String → Option (List String)) : Option (String × List String) → String → Option (List String)
  | none => logs
  | some (n, l) => put logs n (some l)

lemma without_ne {r : Option String} {exc : Bool} {f : String → Option (Stored α)} {n : String} (h : r ≠ some n) : without r exc f n = f n := by
  unfold without
  cases r with
  | none => rfl
  | some g => cases exc <;> first | exact put_ne (by rintro rfl; exact h rfl) | rfl

lemma removed_head (d : Disk α) (e : Env α) (exc : Bool) : ((removed d e exc).headD d).results = without e.restart exc d.results ∧ ((removed d e exc).headD d).logs = d.logs ∧ ((removed d e exc).headD d).temp = d.temp := by
  unfold removed without
  cases e.restart <;> cases exc <;> simp

lemma copied_final (d d0 : Disk α) (e : Env α) (o : Option String) : ((copied d e o).headD d0).logs = withLog d.logs (copyLog d e o) := by
  unfold copied
  split <;> simp [*, withLog]

/-- the disk after the run, from what the body did -/
lemma final_of (d : Disk α) (e : Env α) (x : Disk α) (rest : List (Disk α)) (o : Option String) (exc : Bool) (h1 : (body { d with temp := some e.messages } e).hist = x :: rest)
    (h2 : (body { d with temp := some e.messages } e).output = o) (h3 : (body { d with temp := some e.messages } e).exc = exc) :
    (final d e).results = without e.restart exc x.results ∧
    (final d e).logs = withLog x.logs (copyLog (traced x e exc) e o) ∧ (final d e).temp = none := by
  rw [final_eq, h1, h2, h3, List.headD_cons]
  obtain ⟨r1, r2, r3⟩ := removed_head (untemp ((copied (traced x e exc) e o).headD x)) e exc
  refine ⟨?_, ?_, ?_⟩
  · rw [r1]
    have : (untemp ((copied (traced x e exc) e o).headD x)).results = x.results := by
      show ((copied (traced x e exc) e o).headD x).results = _
      rw [copied_results _ e o _ (copied_head _ x e o), traced_results]
    rw [this]
  · rw [r2]
    show ((copied (traced x e exc) e o).headD x).logs = _
    rw [copied_final, traced_logs]
  · rw [r3]; rfl

lemma oldResult_before {d : Disk α} {e : Env α} {l : List α} (h : Before d e l) : ∃ old, oldResult d e = some old ∧ ∀ new, extend old new = .mcmc (l ++ new) := by
  cases h with
  | fresh h => exact ⟨none, by simp [oldResult, h], fun new => rfl⟩
  | again f l h hf hr => exact ⟨some (.mcmc l), by simp [oldResult, h, hf, hr], fun new => rfl⟩

/-- **C139.** All steps that emcee took are in the new results file after the run, behind those of the chain that was restarted, however the sampling ended: after all iterations, by ctrl+c, by convergence, by an error, or
because another chain failed; if a file can be made and written. -/
theorem C139_saved (d : Disk α) (e : Env α) (l new : List α) (stop : Option Stop) (n : String) (hb : Before d e l) (hs : e.solved = .emcee new stop) (hn : e.name = some n) (hnew : d.results n = none) (hv : e.save = .ok) :
    (final d e).results n = some (.whole (.mcmc (l ++ new))) := by
  obtain ⟨old, ho, he⟩ := oldResult_before hb
  have ho' : oldResult { d with temp := some e.messages } e = some old := ho
  have hbody : body { d with temp := some e.messages } e = finalize { d with temp := some e.messages } e (.mcmc (l ++ new)) (reported stop) := by
    simp only [body, ho', hs, solve, he]
  obtain ⟨exc, hexc⟩ : ∃ exc, (body { d with temp := some e.messages } e).exc = exc := ⟨_, rfl⟩
  obtain ⟨h1, -, -⟩ := final_of d e { d with temp := some e.messages, results := put d.results n (some (.whole (.mcmc (l ++ new)))) } _ (some n) exc (by rw [hbody]; simp only [finalize, hn, hv]; rfl)
    (by rw [hbody]; simp [finalize, hn, hv]) hexc
  rw [h1, without_ne]
  · exact put_eq
  · intro hf
    cases hb with
    | fresh h => rw [h] at hf; cases hf
    | again f' l' h hf' hr => rw [h] at hf; injection hf with hf; subst hf; rw [hf'] at hnew; cases hnew

/-- **C139.** Likewise for the minimizer, if it ended by itself or by ctrl+c. -/
theorem C139_saved_nlopt_partial (d : Disk α) (e : Env α) (x : α) (stop : Option Stop) (n : String) (hb : e.restart = none ∨ ∃ f y, e.restart = some f ∧ d.results f = some (.whole (.nlopt y)) ∧ e.reads = true)
    (hs : e.solved = .lbfgs x stop) (hstop : stop = none ∨ stop = some .keyboard) (hn : e.name = some n) (hnew : d.results n = none) (hv : e.save = .ok) :
    (final d e).results n = some (.whole (.nlopt x)) := by
  obtain ⟨old, ho⟩ : ∃ old, oldResult { d with temp := some e.messages } e = some old := by
    rcases hb with h | ⟨f, y, h, hf, hr⟩
    · exact ⟨none, by simp [oldResult, h]⟩
    · exact ⟨some (.nlopt y), by simp [oldResult, h, hf, hr]⟩
  have hbody : ∃ ex, body { d with temp := some e.messages } e = finalize { d with temp := some e.messages } e (.nlopt x) ex := by
    rcases hstop with rfl | rfl
    · exact ⟨none, by simp only [body, ho, hs, solve]⟩
    · exact ⟨some .keyboard, by simp only [body, ho, hs, solve]⟩
  obtain ⟨ex, hbody⟩ := hbody
  obtain ⟨exc, hexc⟩ : ∃ exc, (body { d with temp := some e.messages } e).exc = exc := ⟨_, rfl⟩
  obtain ⟨h1, -, -⟩ := final_of d e { d with temp := some e.messages, results := put d.results n (some (.whole (.nlopt x))) } _ (some n) exc (by rw [hbody]; simp only [finalize, hn, hv]; rfl)
    (by rw [hbody]; simp [finalize, hn, hv]) hexc
  rw [h1, without_ne]
  · exact put_eq
  · intro hf
    rcases hb with h | ⟨f', y, h, hf', hr⟩
    · rw [h] at hf; cases hf
    · rw [h] at hf; injection hf with hf; subst hf; rw [hf'] at hnew; cases hnew

/-- **C139.** The log of a run of emcee that has written its results is in `logs` afterwards, behind that of the run which was restarted, with the exception if there was one; and the temporary file is gone. -/
theorem C139_log_partial (d : Disk α) (e : Env α) (l new : List α) (ll : List String) (stop : Option Stop) (n : String) (hb : Before d e l) (hl : LogBefore d e ll) (hd : d.logdir = true)
    (hs : e.solved = .emcee new stop) (hn : e.name = some n) (hv : e.save = .ok) (hsum : e.summary = true) :
    (final d e).logs n = some (ll ++ e.messages ++ if failed stop then e.trace else []) ∧ (final d e).temp = none := by
  obtain ⟨old, ho, he⟩ := oldResult_before hb
  have ho' : oldResult { d with temp := some e.messages } e = some old := ho
  have hbody : body { d with temp := some e.messages } e = finalize { d with temp := some e.messages } e (.mcmc (l ++ new)) (reported stop) := by
    simp only [body, ho', hs, solve, he]
  obtain ⟨exc, hexc⟩ : ∃ exc, (body { d with temp := some e.messages } e).exc = exc := ⟨_, rfl⟩
  obtain ⟨-, h2, h3⟩ := final_of d e { d with temp := some e.messages, results := put d.results n (some (.whole (.mcmc (l ++ new)))) } _ (some n) exc (by rw [hbody]; simp only [finalize, hn, hv]; rfl)
    (by rw [hbody]; simp [finalize, hn, hv]) hexc
  refine ⟨?_, h3⟩
  have hexc' : (if exc = true then e.trace else []) = if failed stop then e.trace else [] := by
    rw [hbody] at hexc
    simp only [finalize, hn, hv, hsum] at hexc
    rw [← hexc]
    cases stop with
    | none => simp [reported, failed]
    | some s => cases s <;> simp [reported, failed]
  rw [h2, ← hexc']
  cases hl with
  | fresh h => simp [copyLog, traced_logdir, hd, h, traced_temp, put_eq, withLog]
  | again f ll h hf => simp [copyLog, traced_logdir, hd, h, hf, traced_logs, traced_temp, put_eq, withLog]

/-- **C139.** The restarted file is gone after a run without an exception, so that each step is on the disk once; and after one with an exception it is there, as it was. -/
theorem C139_replaced (d : Disk α) (e : Env α) (f n : String) (l new : List α) (stop : Option Stop) (hf : e.restart = some f) (hr : d.results f = some (.whole (.mcmc l))) (hreads : e.reads = true)
    (hs : e.solved = .emcee new stop) (hn : e.name = some n) (hnew : d.results n = none) (hv : e.save = .ok) (hsum : e.summary = true) :
    (final d e).results f = if failed stop then some (.whole (.mcmc l)) else none := by
  have ho' : oldResult { d with temp := some e.messages } e = some (some (.mcmc l)) := by simp [oldResult, hf, hr, hreads]
  have hbody : body { d with temp := some e.messages } e = finalize { d with temp := some e.messages } e (.mcmc (l ++ new)) (reported stop) := by
    simp only [body, ho', hs, solve, extend]
  have hexc : (body { d with temp := some e.messages } e).exc = failed stop := by
    rw [hbody]
    simp only [finalize, hn, hv, hsum]
    cases stop with
    | none => simp [reported, failed]
    | some s => cases s <;> simp [reported, failed]
  obtain ⟨h1, -, -⟩ := final_of d e { d with temp := some e.messages, results := put d.results n (some (.whole (.mcmc (l ++ new)))) } _ (some n) _ (by rw [hbody]; simp only [finalize, hn, hv]; rfl)
    (by rw [hbody]; simp [finalize, hn, hv]) hexc
  have hne : f ≠ n := by rintro rfl; rw [hr] at hnew; cases hnew
  rw [h1, hf]
  cases failed stop with
  | true =>
    show put d.results n _ f = _
    rw [put_ne hne, hr]; rfl
  | false => exact put_eq

/-! ### What is lost -/

/-- **C139, counterexample.** A run in which the solver raises, or in which LBFGS ends with an error, leaves no log: nothing is on the disk that was not there before, neither what was logged nor the exception. -/
theorem C139_log_lost_counterexample (d : Disk α) (e : Env α) (h : e.solved = .raised ∨ ∃ x, e.solved = .lbfgs x (some .error)) :
    (final d e).results = d.results ∧ (final d e).logs = d.logs ∧ (final d e).temp = none := by
  have hb : ∃ x, (body { d with temp := some e.messages } e).hist = [x] ∧ x = { d with temp := some e.messages } ∧ (body { d with temp := some e.messages } e).output = none ∧ (body { d with temp := some e.messages } e).exc = true := by
    refine ⟨_, ?_, rfl, ?_, ?_⟩ <;> unfold body <;> cases oldResult { d with temp := some e.messages } e <;> rcases h with h | ⟨x, h⟩ <;> simp [h, solve]
  obtain ⟨x, b1, hx, b2, b3⟩ := hb
  obtain ⟨h1, h2, h3⟩ := final_of d e x [] none true b1 b2 b3
  refine ⟨?_, ?_, h3⟩
  · rw [h1, hx]; unfold without; cases e.restart <;> rfl
  · rw [h2, hx]; rfl

/-- **C139, counterexample.** A run that restarts a file whose log is not in `logs`, for instance because the file is from another folder, leaves no log either, whatever happened. -/
theorem C139_old_log_counterexample (d : Disk α) (e : Env α) (f : String) (hf : e.restart = some f) (hl : d.logs f = none) : (final d e).logs = d.logs ∧ (final d e).temp = none := by
  obtain ⟨x, rest, o, exc, b1, b2, b3, hx⟩ : ∃ x rest o exc, (body { d with temp := some e.messages } e).hist = x :: rest ∧ (body { d with temp := some e.messages } e).output = o ∧
      (body { d with temp := some e.messages } e).exc = exc ∧ x.logs = d.logs := by
    rcases body_cases { d with temp := some e.messages } e with ⟨b1, _⟩ | ⟨n, _, _, _, ⟨_, b1⟩ | ⟨_, b1⟩⟩ | ⟨n, r, _, _, _, _, b1⟩ <;> exact ⟨_, _, _, _, b1, rfl, rfl, rfl⟩
  obtain ⟨-, h2, h3⟩ := final_of d e x rest o exc b1 b2 b3
  refine ⟨?_, h3⟩
  have : copyLog (traced x e exc) e o = none := by
    unfold copyLog
    cases o with
    | none => rfl
    | some n => simp [hf, traced_logs, hx, hl]
  rw [h2, this]
  exact hx

/-- **C139, counterexample.** The shell is told that all is well, whatever happened. -/
theorem C139_exit_counterexample (d : Disk α) (e : Env α) : exitCode d e = 0 := by simp [exitCode, raises, afterWith]

/-- **C139, counterexample.** After ctrl+c in a restarted chain both files are there, and its old steps twice. -/
theorem C139_twice_counterexample (d : Disk α) (e : Env α) (f n : String) (l new : List α) (hf : e.restart = some f) (hr : d.results f = some (.whole (.mcmc l))) (hreads : e.reads = true)
    (hs : e.solved = .emcee new (some .keyboard)) (hn : e.name = some n) (hnew : d.results n = none) (hv : e.save = .ok) :
    (final d e).results f = some (.whole (.mcmc l)) ∧ (final d e).results n = some (.whole (.mcmc (l ++ new))) := by
  refine ⟨?_, C139_saved d e l new _ n (.again f l hf hr hreads) hs hn hnew hv⟩
  have ho' : oldResult { d with temp := some e.messages } e = some (some (.mcmc l)) := by simp [oldResult, hf, hr, hreads]
  have hbody : body { d with temp := some e.messages } e = finalize { d with temp := some e.messages } e (.mcmc (l ++ new)) (some .keyboard) := by
    simp only [body, ho', hs, solve, extend, reported]
  obtain ⟨h1, -, -⟩ := final_of d e { d with temp := some e.messages, results := put d.results n (some (.whole (.mcmc (l ++ new)))) } _ (some n) true (by rw [hbody]; simp only [finalize, hn, hv]; rfl)
    (by rw [hbody]; simp [finalize, hn, hv]) (by rw [hbody]; simp [finalize, hn, hv])
  rw [h1, hf]
  have : f ≠ n := by rintro rfl; rw [hr] at hnew; cases hnew
  show put d.results n _ f = _
  rw [put_ne this, hr]

/-- **C139, counterexample.** Nothing of what was computed is kept if no name can be made for it (which C76 shows to happen), and a run that is killed when it saves leaves an empty results file. -/
theorem C139_name_counterexample (d : Disk α) (e : Env α) :
    (e.name = none → (final d e).results = d.results) ∧
    ∀ l new stop n, Before d e l → e.solved = .emcee new stop → e.name = some n → ∃ d' ∈ history d e, d'.results n = some .touched := by
  constructor
  · intro hn
    rcases body_cases { d with temp := some e.messages } e with ⟨b1, b2, b3⟩ | ⟨n, b0, _⟩ | ⟨n, r, b0, _⟩
    · obtain ⟨h1, -, -⟩ := final_of d e _ _ _ _ b1 b2 b3
      rw [h1]; unfold without; cases e.restart <;> rfl
    · rw [hn] at b0; cases b0
    · rw [hn] at b0; cases b0
  · intro l new stop n hb hs hn
    obtain ⟨old, ho, he⟩ := oldResult_before hb
    have ho' : oldResult { d with temp := some e.messages } e = some old := ho
    have hbody : body { d with temp := some e.messages } e = finalize { d with temp := some e.messages } e (.mcmc (l ++ new)) (reported stop) := by
      simp only [body, ho', hs, solve, he]
    refine ⟨{ d with temp := some e.messages, results := put d.results n (some .touched) }, ?_, put_eq⟩
    unfold history
    dsimp only
    rw [List.append_assoc, List.mem_append, List.mem_append]
    right; left
    rw [hbody]
    cases hv : e.save <;> simp [finalize, hn, hv]

/-- **C139, inhabited.** A chain of two steps is restarted, takes one more, and all goes well: the new file has three steps, the old one is gone, and the logs are joined. -/
theorem C139_inhabited : ∃ (d : Disk ℕ) (e : Env ℕ), e.restart = some "a" ∧ Before d e [1, 2] ∧ LogBefore d e ["old"] ∧ SameSolver (.mcmc [1, 2]) e.solved ∧ d.results "b" = none ∧
    (final d e).results "a" = none ∧ (final d e).logs "b" = some ["old", "new"] := by
  refine ⟨⟨fun n => if n = "a" then some (.whole (.mcmc [1, 2])) else none, fun n => if n = "a" then some ["old"] else none, none, true⟩,
    ⟨some "a", true, .emcee [3] none, some "b", .ok, true, ["new"], ["trace"]⟩, rfl, .again "a" _ rfl (by simp) rfl, .again "a" _ rfl (by simp), trivial, by simp, ?_, ?_⟩ <;>
  simp [final, history, leave, body, oldResult, solve, extend, finalize, reported, copied, copyLog, traced, untemp, removed, put]

end Verif.RunEnd
