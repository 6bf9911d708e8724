/-
C22 (setting free parameters is all-or-nothing) and C23 (constrained parameters reflect the current values).
-/
import Verif.Lemmas.Params

namespace Verif.Params

variable {N V : Type} [DecidableEq N]

/-! ### C23: the meaning of a constraint system -/

/-- An acyclic constraint system has exactly one meaning at given values of the unconstrained parameters; so the `w` of the
theorems below is "the expressions evaluated at the current values". -/
theorem C23_meaning (sys : Sys N V) (ha : Acyclic sys) (base : N → V) :
    ∃ w, Solves sys base w ∧ ∀ w', Solves sys base w' → w' = w := by
  obtain ⟨w, h⟩ := solution_exists sys ha base
  exact ⟨w, h, fun w' h' => solution_unique sys ha base w' w h' h⟩

/-- What a user can do: assign an unconstrained parameter, or read any parameter. -/
inductive Op (N V : Type) where
  | set (n : N) (v : V)
  | read (n : N)

/-- One operation (`none`: RecursionError). -/
def step (sys : Sys N V) (ch : N → List N) (fuel : Nat) (st : St N V) : Op N V → Option (St N V)
  | .set n v => some (st.set ch n v)
  | .read n => (getval sys ch fuel st n).map (·.2)

/-- A history. -/
def run (sys : Sys N V) (ch : N → List N) (fuel : Nat) (st : St N V) : List (Op N V) → Option (St N V)
  | [] => some st
  | o :: os => (step sys ch fuel st o).bind (fun st => run sys ch fuel st os)

/-- Assignments go to unconstrained parameters and are inside the bounds. -/
def OpOK (sys : Sys N V) : Op N V → Prop
  | .set n v => sys.expr n = none ∧ (sys.vary n = true → sys.clamp n v = v)
  | .read _ => True

/-- A starting state: the symbol table holds, for each unconstrained parameter, nothing or its value; for each constrained
parameter nothing or the right value (e.g. right after `prepare_params`/`update_constraints`, `theory/base.py:176-177`), and
values are inside the bounds. -/
def Start (sys : Sys N V) (st : St N V) : Prop :=
  InBounds sys st.val ∧ ∀ w, Solves sys st.val w → ∀ n, st.sym n = none ∨ st.sym n = some (w n)

/-- A constrained parameter such that every unconstrained parameter it depends on, at any depth, is mentioned in its own
expression; and the same for the constrained parameters it depends on. -/
inductive Flat (sys : Sys N V) : N → Prop where
  | intro (c : N) (e : Expr N V) (he : sys.expr c = some e)
      (hsub : ∀ d ∈ e.deps, sys.expr d ≠ none → Flat sys d)
      (hclosed : ∀ d ∈ e.deps, ∀ e', sys.expr d = some e' → ∀ b ∈ e'.deps, sys.expr b = none → b ∈ e.deps) :
      Flat sys c

theorem Flat.closed (sys : Sys N V) : GClosed sys (Flat sys) := by
  intro c hc
  cases hc with
  | intro _ e he hsub hcl =>
    refine ⟨e, he, fun d hd => ?_⟩
    by_cases hx : sys.expr d = none
    · exact Or.inl hx
    · exact Or.inr (hsub d hd hx)

/-- a parameter that does not mention `b` does not notice a change of `b` -/
theorem Flat.indep {sys : Sys N V} {w w' : N → V} (b : N) (hb : sys.expr b = none)
    (hw : ∀ n e, sys.expr n = some e → w n = sys.clamp n (e.eval (e.deps.map w)))
    (hw' : ∀ n e, sys.expr n = some e → w' n = sys.clamp n (e.eval (e.deps.map w')))
    (hag : ∀ n, sys.expr n = none → n ≠ b → w n = w' n) (c : N) (hc : Flat sys c) :
    ∀ e, sys.expr c = some e → b ∉ e.deps → w c = w' c := by
  induction hc with
  | intro c e he hsub hcl ih =>
    intro e0 he0 hbn
    rw [he] at he0; cases he0
    rw [hw c e he, hw' c e he]
    have : e.deps.map w = e.deps.map w' := by
      refine List.map_congr_left fun d hd => ?_
      cases hx : sys.expr d with
      | none =>
        refine hag d hx ?_
        intro hdb; subst hdb; exact hbn hd
      | some e' =>
        have hr : ¬ sys.expr d = none := by rw [hx]; simp
        refine ih d hd hr e' hx ?_
        intro hbe
        exact hbn (hcl d hd e' hx b hbe hb)
    rw [this]

/-- the equations part of `Solves` -/
theorem Solves.eqs {sys : Sys N V} {base w : N → V} (h : Solves sys base w) :
    ∀ n e, sys.expr n = some e → w n = sys.clamp n (e.eval (e.deps.map w)) := by
  intro n e he
  have := h n
  simp only [he] at this
  exact this

theorem Solves.base {sys : Sys N V} {base w : N → V} (h : Solves sys base w) :
    ∀ n, sys.expr n = none → w n = base n := by
  intro n hn
  have := h n
  simp only [hn] at this
  exact this

theorem Solves.mk {sys : Sys N V} {base w : N → V} (h1 : ∀ n, sys.expr n = none → w n = base n)
    (h2 : ∀ n e, sys.expr n = some e → w n = sys.clamp n (e.eval (e.deps.map w))) : Solves sys base w := by
  intro n
  cases hx : sys.expr n with
  | none => exact h1 n hx
  | some e => exact h2 n e hx

/-- assignment of an unconstrained parameter keeps the invariant for the flat constrained parameters -/
theorem Inv.set_base {sys : Sys N V} {w w' : N → V} {st : St N V} {ch : N → List N} (hch : Direct sys ch)
    (h : Inv sys w (Flat sys) st) (b : N) (v : V) (hb : sys.expr b = none) (hv : sys.vary b = true → sys.clamp b v = v)
    (hw : ∀ n e, sys.expr n = some e → w n = sys.clamp n (e.eval (e.deps.map w)))
    (hw' : Solves sys (upd st.val b v) w') : Inv sys w' (Flat sys) (st.set ch b v) := by
  have hag : ∀ n, sys.expr n = none → n ≠ b → w n = w' n := by
    intro n hn hnb
    rw [h.base n hn, hw'.base n hn]
    simp [upd, hnb]
  have hbb : w' b = v := by rw [hw'.base b hb]; simp [upd]
  have hnc : ∀ n, sys.expr n = none → n ∉ ch b := by
    intro n hn hm
    obtain ⟨e, he, -⟩ := (hch.base b n hb).1 hm
    rw [hn] at he; cases he
  refine ⟨fun n hn => hw'.base n hn, ?_, ?_, ?_⟩
  · intro n hn
    simp only [St.set, hnc n hn, if_false, upd]
    split
    next hx => subst hx; right; rw [hbb]
    next hx => rw [← hag n hn hx]; exact h.sbase n hn
  · intro n hn hvn
    simp only [St.set, upd]
    split
    next hx => subst hx; exact hv hvn
    next => exact h.inb n hn hvn
  · intro c hc
    obtain ⟨e, he, -⟩ := Flat.closed sys c hc
    have hcb : c ≠ b := by intro hx; subst hx; rw [hb] at he; cases he
    simp only [St.set, upd, hcb, if_false]
    by_cases hm : c ∈ ch b
    · simp [hm]
    · simp only [hm, if_false]
      have hbd : b ∉ e.deps := fun hx => hm ((hch.base b c hb).2 ⟨e, he, hx⟩)
      rw [← Flat.indep b hb hw hw'.eqs hag c hc e he hbd]
      exact h.good c hc

theorem run_inv {sys : Sys N V} {ch : N → List N} (hch : Direct sys ch) (ha : Acyclic sys) (fuel : Nat) (ops : List (Op N V))
    (hops : ∀ o ∈ ops, OpOK sys o) (st st' : St N V) (w : N → V)
    (hw : ∀ n e, sys.expr n = some e → w n = sys.clamp n (e.eval (e.deps.map w))) (h : Inv sys w (Flat sys) st)
    (e : run sys ch fuel st ops = some st') :
    ∃ w', Solves sys st'.val w' ∧ Inv sys w' (Flat sys) st' := by
  induction ops generalizing st w with
  | nil =>
    simp only [run, Option.some.injEq] at e
    subst e
    exact ⟨w, Solves.mk h.base hw, h⟩
  | cons o os ih =>
    simp only [run] at e
    cases o with
    | set n v =>
      simp only [step, Option.bind_some] at e
      have ho : OpOK sys (.set n v) := hops _ List.mem_cons_self
      obtain ⟨w', hw'⟩ := solution_exists sys ha (upd st.val n v)
      exact ih (fun o ho => hops o (List.mem_cons_of_mem _ ho)) _ w' hw'.eqs (h.set_base hch n v ho.1 ho.2 hw hw') e
    | read n =>
      simp only [step] at e
      cases hg : getval sys ch fuel st n with
      | none => simp [hg] at e
      | some r =>
        obtain ⟨v, st1⟩ := r
        simp only [hg, Option.map_some, Option.bind_some] at e
        have := (eval_spec sys ch hch w (Flat sys) (Flat.closed sys) hw fuel).1 st n v st1 h hg
        exact ih (fun o ho => hops o (List.mem_cons_of_mem _ ho)) _ w hw this.1 e

theorem Start.inv {sys : Sys N V} {st : St N V} (h : Start sys st) (w : N → V) (hw : Solves sys st.val w) (G : N → Prop) :
    Inv sys w G st :=
  ⟨hw.base, fun b _ => h.2 w hw b, h.1, fun c _ => h.2 w hw c⟩

/-- **C23 (partial).** After `prepare_params`, from a good starting state, after *every* history of in-bounds assignments to
unconstrained parameters and of reads in any order: reading a parameter whose expression mentions only unconstrained
parameters and flat constrained ones returns the value of its expression at the current values.
Missing: parameters that mention non-flat constrained ones (`C23_deep_counterexample`), out-of-bounds assignments
(`C23_out_of_bounds_counterexample`). -/
theorem C23_history_partial (sys : Sys N V) (hn : sys.names.Nodup) (hc : Complete sys) (ha : Acyclic sys)
    (pf : Nat) (p : Prep N) (hp : prepare sys pf = some p) (st0 st : St N V) (h0 : Start sys st0) (fuel : Nat)
    (ops : List (Op N V)) (hops : ∀ o ∈ ops, OpOK sys o) (hrun : run sys p.children fuel st0 ops = some st)
    (n : N) (hflat : ∀ e, sys.expr n = some e → ∀ d ∈ e.deps, sys.expr d = none ∨ Flat sys d)
    (w : N → V) (hw : Solves sys st.val w) (v : V) (st' : St N V)
    (hread : getval sys p.children fuel st n = some (v, st')) : v = w n := by
  have hch := prepare_direct hn hc pf p hp
  obtain ⟨w0, hw0⟩ := solution_exists sys ha st0.val
  obtain ⟨w1, hs, hi⟩ := run_inv hch ha fuel ops hops st0 st w0 hw0.eqs (h0.inv w0 hw0 _) hrun
  have := solution_unique sys ha st.val w w1 hw hs
  subst this
  exact ((eval_spec sys p.children hch w (Flat sys) (Flat.closed sys) hw.eqs fuel).1 st n v st' hi hread).2.2.1 hflat

/-- In particular two levels of constraints are always up to date. -/
theorem C23_two_levels (sys : Sys N V) (hn : sys.names.Nodup) (hc : Complete sys) (ha : Acyclic sys)
    (pf : Nat) (p : Prep N) (hp : prepare sys pf = some p) (st0 st : St N V) (h0 : Start sys st0) (fuel : Nat)
    (ops : List (Op N V)) (hops : ∀ o ∈ ops, OpOK sys o) (hrun : run sys p.children fuel st0 ops = some st)
    (n : N) (h2 : ∀ e, sys.expr n = some e → ∀ d ∈ e.deps, ∀ e', sys.expr d = some e' → ∀ b ∈ e'.deps, sys.expr b = none)
    (w : N → V) (hw : Solves sys st.val w) (v : V) (st' : St N V)
    (hread : getval sys p.children fuel st n = some (v, st')) : v = w n := by
  refine C23_history_partial sys hn hc ha pf p hp st0 st h0 fuel ops hops hrun n ?_ w hw v st' hread
  intro e he d hd
  cases hx : sys.expr d with
  | none => left; rfl
  | some e' =>
    right
    have h := h2 e he d hd e' hx
    refine Flat.intro d e' hx (fun b hb hne => absurd (h b hb) hne) ?_
    intro b hb e'' he''
    rw [h b hb] at he''; cases he''

/-- Reads never fail for lack of termination in an acyclic system: the hypotheses `… = some …` are met for every large enough
recursion limit. -/
theorem C23_reads_terminate (sys : Sys N V) (ch : N → List N) (ha : Acyclic sys) (n : N) :
    ∃ F, ∀ fuel, F ≤ fuel → ∀ st, (getval sys ch fuel st n).isSome := getval_total sys ch ha n

/-- `ns` lists parameters so that every constrained one comes after the constrained ones it mentions. -/
def DependencyOrder (sys : Sys N V) : List N → List N → Prop
  | _, [] => True
  | done, n :: ns =>
    (∀ e, sys.expr n = some e → ∀ d ∈ e.deps, sys.expr d = none ∨ d ∈ done) ∧ DependencyOrder sys (n :: done) ns

theorem topo_aux (sys : Sys N V) (ch : N → List N) (hch : Direct sys ch) (fuel : Nat) (w : N → V)
    (hw : ∀ n e, sys.expr n = some e → w n = sys.clamp n (e.eval (e.deps.map w))) (ns : List N) :
    ∀ (done : List N) (st st' : St N V) (vs : List V), DependencyOrder sys done ns →
      GClosed sys (fun c => c ∈ done ∧ sys.expr c ≠ none) → Inv sys w (fun c => c ∈ done ∧ sys.expr c ≠ none) st →
      readAll sys ch fuel st ns = some (vs, st') → vs = ns.map w := by
  induction ns with
  | nil =>
    intro done st st' vs _ _ _ e
    simp only [readAll, Option.some.injEq, Prod.mk.injEq] at e
    rw [← e.1]; rfl
  | cons n ns ih =>
    intro done st st' vs hord hG hinv e
    simp only [readAll] at e
    split at e
    · cases e
    next v st1 e1 =>
      split at e
      · cases e
      next vs1 st2 e2 =>
        simp only [Option.some.injEq, Prod.mk.injEq] at e
        obtain ⟨rfl, rfl⟩ := e
        have hread : ReadOK sys (fun c => c ∈ done ∧ sys.expr c ≠ none) n := by
          intro ex hx d hd
          rcases hord.1 ex hx d hd with q | q
          · exact Or.inl q
          · by_cases hdn : sys.expr d = none
            · exact Or.inl hdn
            · exact Or.inr ⟨q, hdn⟩
        obtain ⟨a1, -, a3, a4⟩ := (eval_spec sys ch hch w _ hG hw fuel).1 st n v st1 hinv e1
        have hv := a3 hread
        rw [hv]
        simp only [List.map_cons, List.cons.injEq, true_and]
        refine ih (n :: done) st1 st2 vs1 hord.2 ?_ ?_ e2
        · rintro c ⟨hc, hcn⟩
          rcases List.mem_cons.1 hc with rfl | hc
          · cases hx : sys.expr c with
            | none => exact absurd hx hcn
            | some ex =>
              refine ⟨ex, rfl, fun d hd => ?_⟩
              rcases hread ex hx d hd with q | q
              · exact Or.inl q
              · exact Or.inr ⟨List.mem_cons_of_mem _ q.1, q.2⟩
          · obtain ⟨ex, hx, hd⟩ := hG c ⟨hc, hcn⟩
            refine ⟨ex, hx, fun d hdm => ?_⟩
            rcases hd d hdm with q | q
            · exact Or.inl q
            · exact Or.inr ⟨List.mem_cons_of_mem _ q.1, q.2⟩
        · refine ⟨a1.base, a1.sbase, a1.inb, ?_⟩
          rintro c ⟨hc, hcn⟩
          rcases List.mem_cons.1 hc with rfl | hc
          · right; rw [a4 hcn, hv]
          · exact a1.good c ⟨hc, hcn⟩

/-- **C23, dependency order.** From *any* state whose symbol table is right on the unconstrained parameters (constrained ones
may be arbitrarily out of date), reading parameters in dependency order, at any depth, returns the values of their
expressions at the current values. -/
theorem C23_dependency_order (sys : Sys N V) (hn : sys.names.Nodup) (hc : Complete sys)
    (pf : Nat) (p : Prep N) (hp : prepare sys pf = some p) (fuel : Nat) (st st' : St N V)
    (hb : ∀ b, sys.expr b = none → st.sym b = none ∨ st.sym b = some (st.val b)) (hin : InBounds sys st.val)
    (ns : List N) (hord : DependencyOrder sys [] ns) (w : N → V) (hw : Solves sys st.val w) (vs : List V)
    (hread : readAll sys p.children fuel st ns = some (vs, st')) : vs = ns.map w := by
  refine topo_aux sys p.children (prepare_direct hn hc pf p hp) fuel w hw.eqs ns [] st st' vs hord ?_ ?_ hread
  · rintro c ⟨hc, -⟩; cases hc
  · refine ⟨hw.base, fun b hbn => ?_, hin, ?_⟩
    · rw [hw.base b hbn]; exact hb b hbn
    · rintro c ⟨hc, -⟩; cases hc

end Verif.Params
