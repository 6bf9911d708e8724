import Verif.Spec.Params

namespace Verif.Params

variable {N V : Type} [DecidableEq N]

/-! ### `prepare_params` -/

/-- the invariant of the loop of `prepare_params` -/
structure PInv (sys : Sys N V) (p : Prep N) : Prop where
  base : ∀ d, sys.expr d = none → p.children d = (prepInit sys).children d
  con : ∀ d n, sys.expr d ≠ none → n ∈ p.children d → n ∈ sys.names ∧ d ∈ p.deps n
  nodup : ∀ n, (p.deps n).Nodup
  cnodup : ∀ n, (p.children n).Nodup

theorem nodup_filter_append {ds es : List N} (h1 : ds.Nodup) (h2 : es.Nodup) :
    (ds ++ es.filter (fun x => decide (x ∉ ds))).Nodup := by
  rw [List.nodup_append]
  refine ⟨h1, h2.filter _, ?_⟩
  intro a ha b hb e
  subst e
  simp at hb
  exact hb.2 ha

theorem prepScan_inv {sys : Sys N V} (hn : sys.names.Nodup) (n : N) (fuel i : Nat) (p p' : Prep N) (r r' : Bool)
    (h : PInv sys p) (e : prepScan (fun d => (sys.expr d).isSome) n fuel i p r = some (p', r')) :
    PInv sys p' ∧ (r' = false → r = false ∧ p' = p ∧ ∀ j d, i ≤ j → (p.deps n)[j]? = some d → sys.expr d = none) := by
  induction fuel generalizing i p r with
  | zero => simp [prepScan] at e
  | succ fuel ih =>
    simp only [prepScan] at e
    split at e
    next hi =>
      simp only [Option.some.injEq, Prod.mk.injEq] at e
      obtain ⟨rfl, rfl⟩ := e
      refine ⟨h, fun hr => ⟨hr, rfl, fun j d hj hd => ?_⟩⟩
      rw [List.getElem?_eq_none_iff] at hi
      rw [List.getElem?_eq_none (by omega)] at hd
      cases hd
    next d hd =>
      split at e
      next hc =>
        have hc' : sys.expr d ≠ none := by intro hx; simp [hx] at hc
        have hq : PInv sys { deps := upd p.deps n ((p.deps n).erase d ++
              (p.deps d).filter (fun x => decide (x ∉ (p.deps n).erase d)))
                             children := upd p.children d ((p.children d).erase n) } := by
          refine ⟨?_, ?_, ?_, ?_⟩
          · intro b hb
            have hbd : b ≠ d := by intro hx; subst hx; exact hc' hb
            simp only [upd, hbd, if_false]
            exact h.base b hb
          · intro c m hcn hm
            simp only [upd] at hm ⊢
            by_cases hcd : c = d
            · subst hcd
              simp only [if_true] at hm
              have hmn : m ≠ n := by
                intro hx; subst hx
                exact List.Nodup.not_mem_erase (h.cnodup c) hm
              have hm' : m ∈ p.children c := List.mem_of_mem_erase hm
              simp only [hmn, if_false]
              exact h.con c m hcn hm'
            · simp only [hcd, if_false] at hm
              obtain ⟨q1, q2⟩ := h.con c m hcn hm
              refine ⟨q1, ?_⟩
              split
              next hmn =>
                subst hmn
                refine List.mem_append_left _ ((List.mem_erase_of_ne hcd).2 q2)
              next => exact q2
          · intro m
            simp only [upd]
            split
            · exact nodup_filter_append ((h.nodup n).erase d) (h.nodup d)
            · exact h.nodup m
          · intro m
            simp only [upd]
            split
            · exact (h.cnodup d).erase n
            · exact h.cnodup m
        obtain ⟨h1, h2⟩ := ih _ _ _ hq e
        refine ⟨h1, fun hr => ?_⟩
        have := (h2 hr).1
        cases this
      next hc =>
        obtain ⟨h1, h2⟩ := ih _ _ _ h e
        refine ⟨h1, fun hr => ?_⟩
        obtain ⟨q1, q2, q3⟩ := h2 hr
        refine ⟨q1, q2, fun j d' hj hd' => ?_⟩
        by_cases hji : j = i
        · subst hji
          rw [hd] at hd'
          cases hd'
          simpa using hc
        · exact q3 j d' (by omega) hd'

theorem prepPass_inv {sys : Sys N V} (hn : sys.names.Nodup) (fuel : Nat) (ns : List N) (p p' : Prep N) (r r' : Bool)
    (h : PInv sys p) (e : prepPass (fun d => (sys.expr d).isSome) fuel ns p r = some (p', r')) :
    PInv sys p' ∧ (r' = false → r = false ∧ p' = p ∧ ∀ n ∈ ns, ∀ d ∈ p.deps n, sys.expr d = none) := by
  induction ns generalizing p r with
  | nil =>
    simp only [prepPass, Option.some.injEq, Prod.mk.injEq] at e
    obtain ⟨rfl, rfl⟩ := e
    exact ⟨h, fun hr => ⟨hr, rfl, by simp⟩⟩
  | cons n ns ih =>
    simp only [prepPass] at e
    split at e
    · cases e
    next p1 r1 e1 =>
      obtain ⟨a1, a2⟩ := prepScan_inv hn n fuel 0 p p1 r r1 h e1
      obtain ⟨b1, b2⟩ := ih p1 r1 a1 e
      refine ⟨b1, fun hr => ?_⟩
      obtain ⟨q1, q2, q3⟩ := b2 hr
      obtain ⟨s1, s2, s3⟩ := a2 q1
      subst s2
      refine ⟨s1, q2, ?_⟩
      intro m hm d hd
      rcases List.mem_cons.1 hm with rfl | hm
      · obtain ⟨j, hj, hj'⟩ := List.getElem_of_mem hd
        exact s3 j d (Nat.zero_le _) (by rw [List.getElem?_eq_getElem hj, hj'])
      · exact q3 m hm d hd

theorem prepLoop_inv {sys : Sys N V} (hn : sys.names.Nodup) (fuel k : Nat) (p p' : Prep N) (h : PInv sys p)
    (e : prepLoop (fun d => (sys.expr d).isSome) sys.names fuel k p = some p') :
    PInv sys p' ∧ ∀ n ∈ sys.names, ∀ d ∈ p'.deps n, sys.expr d = none := by
  induction k generalizing p with
  | zero => simp [prepLoop] at e
  | succ k ih =>
    simp only [prepLoop] at e
    split at e
    · cases e
    next p1 e1 =>
      exact ih p1 (prepPass_inv hn fuel _ p p1 _ _ h e1).1 e
    next p1 e1 =>
      simp only [Option.some.injEq] at e
      subst e
      obtain ⟨a1, a2⟩ := prepPass_inv hn fuel _ p p1 _ _ h e1
      obtain ⟨-, q2, q3⟩ := a2 rfl
      subst q2
      exact ⟨a1, q3⟩

theorem eraseDups_nodup' (l : List N) : l.eraseDups.Nodup := by
  generalize hk : l.length = k
  induction k using Nat.strongRecOn generalizing l with
  | ind k ih =>
    cases l with
    | nil => simp
    | cons a l =>
      rw [List.eraseDups_cons, List.nodup_cons]
      refine ⟨by simp [List.mem_eraseDups], ih (l.filter _).length ?_ _ rfl⟩
      have := List.length_filter_le (fun b => !(b == a)) l
      simp at hk
      omega

theorem prepInit_inv {sys : Sys N V} (hn : sys.names.Nodup) : PInv sys (prepInit sys) := by
  refine ⟨fun _ _ => rfl, ?_, ?_, ?_⟩
  · intro d n _ hm
    simp only [prepInit, List.mem_filter] at hm
    refine ⟨hm.1, ?_⟩
    have h2 := hm.2
    cases he : sys.expr n with
    | none => simp [he] at h2
    | some e =>
      simp only [he, Bool.and_eq_true, decide_eq_true_eq] at h2
      simp only [prepInit, he, List.mem_eraseDups, List.mem_filter, decide_eq_true_eq]
      exact h2
  · intro n
    simp only [prepInit]
    split
    · simp
    · exact eraseDups_nodup' _
  · intro n
    exact hn.filter _

/-- children sets as left by `prepare_params`: the direct users of unconstrained parameters, nothing for constrained ones -/
structure Direct (sys : Sys N V) (children : N → List N) : Prop where
  base : ∀ b n, sys.expr b = none → (n ∈ children b ↔ ∃ e, sys.expr n = some e ∧ b ∈ e.deps)
  con : ∀ c, sys.expr c ≠ none → children c = []

theorem prepare_direct {sys : Sys N V} (hn : sys.names.Nodup) (hc : Complete sys) (fuel : Nat) (p : Prep N)
    (e : prepare sys fuel = some p) : Direct sys p.children := by
  obtain ⟨h1, h2⟩ := prepLoop_inv hn fuel fuel _ p (prepInit_inv hn) e
  refine ⟨?_, ?_⟩
  · intro b n hb
    rw [h1.base b hb]
    simp only [prepInit, List.mem_filter]
    constructor
    · rintro ⟨-, hx⟩
      cases he : sys.expr n with
      | none => simp [he] at hx
      | some e => simp only [he, Bool.and_eq_true, decide_eq_true_eq] at hx; exact ⟨e, rfl, hx.1⟩
    · rintro ⟨e, he, hb'⟩
      have := hc n e he
      refine ⟨this.1, ?_⟩
      simp only [he, Bool.and_eq_true, decide_eq_true_eq]
      exact ⟨hb', this.2 b hb'⟩
  · intro c hcn
    cases hx : p.children c with
    | nil => rfl
    | cons n ns =>
      have := h1.con c n hcn (by rw [hx]; exact List.mem_cons_self)
      exact absurd (h2 n this.1 c this.2) hcn

/-! ### Evaluation -/

/-- the state is consistent with the solution `w` on the symbols in `G` -/
structure Inv (sys : Sys N V) (w : N → V) (G : N → Prop) (st : St N V) : Prop where
  base : ∀ b, sys.expr b = none → w b = st.val b
  sbase : ∀ b, sys.expr b = none → st.sym b = none ∨ st.sym b = some (w b)
  inb : InBounds sys st.val
  good : ∀ c, G c → st.sym c = none ∨ st.sym c = some (w c)

/-- `G` is closed under constrained dependencies -/
def GClosed (sys : Sys N V) (G : N → Prop) : Prop :=
  ∀ c, G c → ∃ e, sys.expr c = some e ∧ ∀ d ∈ e.deps, sys.expr d = none ∨ G d

/-- all names that the expression of `n` mentions are unconstrained or in `G` -/
def ReadOK (sys : Sys N V) (G : N → Prop) (n : N) : Prop :=
  ∀ e, sys.expr n = some e → ∀ d ∈ e.deps, sys.expr d = none ∨ G d

theorem Inv.set_con {sys : Sys N V} {w : N → V} {G : N → Prop} {st : St N V} {ch : N → List N}
    (hch : Direct sys ch) (h : Inv sys w G st) (n : N) (hn : sys.expr n ≠ none) (v : V) (hv : G n → v = w n) :
    Inv sys w G (st.set ch n v) := by
  have hne : ∀ b, sys.expr b = none → b ≠ n := by intro b hb hx; subst hx; exact hn hb
  refine ⟨?_, ?_, ?_, ?_⟩
  · intro b hb; simp only [St.set, upd, hne b hb, if_false]; exact h.base b hb
  · intro b hb
    simp only [St.set, upd, hne b hb, if_false, hch.con n hn, List.not_mem_nil]
    exact h.sbase b hb
  · intro b hb hv'
    simp only [St.set, upd, hne b hb, if_false]
    exact h.inb b hb hv'
  · intro c hc
    simp only [St.set, hch.con n hn, List.not_mem_nil, if_false, upd]
    split
    next hx => subst hx; right; rw [hv hc]
    next => exact h.good c hc

theorem Inv.set_same {sys : Sys N V} {w : N → V} {G : N → Prop} {st : St N V} {ch : N → List N}
    (h : Inv sys w G st) (n : N) (hn : sys.expr n = none) (hG : ∀ c, G c → sys.expr c ≠ none) :
    Inv sys w G (st.set ch n (st.val n)) := by
  have hval : (st.set ch n (st.val n)).val = st.val := by
    funext b; simp only [St.set, upd]; split
    next hx => subst hx; rfl
    next => rfl
  refine ⟨by rw [hval]; exact h.base, ?_, by rw [hval]; exact h.inb, ?_⟩
  · intro b hb
    simp only [St.set, upd]
    split
    · left; rfl
    · split
      next hx => subst hx; right; rw [h.base b hb]
      next => exact h.sbase b hb
  · intro c hc
    simp only [St.set, upd]
    split
    · left; rfl
    · split
      next hx => subst hx; exact absurd hn (hG c hc)
      next => exact h.good c hc

/-- the main lemma about evaluation -/
theorem eval_spec (sys : Sys N V) (ch : N → List N) (hch : Direct sys ch) (w : N → V) (G : N → Prop)
    (hG : GClosed sys G) (hw : ∀ n e, sys.expr n = some e → w n = sys.clamp n (e.eval (e.deps.map w))) (fuel : Nat) :
    (∀ st n v st', Inv sys w G st → getval sys ch fuel st n = some (v, st') →
      Inv sys w G st' ∧ (∀ b, sys.expr b = none → st'.val b = st.val b) ∧
      (ReadOK sys G n → v = w n) ∧ (sys.expr n ≠ none → st'.sym n = some v)) ∧
    (∀ st ds vs st', Inv sys w G st → readDeps sys ch fuel st ds = some (vs, st') →
      Inv sys w G st' ∧ (∀ b, sys.expr b = none → st'.val b = st.val b) ∧
      ((∀ d ∈ ds, sys.expr d = none ∨ G d) → vs = ds.map w)) := by
  have hGc : ∀ c, G c → sys.expr c ≠ none := by
    intro c hc hx
    obtain ⟨e, he, -⟩ := hG c hc
    rw [hx] at he; cases he
  induction fuel with
  | zero =>
    refine ⟨fun st n v st' _ e => by simp [getval] at e, fun st ds vs st' h e => ?_⟩
    cases ds with
    | nil =>
      simp only [readDeps, Option.some.injEq, Prod.mk.injEq] at e
      obtain ⟨rfl, rfl⟩ := e
      exact ⟨h, fun _ _ => rfl, fun _ => rfl⟩
    | cons d ds => simp [readDeps] at e
  | succ fuel ih =>
    obtain ⟨ih1, ih2⟩ := ih
    refine ⟨fun st n v st' h e => ?_, fun st ds vs st' h e => ?_⟩
    · simp only [getval] at e
      cases hx : sys.expr n with
      | none =>
        simp only [hx] at e
        split at e
        next hv =>
          simp only [Option.some.injEq, Prod.mk.injEq] at e
          obtain ⟨rfl, rfl⟩ := e
          rw [h.inb n hx hv]
          refine ⟨h.set_same n hx hGc, fun b _ => ?_, fun _ => (h.base n hx).symm, fun hne => absurd rfl hne⟩
          simp only [St.set, upd]; split
          next hb => subst hb; rfl
          next => rfl
        next =>
          simp only [Option.some.injEq, Prod.mk.injEq] at e
          obtain ⟨rfl, rfl⟩ := e
          exact ⟨h, fun _ _ => rfl, fun _ => (h.base n hx).symm, fun hne => absurd rfl hne⟩
      | some ex =>
        simp only [hx] at e
        split at e
        · cases e
        next vs st1 e1 =>
          simp only [Option.some.injEq, Prod.mk.injEq] at e
          obtain ⟨rfl, rfl⟩ := e
          obtain ⟨a1, a2, a3⟩ := ih2 st ex.deps vs st1 h e1
          have hnn : sys.expr n ≠ none := by rw [hx]; simp
          have hval : ReadOK sys G n → sys.clamp n (ex.eval vs) = w n := by
            intro hr
            rw [a3 (hr ex hx), hw n ex hx]
          have hgood : G n → sys.clamp n (ex.eval vs) = w n := by
            intro hg
            refine hval ?_
            obtain ⟨e', he', hd⟩ := hG n hg
            intro e'' he''
            rw [he'] at he''; cases he''
            exact hd
          have hne : ∀ b, sys.expr b = none → b ≠ n := by intro b hb hx; subst hx; exact hnn hb
          have htwice : (st1.set ch n (ex.eval vs)).set ch n (sys.clamp n (ex.eval vs)) =
              st1.set ch n (sys.clamp n (ex.eval vs)) := by
            simp only [St.set, hch.con n hnn, List.not_mem_nil, if_false, St.mk.injEq]
            constructor <;> (funext m; simp only [upd]; split <;> rfl)
          rw [htwice]
          refine ⟨a1.set_con hch n hnn _ hgood, ?_, hval, ?_⟩
          · intro b hb
            simp only [St.set, upd, hne b hb, if_false]
            exact a2 b hb
          · intro _
            simp [St.set, hch.con n hnn, upd]
    · cases ds with
      | nil =>
        simp only [readDeps, Option.some.injEq, Prod.mk.injEq] at e
        obtain ⟨rfl, rfl⟩ := e
        exact ⟨h, fun _ _ => rfl, fun _ => rfl⟩
      | cons d ds =>
        simp only [readDeps] at e
        split at e
        next x hs =>
          split at e
          · cases e
          next ws st1 e1 =>
            simp only [Option.some.injEq, Prod.mk.injEq] at e
            obtain ⟨rfl, rfl⟩ := e
            obtain ⟨a1, a2, a3⟩ := ih2 st ds ws st1 h e1
            refine ⟨a1, a2, fun hd => ?_⟩
            have hxw : x = w d := by
              rcases hd d List.mem_cons_self with hb | hg
              · rcases h.sbase d hb with q | q <;> rw [hs] at q <;> cases q; rfl
              · rcases h.good d hg with q | q <;> rw [hs] at q <;> cases q; rfl
            rw [hxw, a3 (fun d' hd' => hd d' (List.mem_cons_of_mem _ hd'))]
            rfl
        next hs =>
          split at e
          · cases e
          next x st0 e0 =>
            obtain ⟨b1, b2, b3, -⟩ := ih1 st d x st0 h e0
            split at e
            · cases e
            next ws st1 e1 =>
              simp only [Option.some.injEq, Prod.mk.injEq] at e
              obtain ⟨rfl, rfl⟩ := e
              obtain ⟨a1, a2, a3⟩ := ih2 st0 ds ws st1 b1 e1
              refine ⟨a1, fun b hb => (a2 b hb).trans (b2 b hb), fun hd => ?_⟩
              have hxw : x = w d := by
                refine b3 ?_
                rcases hd d List.mem_cons_self with hb | hg
                · intro e' he'; rw [hb] at he'; cases he'
                · obtain ⟨e', he', hd'⟩ := hG d hg
                  intro e'' he''
                  rw [he'] at he''; cases he''
                  exact hd'
              rw [hxw, a3 (fun d' hd' => hd d' (List.mem_cons_of_mem _ hd'))]
              rfl

/-! ### Totality -/

theorem readDeps_total (sys : Sys N V) (ch : N → List N) (ds : List N) (F : Nat)
    (h : ∀ d ∈ ds, ∀ fuel, F ≤ fuel → ∀ st, (getval sys ch fuel st d).isSome) :
    ∀ fuel, F + ds.length ≤ fuel → ∀ st, (readDeps sys ch fuel st ds).isSome := by
  induction ds with
  | nil => intro fuel _ st; cases fuel <;> simp [readDeps]
  | cons d ds ih =>
    intro fuel hf st
    simp only [List.length_cons] at hf
    cases fuel with
    | zero => omega
    | succ fuel =>
      have ih' := ih (fun d' hd' => h d' (List.mem_cons_of_mem _ hd')) fuel (by omega)
      simp only [readDeps]
      split
      · split
        next hx => have := ih' st; rw [hx] at this; simp at this
        next => simp
      · have hg := h d List.mem_cons_self fuel (by omega) st
        split
        next hx => rw [hx] at hg; simp at hg
        next st1 _ =>
          split
          next hx => have := ih' st1; rw [hx] at this; simp at this
          next => simp

theorem getval_total (sys : Sys N V) (ch : N → List N) (ha : Acyclic sys) (n : N) :
    ∃ F, ∀ fuel, F ≤ fuel → ∀ st, (getval sys ch fuel st n).isSome := by
  obtain ⟨rank, hr⟩ := ha
  generalize hk : rank n = k
  induction k using Nat.strongRecOn generalizing n with
  | ind k ih =>
    cases hx : sys.expr n with
    | none =>
      refine ⟨1, fun fuel hf st => ?_⟩
      cases fuel with
      | zero => omega
      | succ fuel => simp only [getval, hx]; split <;> simp
    | some e =>
      have hF : ∃ F, ∀ d ∈ e.deps, ∀ fuel, F ≤ fuel → ∀ st, (getval sys ch fuel st d).isSome := by
        have hd : ∀ d ∈ e.deps, ∃ F, ∀ fuel, F ≤ fuel → ∀ st, (getval sys ch fuel st d).isSome :=
          fun d hd => ih (rank d) (by rw [← hk]; exact hr n e hx d hd) d rfl
        revert hd
        generalize e.deps = ds
        intro hd
        induction ds with
        | nil => exact ⟨0, by simp⟩
        | cons a l ihl =>
          obtain ⟨F1, h1⟩ := hd a List.mem_cons_self
          obtain ⟨F2, h2⟩ := ihl (fun d h => hd d (List.mem_cons_of_mem _ h))
          refine ⟨max F1 F2, fun d hdm fuel hf st => ?_⟩
          rcases List.mem_cons.1 hdm with rfl | hdm
          · exact h1 fuel (by omega) st
          · exact h2 d hdm fuel (by omega) st
      obtain ⟨F, hF⟩ := hF
      refine ⟨F + e.deps.length + 1, fun fuel hf st => ?_⟩
      cases fuel with
      | zero => omega
      | succ fuel =>
        have := readDeps_total sys ch e.deps F hF fuel (by omega) st
        simp only [getval, hx]
        split
        next hy => rw [hy] at this; simp at this
        next => simp

/-! ### Solutions -/

theorem solution_unique (sys : Sys N V) (ha : Acyclic sys) (base w w' : N → V) (h : Solves sys base w)
    (h' : Solves sys base w') : w = w' := by
  obtain ⟨rank, hr⟩ := ha
  funext n
  generalize hk : rank n = k
  induction k using Nat.strongRecOn generalizing n with
  | ind k ih =>
    have h1 := h n
    have h2 := h' n
    cases hx : sys.expr n with
    | none => simp only [hx] at h1 h2; rw [h1, h2]
    | some e =>
      simp only [hx] at h1 h2
      rw [h1, h2]
      have : e.deps.map w = e.deps.map w' :=
        List.map_congr_left fun d hd => ih (rank d) (by rw [← hk]; exact hr n e hx d hd) d rfl
      rw [this]

/-- evaluation with a bound on the depth -/
def evalTo (sys : Sys N V) (base : N → V) : Nat → N → V
  | 0, n => base n
  | k + 1, n => match sys.expr n with
    | none => base n
    | some e => sys.clamp n (e.eval (e.deps.map (evalTo sys base k)))

theorem solution_exists (sys : Sys N V) (ha : Acyclic sys) (base : N → V) : ∃ w, Solves sys base w := by
  obtain ⟨rank, hr⟩ := ha
  have stable : ∀ k n, rank n < k → ∀ j, rank n < j → evalTo sys base k n = evalTo sys base j n := by
    intro k
    induction k with
    | zero => intro n h; omega
    | succ k ih =>
      intro n hk j hj
      cases j with
      | zero => omega
      | succ j =>
        simp only [evalTo]
        cases hx : sys.expr n with
        | none => rfl
        | some e =>
          simp only
          have : e.deps.map (evalTo sys base k) = e.deps.map (evalTo sys base j) :=
            List.map_congr_left fun d hd => by
              have := hr n e hx d hd
              exact ih d (by omega) j (by omega)
          rw [this]
  refine ⟨fun n => evalTo sys base (rank n + 1) n, fun n => ?_⟩
  cases hx : sys.expr n with
  | none => simp only; rw [evalTo]; simp [hx]
  | some e =>
    simp only
    rw [evalTo]
    simp only [hx]
    have : e.deps.map (evalTo sys base (rank n)) = e.deps.map (fun n => evalTo sys base (rank n + 1) n) :=
      List.map_congr_left fun d hd => stable _ d (hr n e hx d hd) _ (by omega)
    rw [this]

end Verif.Params
