/-
C136: temporary sources of dark matter spectra are used inside their block and undone after it.
-/
import Verif.Spec.Loaded
import Verif.Lemmas.CachePreserve

namespace Verif.Loaded

open Verif.Cache

variable {N V : Type} [DecidableEq N]

/-! ### Classes with data -/

theorem lookup_map_inst (t : V → Bool) (D : Data N V) (n : N) : ∀ c : List (N × DAttr N V),
    (c.map fun e => (e.1, e.2.inst t D)).lookup n = (c.lookup n).map (DAttr.inst t D) := by
  intro c
  induction c with
  | nil => rfl
  | cons e c ih =>
    obtain ⟨k, a⟩ := e
    simp only [List.map_cons, List.lookup_cons, ih]
    cases h : n == k <;> simp

/-- lookup in the class -/
def DSchema.lookup (S : DSchema N V) (n : N) : Option (DAttr N V) := S.mro.findSome? fun c => c.lookup n

theorem lookup_at (S : DSchema N V) (D : Data N V) (n : N) : (S.at D).lookup n = (S.lookup n).map (DAttr.inst S.truthy D) := by
  unfold Schema.lookup DSchema.at DSchema.lookup
  dsimp only
  induction S.mro with
  | nil => rfl
  | cons c l ih =>
    simp only [List.map_cons, List.findSome?_cons, lookup_map_inst]
    cases c.lookup n with
    | none => exact ih
    | some a => rfl

theorem isCached_at {S : DSchema N V} {D : Data N V} (D' : Data N V) {n : N} (h : (S.at D).IsCached n) : (S.at D').IsCached n := by
  obtain ⟨ps, b, i, h⟩ := h
  rw [lookup_at] at h
  cases hl : S.lookup n with
  | none => rw [hl] at h; cases h
  | some a =>
    cases a with
    | param f d => rw [hl] at h; cases h
    | cached qs b' i' => exact ⟨qs, b'.inst S.truthy D', i', by rw [lookup_at, hl]; rfl⟩

/-- bodies that cannot look at the term `p` do not depend on its data -/
theorem runBodyE_inst {t : V → Bool} {D D' : Data N V} {p : N} (hD : ∀ q, q ≠ p → D q = D' q) {ps : List N} (hp : p ∉ ps) {g g' : N → Except Err V} (hg : ∀ n ∈ ps, g n = g' n) :
    ∀ b : DBody N V, (b.inst t D).ReadsOnly ps → runBodyE g (b.inst t D) = runBodyE g' (b.inst t D') := by
  intro b
  induction b with
  | ret v => intro _; rfl
  | raise => intro _; rfl
  | read n k ih =>
    intro hr
    simp only [DBody.inst, runBodyE, hg n hr.1]
    cases g' n with
    | error e => rfl
    | ok v => exact ih v (hr.2 v)
  | loaded q k b ihk ihb =>
    intro hr
    simp only [DBody.inst, Body.ReadsOnly] at hr
    have hq : q ≠ p := fun e => hp (e ▸ hr.1)
    simp only [DBody.inst, runBodyE, hg q hr.1, hD q hq]
    cases g' q with
    | error e => rfl
    | ok v =>
      have hv := hr.2 v
      dsimp only
      by_cases htr : t v = true
      · simp only [htr, if_true, hD q hq] at hv ⊢
        cases hd : D' q with
        | none => rfl
        | some d => rw [hd] at hv; exact ihk d hv
      · simp only [htr, if_false, Bool.false_eq_true] at hv ⊢
        exact ihb hv

/-- while the flag of `p` is off, nothing depends on the data of `p` -/
theorem runBodyE_off {t : V → Bool} {D D' : Data N V} {p : N} (hD : ∀ q, q ≠ p → D q = D' q) {g g' : N → Except Err V} (hg : ∀ n, g n = g' n)
    (hoff : ∀ v, g' p = .ok v → t v = false) : ∀ b : DBody N V, runBodyE g (b.inst t D) = runBodyE g' (b.inst t D') := by
  intro b
  induction b with
  | ret v => rfl
  | raise => rfl
  | read n k ih =>
    simp only [DBody.inst, runBodyE, hg n]
    cases g' n with
    | error e => rfl
    | ok v => exact ih v
  | loaded q k b ihk ihb =>
    simp only [DBody.inst, runBodyE, hg q]
    cases hgq : g' q with
    | error e => rfl
    | ok v =>
      dsimp only
      by_cases hq : q = p
      · subst hq
        simp only [hoff v hgq, Bool.false_eq_true, if_false]
        exact ihb
      · by_cases htr : t v = true
        · simp only [htr, if_true, hD q hq]
          cases D' q with
          | none => rfl
          | some d => exact ihk d
        · simp only [htr, if_false, Bool.false_eq_true]
          exact ihb

theorem mayRead_self_of_declares {s : Schema N V} {n p : N} (h : s.Declares n p) : s.MayRead n p := .cons (.inl h) (.refl p)

theorem eval_other {S : DSchema N V} {rank} (hS : S.OK rank) {D D' : Data N V} {p : N} (hD : ∀ q, q ≠ p → D q = D' q) (π : N → Option V) :
    ∀ (f : Nat) (n : N), ¬ (S.at D).MayRead n p → eval (S.at D) π f n = eval (S.at D') π f n := by
  have hstep : ∀ (g g' : N → Except Err V) (n : N), ¬ (S.at D).MayRead n p → (∀ m, ((S.at D).Declares n m ∨ (S.at D).DefaultsTo n m) → g m = g' m) →
      evalStep (S.at D) g π n = evalStep (S.at D') g' π n := by
    intro g g' n hn hg
    have hl := lookup_at S D n
    have hl' := lookup_at S D' n
    unfold evalStep
    rw [hl, hl']
    cases ha : S.lookup n with
    | none => rfl
    | some a =>
      rw [ha] at hl hl'
      cases a with
      | param f d =>
        simp only [Option.map_some, DAttr.inst] at hl hl' ⊢
        cases π n with
        | some v => rfl
        | none =>
          cases d with
          | none => rfl
          | value v => rfl
          | attr m => exact hg m (.inr ⟨f, hl⟩)
      | cached ps b i =>
        simp only [Option.map_some, DAttr.inst] at hl hl' ⊢
        have hro := (hS.wf D).reads n ps _ i hl
        refine runBodyE_inst hD (ps := ps) (fun hp => hn (mayRead_self_of_declares ⟨ps, _, i, hl, hp⟩)) (fun m hm => hg m (.inl ⟨ps, _, i, hl, hm⟩)) b hro
  intro f
  induction f with
  | zero => intro n hn; exact hstep _ _ n hn fun _ _ => rfl
  | succ f ih =>
    intro n hn
    exact hstep _ _ n hn fun m hm => ih m fun h => hn (.cons hm h)

theorem eval_off {S : DSchema N V} {rank} (hS : S.OK rank) {D D' : Data N V} {p : N} (hp : p ∈ S.flags) (hD : ∀ q, q ≠ p → D q = D' q) (π : N → Option V) (hπ : π p = some S.ff) :
    ∀ (f : Nat) (n : N), eval (S.at D) π f n = eval (S.at D') π f n := by
  have hstep : ∀ (g g' : N → Except Err V) (n : N), (∀ m, g m = g' m) → (∀ v, g' p = .ok v → S.truthy v = false) → evalStep (S.at D) g π n = evalStep (S.at D') g' π n := by
    intro g g' n hg hoff
    unfold evalStep
    rw [lookup_at, lookup_at]
    cases S.lookup n with
    | none => rfl
    | some a =>
      cases a with
      | param f d =>
        simp only [Option.map_some, DAttr.inst]
        cases π n with
        | some v => rfl
        | none =>
          cases d with
          | none => rfl
          | value v => rfl
          | attr m => exact hg m
      | cached ps b i =>
        simp only [Option.map_some, DAttr.inst]
        exact runBodyE_off hD hg hoff b
  have hpv : ∀ (f : Nat) (v : V), eval (S.at D') π f p = .ok v → S.truthy v = false := by
    intro f v h
    obtain ⟨d, hl⟩ := hS.flag p hp D'
    have : eval (S.at D') π f p = .ok S.ff := by
      cases f <;> simp [eval, evalStep, hl, hπ]
    rw [this] at h
    cases h
    exact hS.ff
  intro f
  induction f with
  | zero => intro n; exact hstep _ _ n (fun _ => rfl) (fun v h => by cases h)
  | succ f ih => intro n; exact hstep _ _ n ih (hpv f)

/-! ### The invariant -/

/-- cached values are right, nothing is overridden, exactly the flags of loaded terms are on -/
structure Good (S : DSchema N V) (F : Nat) (o : Obj N V) : Prop where
  inv : Inv (S.at o.data) F (fun _ => True) o.st
  noov : o.st.overrides = fun _ => none
  flag : ∀ p ∈ S.flags, o.st.params p = some (if (o.data p).isSome then S.tt else S.ff)
  dom : ∀ p, (o.data p).isSome → p ∈ S.flags

theorem upd_other {D : Data N V} {p : N} {x : Option V} : ∀ q, q ≠ p → D q = upd D p x q := fun q h => by simp [upd, h]

theorem setAttr_flip {S : DSchema N V} {rank} (hS : S.OK rank) {F : Nat} {D : Data N V} {p : N} (hp : p ∈ S.flags) {σ : State N V} {x old : V} (h1 : σ.params p = some old) (h2 : S.eqv x old = false) :
    (setAttr (S.at D) F p x σ).2 = { σ with params := upd σ.params p (some x), cache := popAll σ.cache ((S.at D).deps F p) } := by
  obtain ⟨d, hl⟩ := hS.flag p hp D
  have h2' : (S.at D).eqv x old = false := h2
  simp [setAttr, hl, h1, h2']

variable {S : DSchema N V} {rank : N → Nat} {F : Nat}

theorem load_good (hS : S.OK rank) (hF : ∀ n, rank n < F) {o : Obj N V} (ho : Good S F o) {p : N} (hp : p ∈ S.flags) (hno : o.data p = none) (d : V) :
    Good S F (load S F o p d) ∧ (load S F o p d).data = upd o.data p (some d) ∧ (load S F o p d).st.params = upd o.st.params p (some S.tt) := by
  have hoff : o.st.params p = some S.ff := by rw [ho.flag p hp, hno]; rfl
  have hst := setAttr_flip hS (F := F) (D := upd o.data p (some d)) hp hoff hS.tf
  have hl : load S F o p d = ⟨(setAttr (S.at (upd o.data p (some d))) F p S.tt o.st).2, upd o.data p (some d)⟩ := by unfold load; rw [if_pos hp]
  have hI : Inv (S.at (upd o.data p (some d))) F (fun _ => True) o.st := by
    intro n v _ hc hv
    rw [← eval_off hS hp upd_other o.st.params hoff F n]
    exact ho.inv n v trivial (isCached_at _ hc) hv
  rw [hl]
  refine ⟨⟨?_, ?_, ?_, ?_⟩, rfl, by rw [hst]⟩
  · exact setAttr_inv (hS.wf _) (hS.covered _) hF hI
  · exact setAttr_overrides.trans ho.noov
  · intro q hq
    dsimp only
    rw [hst]
    by_cases h : q = p
    · subst h; simp [upd]
    · simp only [upd, h, if_false]; exact ho.flag q hq
  · intro q hq
    by_cases h : q = p
    · subst h; exact hp
    · simp only [upd, h, if_false] at hq; exact ho.dom q hq

theorem unload_good (hS : S.OK rank) (hF : ∀ n, rank n < F) {o : Obj N V} (ho : Good S F o) (p : N) :
    Good S F (unload S F o p) ∧ (unload S F o p).data = upd o.data p none ∧
    (unload S F o p).st.params = if (o.data p).isSome then upd o.st.params p (some S.ff) else o.st.params := by
  by_cases hs : (o.data p).isSome
  · have hp := ho.dom p hs
    have hon : o.st.params p = some S.tt := by rw [ho.flag p hp, if_pos hs]
    have hst := setAttr_flip hS (F := F) (D := upd o.data p none) hp hon hS.ft
    have hl : unload S F o p = ⟨(setAttr (S.at (upd o.data p none)) F p S.ff o.st).2, upd o.data p none⟩ := by unfold unload; rw [if_pos hs]
    rw [hl]
    refine ⟨⟨?_, ?_, ?_, ?_⟩, rfl, by rw [hst, if_pos hs]⟩
    · dsimp only
      rw [hst]
      intro n w _ hcn hc
      simp only at hc ⊢
      unfold popAll at hc
      split at hc
      · cases hc
      · rename_i hnd
        rw [mem_deps_iff (hS.wf _).toShape hF hcn] at hnd
        obtain ⟨dd, hlk⟩ := hS.flag p hp (upd o.data p none)
        have hnr : ¬ (S.at (upd o.data p none)).MayRead n p := fun h => hnd (Or.inl (hS.covered _ n p hcn ⟨some, dd, hlk⟩ h))
        rw [not_mayRead_agree (hS.wf _) hnr, eval_other hS (D' := o.data) (fun q h => (upd_other q h).symm) _ F n hnr]
        exact ho.inv n w trivial (isCached_at _ hcn) hc
    · exact setAttr_overrides.trans ho.noov
    · intro q hq
      dsimp only
      rw [hst]
      by_cases h : q = p
      · subst h; simp [upd]
      · simp only [upd, h, if_false]; exact ho.flag q hq
    · intro q hq
      by_cases h : q = p
      · subst h; exact hp
      · simp only [upd, h, if_false] at hq; exact ho.dom q hq
  · have hl : unload S F o p = o := by unfold unload; rw [if_neg hs]
    rw [hl, if_neg hs]
    refine ⟨ho, ?_, rfl⟩
    funext q
    by_cases h : q = p
    · subst h
      simp only [upd, if_true]
      cases hd : o.data q with
      | none => rfl
      | some x => rw [hd] at hs; simp at hs
    · simp [upd, h]

theorem base_good (hS : S.OK rank) (hF : ∀ n, rank n < F) {o : Obj N V} (ho : Good S F o) {x : Op N V} (hx : Plain S x) :
    Good S F (lstep S F o (.base x)) ∧ (lstep S F o (.base x)).data = o.data ∧ ∀ p ∈ S.flags, (lstep S F o (.base x)).st.params p = o.st.params p := by
  have hpar : ∀ p ∈ S.flags, (step (S.at o.data) F o.st x).params p = o.st.params p := by
    intro p hp
    cases x with
    | set q v =>
      rcases setAttr_cases (S.at o.data) F q v o.st with h | ⟨f, d, w, _, _, h⟩
      · simp only [step, h]
      · have hne : p ≠ q := fun e => hx (e ▸ hp)
        simp only [step, h, upd, hne, if_false]
    | get n => exact congrFun (getAttr_params (hS.wf _) hF n o.st) p
    | delCached n => exact congrFun delCached_params p
    | delParam n => exact absurd hx id
  obtain ⟨h1, h2⟩ := step_inv (hS.wf o.data) (hS.covered o.data) hF closed_true (o := x) (fun p e => by subst e; exact absurd hx id) ho.inv (fun n _ => by rw [ho.noov])
  refine ⟨⟨h1, h2.trans ho.noov, ?_, ho.dom⟩, rfl, hpar⟩
  intro p hp
  exact (hpar p hp).trans (ho.flag p hp)

theorem lrun_good (hS : S.OK rank) (hF : ∀ n, rank n < F) (ops : List (LOp N V)) : ∀ o, Good S F o → ValidRun S F o ops → Good S F (lrun S F o ops) := by
  induction ops with
  | nil => intro o h _; exact h
  | cons x ops ih =>
    intro o h hv
    refine ih _ ?_ hv.2
    cases x with
    | base b => exact (base_good hS hF h hv.1).1
    | load p d =>
      by_cases hp : p ∈ S.flags
      · exact (load_good hS hF h hp hv.1 d).1
      · have : lstep S F o (.load p d) = o := by simp [lstep, load, hp]
        rw [this]; exact h
    | unload p => exact (unload_good hS hF h p).1

theorem new_good {π : N → Option V} (hπ : ∀ p ∈ S.flags, π p = some S.ff) : Good S F (newObj π) where
  inv := fresh_inv π
  noov := rfl
  flag := fun p hp => by simpa [newObj, State.fresh] using hπ p hp
  dom := fun p h => by simp [newObj] at h

theorem good_read (hS : S.OK rank) (hF : ∀ n, rank n < F) {o : Obj N V} (ho : Good S F o) (n : N) : o.read S F n = freshRead S F o n :=
  readsFresh_of_inv (hS.wf _) hF closed_true ho.inv (fun n _ => by rw [ho.noov]) trivial

/-- **C136.** After any history of assignments, reads, loading and unloading of tables on a new object, in which no table is loaded over another one of the same term, every attribute reads as on a brand-new object with the same
parameters and the same tables, and exactly the loaded terms are flagged as such.
Missing: loading over another table (`C136_reload_counterexample`). -/
theorem C136_never_stale_partial (hS : S.OK rank) (hF : ∀ n, rank n < F) (π : N → Option V) (hπ : ∀ p ∈ S.flags, π p = some S.ff) (ops : List (LOp N V)) (hv : ValidRun S F (newObj π) ops) :
    (∀ n, (lrun S F (newObj π) ops).read S F n = freshRead S F (lrun S F (newObj π) ops) n) ∧
    ∀ p ∈ S.flags, (lrun S F (newObj π) ops).st.params p = some (if ((lrun S F (newObj π) ops).data p).isSome then S.tt else S.ff) :=
  ⟨good_read hS hF (lrun_good hS hF ops _ (new_good hπ) hv), (lrun_good hS hF ops _ (new_good hπ) hv).flag⟩

/-- **C136 (the table is used).** While a table is loaded for a term, an attribute that takes the term from it reads the table; when none is, it reads what its own model gives. -/
theorem C136_source (hS : S.OK rank) (hF : ∀ n, rank n < F) (π : N → Option V) (hπ : ∀ p ∈ S.flags, π p = some S.ff) (ops : List (LOp N V)) (hv : ValidRun S F (newObj π) ops)
    (n p : N) (ps : List N) (b : DBody N V) (i : Bool) (hp : p ∈ S.flags) (hn : S.lookup n = some (.cached ps (.loaded p .ret b) i)) :
    (∀ d, (lrun S F (newObj π) ops).data p = some d → (lrun S F (newObj π) ops).read S F n = .ok d) ∧
    ((lrun S F (newObj π) ops).data p = none → 0 < F →
      (lrun S F (newObj π) ops).read S F n =
        runBodyE (eval (S.at (lrun S F (newObj π) ops).data) (lrun S F (newObj π) ops).st.params (F - 1)) (b.inst S.truthy (lrun S F (newObj π) ops).data)) := by
  have hg := lrun_good hS hF ops _ (new_good (F := F) hπ) hv
  obtain ⟨o, ho⟩ : ∃ o, o = lrun S F (newObj π) ops := ⟨_, rfl⟩
  rw [← ho] at hg ⊢
  have hl : (S.at o.data).lookup n = some (.cached ps ((DBody.loaded p .ret b).inst S.truthy o.data) i) := by rw [lookup_at, hn]; rfl
  have hev : o.read S F n = eval (S.at o.data) o.st.params F n :=
    (getAttr_good (hS.wf _) closed_true (fun n => Nat.le_of_lt (hF n)) F n o.st (Nat.le_of_lt (hF n)) hg.inv (fun n _ => by rw [hg.noov])).2.2.2 trivial
  obtain ⟨f, rfl⟩ : ∃ f, F = f + 1 := ⟨F - 1, by have := hF n; omega⟩
  obtain ⟨dd, hlp⟩ := hS.flag p hp o.data
  have hpe : ∀ f, eval (S.at o.data) o.st.params f p = .ok (if (o.data p).isSome then S.tt else S.ff) := by
    intro f
    cases f <;> simp [eval, evalStep, hlp, hg.flag p hp]
  rw [hev]
  simp only [eval, evalStep, hl, DBody.inst, runBodyE, hpe f]
  constructor
  · intro d hd
    simp [hd, hS.tt, runBodyE]
  · intro hd _
    simp [hd, hS.ff]

/-! ### The block of `load_dm_sims` -/

theorem loadAll_spec (hS : S.OK rank) (hF : ∀ n, rank n < F) : ∀ (l : List (N × V)) (o : Obj N V), Good S F o → (l.map Prod.fst).Nodup → (∀ e ∈ l, e.1 ∈ S.flags ∧ o.data e.1 = none) →
    Good S F (loadAll S F l o) ∧ (∀ e ∈ l, (loadAll S F l o).data e.1 = some e.2) ∧ (∀ p, p ∉ l.map Prod.fst → (loadAll S F l o).data p = o.data p) ∧
    (∀ p, p ∉ S.flags → (loadAll S F l o).st.params p = o.st.params p) := by
  intro l
  induction l with
  | nil => intro o ho _ _; exact ⟨ho, by simp, fun _ _ => rfl, fun _ _ => rfl⟩
  | cons e l ih =>
    intro o ho hn hl
    obtain ⟨p, d⟩ := e
    obtain ⟨hp, hd⟩ := hl (p, d) (by simp)
    obtain ⟨g1, g2, g3⟩ := load_good hS hF ho hp hd d
    rw [List.map_cons, List.nodup_cons] at hn
    obtain ⟨a1, a2, a3, a4⟩ := ih (load S F o p d) g1 hn.2 (by
      intro e he
      obtain ⟨b1, b2⟩ := hl e (by simp [he])
      refine ⟨b1, ?_⟩
      have hne : e.1 ≠ p := fun h => hn.1 (List.mem_map.2 ⟨e, he, h⟩)
      rw [g2]
      simp only [upd, hne, if_false]
      exact b2)
    have hunf : loadAll S F ((p, d) :: l) o = loadAll S F l (load S F o p d) := rfl
    rw [hunf]
    refine ⟨a1, ?_, ?_, ?_⟩
    · intro e he
      rcases List.mem_cons.1 he with rfl | he
      · dsimp only
        rw [a3 p hn.1, g2]
        simp [upd]
      · exact a2 e he
    · intro q hq
      simp only [List.map_cons, List.mem_cons, not_or] at hq
      rw [a3 q hq.2, g2]
      simp [upd, hq.1]
    · intro q hq
      have hne : q ≠ p := fun h => hq (h ▸ hp)
      rw [a4 q hq, g3]
      simp [upd, hne]

theorem unloadAll_spec (hS : S.OK rank) (hF : ∀ n, rank n < F) : ∀ (l : List (N × V)) (o : Obj N V), Good S F o →
    Good S F (unloadAll S F l o) ∧ (∀ p, (unloadAll S F l o).data p = if p ∈ l.map Prod.fst then none else o.data p) ∧
    (∀ p, p ∉ S.flags → (unloadAll S F l o).st.params p = o.st.params p) := by
  intro l
  induction l with
  | nil => intro o ho; exact ⟨ho, fun p => by simp [unloadAll, lrun], fun _ _ => rfl⟩
  | cons e l ih =>
    intro o ho
    obtain ⟨g1, g2, g3⟩ := unload_good hS hF ho e.1
    obtain ⟨a1, a2, a3⟩ := ih _ g1
    have hunf : unloadAll S F (e :: l) o = unloadAll S F l (unload S F o e.1) := rfl
    rw [hunf]
    refine ⟨a1, ?_, ?_⟩
    · intro p
      rw [a2 p, g2]
      simp only [List.map_cons, List.mem_cons, upd]
      by_cases h1 : p ∈ l.map Prod.fst
      · simp [h1]
      · by_cases h2 : p = e.1 <;> simp [h1, h2]
    · intro p hp
      rw [a3 p hp, g3]
      split
      next hs =>
        have hne : p ≠ e.1 := fun h => hp (h ▸ ho.dom e.1 hs)
        simp [upd, hne]
      · rfl

theorem plain_run (hS : S.OK rank) (hF : ∀ n, rank n < F) (ops : List (Op N V)) : ∀ o, Good S F o → (∀ x ∈ ops, Plain S x) →
    Good S F (lrun S F o (ops.map .base)) ∧ (lrun S F o (ops.map .base)).data = o.data ∧
    ((∀ x ∈ ops, ∃ n, x = .get n) → (lrun S F o (ops.map .base)).st.params = o.st.params) := by
  induction ops with
  | nil => intro o h _; exact ⟨h, rfl, fun _ => rfl⟩
  | cons x ops ih =>
    intro o h hp
    obtain ⟨b1, b2, b3⟩ := base_good hS hF h (hp x (by simp))
    obtain ⟨a1, a2, a3⟩ := ih _ b1 fun y hy => hp y (by simp [hy])
    refine ⟨a1, a2.trans b2, fun hg => (a3 fun y hy => hg y (by simp [hy])).trans ?_⟩
    obtain ⟨n, rfl⟩ := hg x (by simp)
    exact getAttr_params (hS.wf _) hF n o.st

/-- **C136 (block).** A block `with load_dm_sims(...)` which is left normally, after any history, when none of its terms is loaded already. Inside, the tables are those of the simulation, other terms are as before, and everything reads as on a brand-new object with these tables.
After it, the tables are those of before, all parameters but the flags are those set in the block, the flags are those of before, and everything reads as on a brand-new object; if the block only reads, everything reads exactly as before the block.
Missing: exceptions (`C136_exception_counterexample`), blocks inside blocks (`C136_nested_counterexample`). -/
theorem C136_block_partial (hS : S.OK rank) (hF : ∀ n, rank n < F) (π : N → Option V) (hπ : ∀ p ∈ S.flags, π p = some S.ff) (before : List (LOp N V)) (hv : ValidRun S F (newObj π) before)
    (o : Obj N V) (ho : o = lrun S F (newObj π) before) (l : List (N × V)) (hn : (l.map Prod.fst).Nodup) (hl : ∀ e ∈ l, e.1 ∈ S.flags ∧ o.data e.1 = none)
    (ops : List (Op N V)) (hp : ∀ x ∈ ops, Plain S x) (inside after : Obj N V) (hin : inside = lrun S F (loadAll S F l o) (ops.map .base))
    (haf : after = withSims S F l (ops.map .base) false o) :
    (∀ e ∈ l, inside.data e.1 = some e.2) ∧ (∀ p, p ∉ l.map Prod.fst → inside.data p = o.data p) ∧ (∀ n, inside.read S F n = freshRead S F inside n) ∧
    after.data = o.data ∧ (∀ p, p ∉ S.flags → after.st.params p = inside.st.params p) ∧ (∀ p ∈ S.flags, after.st.params p = o.st.params p) ∧
    (∀ n, after.read S F n = freshRead S F after n) ∧
    ((∀ x ∈ ops, ∃ n, x = .get n) → ∀ n, after.read S F n = o.read S F n) := by
  have hg := lrun_good hS hF before _ (new_good (F := F) hπ) hv
  rw [← ho] at hg
  obtain ⟨a1, a2, a3, a4⟩ := loadAll_spec hS hF l o hg hn hl
  obtain ⟨b1, b2, b3⟩ := plain_run hS hF ops _ a1 hp
  rw [← hin] at b1 b2 b3
  have haf' : after = unloadAll S F l inside := by rw [haf, hin]; rfl
  obtain ⟨c1, c2, c3⟩ := unloadAll_spec hS hF l inside b1
  rw [← haf'] at c1 c2 c3
  have hdata : after.data = o.data := by
    funext p
    rw [c2 p]
    split
    next h =>
      obtain ⟨e, he, rfl⟩ := List.mem_map.1 h
      exact ((hl e he).2).symm
    next h => rw [b2, a3 p h]
  have hflags : ∀ p ∈ S.flags, after.st.params p = o.st.params p := fun p h => by rw [c1.flag p h, hg.flag p h, hdata]
  refine ⟨fun e he => by rw [b2]; exact a2 e he, fun p h => by rw [b2]; exact a3 p h, good_read hS hF b1, hdata, c3, hflags, good_read hS hF c1, fun hget n => ?_⟩
  have hpar : after.st.params = o.st.params := by
    funext p
    by_cases h : p ∈ S.flags
    · exact hflags p h
    · rw [c3 p h, b3 hget, a4 p h]
  rw [good_read hS hF c1, good_read hS hF hg]
  unfold freshRead
  rw [hdata, hpar]

/-! ### `use_spt` -/

theorem turnOff_eq (us : List N) (o : Obj N V) : turnOff S F us o = lrun S F o ((us.map fun u => Op.set u S.ff).map .base) := by
  unfold turnOff
  rw [List.map_map]
  rfl

theorem turnOff_params (heq : ∀ a b, S.eqv a b = true → a = b) : ∀ (us : List N) (o : Obj N V), (∀ u ∈ us, ∃ d, S.lookup u = some (.param some d)) →
    ∀ p, (turnOff S F us o).st.params p = if p ∈ us then some S.ff else o.st.params p := by
  intro us
  induction us with
  | nil => intro o _ p; simp [turnOff, lrun]
  | cons u us ih =>
    intro o h p
    have hunf : turnOff S F (u :: us) o = turnOff S F us (lstep S F o (.base (.set u S.ff))) := rfl
    obtain ⟨d, hd⟩ := h u (by simp)
    rw [hunf, ih _ (fun v hv => h v (by simp [hv])) p]
    have hst : (lstep S F o (.base (.set u S.ff))).st.params = upd o.st.params u (some S.ff) :=
      setAttr_params heq (s := S.at o.data) (f := some) (d := d) (by rw [lookup_at, hd]; rfl) rfl o.st
    rw [hst]
    simp only [List.mem_cons, upd]
    by_cases h1 : p ∈ us
    · simp [h1]
    · by_cases h2 : p = u <;> simp [h1, h2]

/-- **C136 (`use_spt`).** After any history: inside `with use_spt()` every switch is off before the block's own operations. After it, left normally or not, every switch has the value of before, every other parameter that of the end of the block, and everything reads as on
a brand-new object; if the block only reads, everything reads exactly as before.
Missing: an exception in the block reaches the caller (`C136_swallowed_counterexample`). -/
theorem C136_spt_partial (hS : S.OK rank) (hF : ∀ n, rank n < F) (heq : ∀ a b, S.eqv a b = true → a = b) (π : N → Option V) (hπ : ∀ p ∈ S.flags, π p = some S.ff)
    (before : List (LOp N V)) (hv : ValidRun S F (newObj π) before) (o : Obj N V) (ho : o = lrun S F (newObj π) before) (us : List N)
    (hus : ∀ u ∈ us, u ∉ S.flags ∧ (∃ d, S.lookup u = some (.param some d)) ∧ (o.st.params u).isSome)
    (ops : List (LOp N V)) (hv' : ValidRun S F (turnOff S F us o) ops) (raises : Bool) (after : Obj N V) (haf : after = (useSpt S F us ops raises o).2) :
    (∀ u ∈ us, (turnOff S F us o).st.params u = some S.ff) ∧
    (∀ u ∈ us, after.st.params u = o.st.params u) ∧
    (∀ p, p ∉ us → after.st.params p = (lrun S F (turnOff S F us o) ops).st.params p) ∧
    (∀ n, after.read S F n = freshRead S F after n) ∧
    ((∀ x ∈ ops, ∃ n, x = .base (.get n)) → ∀ n, after.read S F n = o.read S F n) := by
  have hg := lrun_good hS hF before _ (new_good (F := F) hπ) hv
  rw [← ho] at hg
  have hpl : ∀ x ∈ us.map (fun u => Op.set u S.ff), Plain S x := by
    intro x hx
    obtain ⟨u, hu, rfl⟩ := List.mem_map.1 hx
    exact (hus u hu).1
  obtain ⟨a1, a2, -⟩ := plain_run hS hF (us.map fun u => Op.set u S.ff) o hg hpl
  rw [← turnOff_eq] at a1 a2
  have hoff := turnOff_params (F := F) heq us o fun u hu => (hus u hu).2.1
  have b1 := lrun_good hS hF ops _ a1 hv'
  obtain ⟨o₁, ho₁⟩ : ∃ o₁, o₁ = lrun S F (turnOff S F us o) ops := ⟨_, rfl⟩
  rw [← ho₁] at b1 ⊢
  have haf' : after = ⟨restoreParams (S.at o₁.data) F (saveParams o.st us) o₁.st, o₁.data⟩ := by rw [haf, ho₁]; rfl
  have hsv : ∀ e ∈ saveParams o.st us, o.st.params e.1 = some e.2 ∧ ∃ f d, (S.at o₁.data).lookup e.1 = some (.param f d) ∧ f e.2 = some e.2 := by
    intro e he
    obtain ⟨e1, e2⟩ := mem_saveParams.1 he
    obtain ⟨d, hd⟩ := (hus e.1 e1).2.1
    exact ⟨e2, some, d, by rw [lookup_at, hd]; rfl, rfl⟩
  have hkeys : ∀ q, q ∈ (saveParams o.st us).map Prod.fst ↔ q ∈ us := by
    intro q
    constructor
    · intro h
      obtain ⟨e, he, rfl⟩ := List.mem_map.1 h
      exact (mem_saveParams.1 he).1
    · intro h
      obtain ⟨v, hv⟩ := Option.isSome_iff_exists.1 (hus q h).2.2
      exact List.mem_map.2 ⟨(q, v), mem_saveParams.2 ⟨h, hv⟩, rfl⟩
  have hpar : ∀ q, after.st.params q = if q ∈ us then o.st.params q else o₁.st.params q := by
    intro q
    rw [haf']
    dsimp only
    rw [restoreParams_params heq o.st.params _ _ hsv q]
    simp only [hkeys]
  obtain ⟨r1, r2⟩ := restoreParams_inv (hS.wf o₁.data) (hS.covered _) hF (saveParams o.st us) o₁.st b1.inv
  have hgood : Good S F after := by
    refine ⟨by rw [haf']; exact r1, by rw [haf']; exact r2.trans b1.noov, ?_, by rw [haf']; exact b1.dom⟩
    intro p hp
    have hnu : p ∉ us := fun h => (hus p h).1 hp
    rw [hpar p, if_neg hnu, b1.flag p hp, haf']
  refine ⟨fun u hu => by rw [hoff u, if_pos hu], fun u hu => by rw [hpar u, if_pos hu], fun p hp => by rw [hpar p, if_neg hp], good_read hS hF hgood, fun hget n => ?_⟩
  obtain ⟨gs, hgs⟩ : ∃ gs : List (Op N V), ops = gs.map .base ∧ ∀ x ∈ gs, ∃ n, x = .get n := by
    clear hv' haf ho₁ haf'
    induction ops with
    | nil => exact ⟨[], rfl, by simp⟩
    | cons x ops ih =>
      obtain ⟨gs, h1, h2⟩ := ih fun y hy => hget y (by simp [hy])
      obtain ⟨m, rfl⟩ := hget x (by simp)
      refine ⟨.get m :: gs, by rw [List.map_cons, h1], ?_⟩
      intro y hy
      rcases List.mem_cons.1 hy with rfl | hy
      · exact ⟨m, rfl⟩
      · exact h2 y hy
  obtain ⟨-, c2, c3⟩ := plain_run hS hF gs _ a1 (fun x hx => by obtain ⟨m, rfl⟩ := hgs.2 x hx; trivial)
  rw [← hgs.1, ← ho₁] at c2 c3
  have hp' : after.st.params = o.st.params := by
    funext q
    rw [hpar q]
    split
    · rfl
    next h => rw [c3 hgs.2, hoff q, if_neg h]
  rw [good_read hS hF hgood, good_read hS hF hg]
  unfold freshRead
  rw [hp', haf']
  dsimp only
  rw [c2, a2]

/-! ### An instance, and what does not hold -/

/-- demo class: parameter 0; flag 1; 2 = the table if there is one, otherwise 10 times 0 (an interpolated function); a switch 3; 4 = 2, plus 100 if 3 is on. -/
def demo : DSchema Nat Int where
  mro := [[(0, .param some .none), (1, .param some .none), (3, .param some .none)],
    [(2, .cached [0, 1] (.loaded 1 .ret (.read 0 fun v => .ret (10 * v))) true), (4, .cached [2, 3] (.read 2 fun a => .read 3 fun b => .ret (if b = 0 then a else a + 100)) false)]]
  extra := fun _ => []
  eqv := fun a b => decide (a = b)
  truthy := fun v => decide (v ≠ 0)
  tt := 1
  ff := 0
  flags := [1]

theorem demo_lookup {n a} (h : demo.lookup n = some a) : n = 0 ∨ n = 1 ∨ n = 2 ∨ n = 3 ∨ n = 4 := by
  by_cases hn : n < 5
  · omega
  · exfalso
    have h0 : (n == 0) = false := by simp; omega
    have h1 : (n == 1) = false := by simp; omega
    have h2 : (n == 2) = false := by simp; omega
    have h3 : (n == 3) = false := by simp; omega
    have h4 : (n == 4) = false := by simp; omega
    simp [DSchema.lookup, demo, List.lookup, h0, h1, h2, h3, h4] at h

theorem demo_at {D : Data Nat Int} {n : Nat} {a : Attr Nat Int} (h : (demo.at D).lookup n = some a) :
    ((n = 0 ∨ n = 1 ∨ n = 3) ∧ a = .param some .none) ∨
    (n = 2 ∧ a = .cached [0, 1] ((DBody.loaded 1 .ret (.read 0 fun v => .ret (10 * v))).inst demo.truthy D) true) ∨
    (n = 4 ∧ a = .cached [2, 3] ((DBody.read 2 fun a => .read 3 fun b => .ret (if b = 0 then a else a + 100)).inst demo.truthy D) false) := by
  rw [lookup_at] at h
  cases hl : demo.lookup n with
  | none => rw [hl] at h; cases h
  | some x =>
    rw [hl] at h
    simp only [Option.map_some, Option.some.injEq] at h
    subst h
    rcases demo_lookup hl with rfl | rfl | rfl | rfl | rfl <;>
      simp [DSchema.lookup, demo, List.lookup, List.findSome?] at hl <;> subst hl <;> simp [DAttr.inst, demo]

theorem demo_decl {D : Data Nat Int} {n m : Nat} (h : (demo.at D).Declares n m) : (n = 2 ∧ (m = 0 ∨ m = 1)) ∨ (n = 4 ∧ (m = 2 ∨ m = 3)) := by
  obtain ⟨ps, b, i, hl, hm⟩ := h
  rcases demo_at hl with ⟨_, e⟩ | ⟨rfl, e⟩ | ⟨rfl, e⟩ <;> cases e <;> simp at hm <;> omega

theorem demo_noDef {D : Data Nat Int} {n m : Nat} (h : (demo.at D).DefaultsTo n m) : False := by
  obtain ⟨f, hl⟩ := h
  rcases demo_at hl with ⟨_, e⟩ | ⟨rfl, e⟩ | ⟨rfl, e⟩ <;> cases e

/-- The hypotheses of the theorems can be met. -/
theorem demo_ok : demo.OK (fun n => if n = 2 then 1 else if n = 4 then 2 else 0) where
  wf := by
    intro D
    refine ⟨⟨?_, ?_⟩, ?_⟩
    · rintro n m (h | h)
      · rcases demo_decl h with ⟨rfl, rfl | rfl⟩ | ⟨rfl, rfl | rfl⟩ <;> decide
      · exact absurd h demo_noDef
    · intro c n ps b i hc hl m hm
      have key : m = 0 ∨ m = 1 ∨ m = 2 ∨ m = 3 := by
        simp only [DSchema.at, demo, List.map_cons, List.map_nil, List.mem_cons, List.not_mem_nil, or_false] at hc
        have hmem := lookup_eq_mem hl
        rcases hc with rfl | rfl <;> simp only [DAttr.inst, List.mem_cons, Prod.mk.injEq, List.not_mem_nil, or_false, reduceCtorEq, and_false, Attr.cached.injEq] at hmem
        · rcases hmem with ⟨_, rfl, _⟩ | ⟨_, rfl, _⟩ <;> simp at hm <;> omega
      rcases key with rfl | rfl | rfl | rfl <;> simp [lookup_at, DSchema.lookup, demo, List.lookup, List.findSome?]
    · intro n ps b i hl
      rcases demo_at hl with ⟨_, e⟩ | ⟨rfl, e⟩ | ⟨rfl, e⟩ <;> cases e
      · simp only [DBody.inst, Body.ReadsOnly]
        refine ⟨by simp, fun v => ?_⟩
        split
        · split <;> trivial
        · exact ⟨by simp, fun _ => trivial⟩
      · exact ⟨by simp, fun _ => ⟨by simp, fun _ => trivial⟩⟩
  covered := by
    intro D n p hn hp h
    have key : ∀ a b, (demo.at D).MayRead a b → a = b ∨ (demo.at D).Reach a b := by
      intro a b h
      induction h with
      | refl => exact .inl rfl
      | cons hs _ ih =>
        rcases hs with hs | hs
        · rcases ih with rfl | ih
          · exact .inr (.one hs)
          · exact .inr (.cons hs ih)
        · exact absurd hs demo_noDef
    rcases key n p h with rfl | h
    · obtain ⟨ps, b, i, h1⟩ := hn
      obtain ⟨f, d, h2⟩ := hp
      rw [h1] at h2
      cases h2
    · exact h
  flag := by
    intro p hp D
    simp only [demo, List.mem_singleton] at hp
    subst hp
    exact ⟨.none, by rw [lookup_at]; rfl⟩
  tt := by decide
  ff := by decide
  tf := by decide
  ft := by decide

/-- the parameters of a new demo object -/
def demoπ : Nat → Option Int := fun n => if n = 0 then some 5 else if n = 1 then some 0 else if n = 3 then some 1 else none

/-- the hypotheses of `C136_block_partial` and `C136_spt_partial` on the demo object; the model, the table, the model again -/
example : (∀ p ∈ demo.flags, demoπ p = some demo.ff) ∧ ValidRun demo 4 (newObj demoπ) [.base (.get 4), .load 1 7, .base (.set 0 6), .unload 1] ∧
    ((newObj demoπ).read demo 4 4).toOption = some 150 ∧
    ((lrun demo 4 (newObj demoπ) [.base (.get 4), .load 1 7]).read demo 4 4).toOption = some 107 ∧
    ((withSims demo 4 [(1, 7)] [.base (.get 4)] false (newObj demoπ)).read demo 4 4).toOption = some 150 ∧
    ((turnOff demo 4 [3] (newObj demoπ)).read demo 4 4).toOption = some 50 ∧
    ((useSpt demo 4 [3] [.base (.get 4)] false (newObj demoπ)).2.read demo 4 4).toOption = some 150 := by
  refine ⟨by decide, ⟨trivial, rfl, by simp [Plain, demo], trivial, trivial⟩, by decide, by decide, by decide, by decide, by decide⟩

/-- **C136, not so: loading over another table.** Loading a table where another one is loaded does not invalidate what was computed from the old one: the flag does not change. The attribute goes on reading the old table. -/
theorem C136_reload_counterexample :
    ((lrun demo 4 (newObj demoπ) [.load 1 7, .base (.get 2), .load 1 8]).read demo 4 2).toOption = some 7 ∧
    (freshRead demo 4 (lrun demo 4 (newObj demoπ) [.load 1 7, .base (.get 2), .load 1 8]) 2).toOption = some 8 := by decide

/-- **C136, not so: exceptions.** A block `with load_dm_sims(...)` left by an exception leaves the tables in place. -/
theorem C136_exception_counterexample :
    ((newObj demoπ).read demo 4 2).toOption = some 50 ∧ ((withSims demo 4 [(1, 7)] [] true (newObj demoπ)).read demo 4 2).toOption = some 7 := by decide

/-- **C136, not so: blocks inside blocks.** After an inner block the tables of the outer one are gone. -/
theorem C136_nested_counterexample :
    ((loadAll demo 4 [(1, 7)] (newObj demoπ)).read demo 4 2).toOption = some 7 ∧
    ((withSims demo 4 [(1, 8)] [] false (loadAll demo 4 [(1, 7)] (newObj demoπ))).read demo 4 2).toOption = some 50 := by decide

/-- **C136, not so: `use_spt` and exceptions.** An exception raised inside `with use_spt()` never reaches the caller. -/
theorem C136_swallowed_counterexample (S : DSchema N V) (F : Nat) (us : List N) (ops : List (LOp N V)) (o : Obj N V) :
    (useSpt S F us ops true o).1 = false := rfl

end Verif.Loaded
