import Verif.Spec.CacheReads
import Verif.Lemmas.Cache
set_option linter.unusedSectionVars false
namespace Verif.Cache
variable {N V : Type} [DecidableEq N]

/-- The same class with its declarations replaced by the read sets. -/
def Schema.withReads (s : Schema N V) (rd : N → List N) : Schema N V :=
  { s with mro := s.mro.map (fun c => c.map (fun e => (e.1, match e.2 with
      | .param v d => .param v d
      | .cached _ b i => .cached (rd e.1) b i))) }

/-- replace the parents of one attribute -/
def setParents (ps : List N) : Attr N V → Attr N V
  | .param v d => .param v d
  | .cached _ b i => .cached ps b i

theorem lookup_map_attr (rd : N → List N) (n : N) : ∀ c : List (N × Attr N V),
    (c.map (fun e => (e.1, match e.2 with
      | .param v d => .param v d
      | .cached _ b i => .cached (rd e.1) b i))).lookup n = (c.lookup n).map (setParents (rd n)) := by
  intro c
  induction c with
  | nil => rfl
  | cons e c ih =>
    obtain ⟨k, a⟩ := e
    simp only [List.map_cons, List.lookup_cons, ih]
    by_cases h : n = k
    · subst h; cases a <;> simp [setParents]
    · have : (n == k) = false := by simpa using h
      simp [this]

theorem lookup_withReads (s : Schema N V) (rd : N → List N) (n : N) :
    (s.withReads rd).lookup n = (s.lookup n).map (setParents (rd n)) := by
  unfold Schema.lookup Schema.withReads
  simp only
  induction s.mro with
  | nil => rfl
  | cons c l ih =>
    simp only [List.map_cons, List.findSome?_cons, lookup_map_attr]
    cases c.lookup n with
    | none => exact ih
    | some a => rfl

theorem withReads_declares {s : Schema N V} {rd : N → List N} {n m : N} :
    (s.withReads rd).Declares n m ↔ s.IsCached n ∧ m ∈ rd n := by
  unfold Schema.Declares Schema.IsCached
  simp only [lookup_withReads]
  constructor
  · rintro ⟨ps, b, i, h, hm⟩
    cases hl : s.lookup n with
    | none => rw [hl] at h; cases h
    | some a =>
      rw [hl] at h
      cases a with
      | param v d => cases h
      | cached qs b' i' =>
        simp only [Option.map_some, setParents, Option.some.injEq, Attr.cached.injEq] at h
        exact ⟨⟨_, _, _, rfl⟩, h.1 ▸ hm⟩
  · rintro ⟨⟨ps, b, i, h⟩, hm⟩
    exact ⟨rd n, b, i, by rw [h]; rfl, hm⟩

theorem withReads_defaults {s : Schema N V} {rd : N → List N} {n m : N} :
    (s.withReads rd).DefaultsTo n m ↔ s.DefaultsTo n m := by
  unfold Schema.DefaultsTo
  simp only [lookup_withReads]
  cases hl : s.lookup n with
  | none => simp
  | some a => cases a <;> simp [setParents]

theorem withReads_isCached {s : Schema N V} {rd : N → List N} {n : N} :
    (s.withReads rd).IsCached n ↔ s.IsCached n := by
  unfold Schema.IsCached
  simp only [lookup_withReads]
  cases hl : s.lookup n with
  | none => simp
  | some a => cases a <;> simp [setParents]

theorem withReads_mayRead {s : Schema N V} {rd : N → List N} {n m : N} :
    (s.withReads rd).MayRead n m ↔ s.MayReadVia rd n m := by
  constructor
  · intro h
    induction h with
    | refl => exact .refl _
    | cons hs _ ih => exact .cons (hs.imp withReads_declares.1 withReads_defaults.1) ih
  · intro h
    induction h with
    | refl => exact .refl _
    | cons hs _ ih => exact .cons (hs.imp withReads_declares.2 withReads_defaults.2) ih

theorem getStep_withReads (s : Schema N V) (rd : N → List N) (rec : N → State N V → Res N V) :
    getStep (s.withReads rd) rec = getStep s rec := by
  funext n σ
  unfold getStep
  rw [lookup_withReads]
  cases s.lookup n with
  | none => rfl
  | some a => cases a <;> rfl

theorem getAttr_withReads (s : Schema N V) (rd : N → List N) : ∀ f, getAttr (s.withReads rd) f = getAttr s f := by
  intro f
  induction f with
  | zero => exact getStep_withReads s rd _
  | succ f ih => simp only [getAttr, ih]; exact getStep_withReads s rd _

theorem withReads_wf {s : Schema N V} {rd : N → List N} {rank : N → Nat} (hb : s.ReadsBounded rd)
    (hr : ∀ n m, s.ReadStep rd n m → rank m < rank n) (hx : ∀ n, ∀ m ∈ rd n, s.lookup m ≠ Option.none) :
    (s.withReads rd).WellFormed rank where
  acyclic := by
    intro n m h
    exact hr n m (h.imp withReads_declares.1 withReads_defaults.1)
  parents_exist := by
    intro c n ps b i hc hl m hm
    simp only [Schema.withReads, List.mem_map] at hc
    obtain ⟨c', hc', rfl⟩ := hc
    rw [lookup_map_attr] at hl
    cases hl' : c'.lookup n with
    | none => rw [hl'] at hl; cases hl
    | some a =>
      rw [hl'] at hl
      cases a with
      | param v d => cases hl
      | cached qs b' i' =>
        simp only [Option.map_some, setParents, Option.some.injEq, Attr.cached.injEq] at hl
        rw [lookup_withReads]
        intro h
        exact hx n m (hl.1 ▸ hm) (by simpa using h)
  reads := by
    intro n ps b i hl
    rw [lookup_withReads] at hl
    cases hl' : s.lookup n with
    | none => rw [hl'] at hl; cases hl
    | some a =>
      rw [hl'] at hl
      cases a with
      | param v d => cases hl
      | cached qs b' i' =>
        simp only [Option.map_some, setParents, Option.some.injEq, Attr.cached.injEq] at hl
        obtain ⟨rfl, rfl, rfl⟩ := hl
        exact hb n qs b' i' hl'

/-- Assigning a parameter that is safe for every cached member of `R` keeps the invariant (stated for the class whose
declarations are the read sets). -/
theorem setAttr_inv_safe {s : Schema N V} {rd : N → List N} {rank} (hs : s.Shape rank)
    (hw : (s.withReads rd).WellFormed rank) {F : Nat} (hF : ∀ n, rank n < F) {R : N → Prop} {σ : State N V} {p : N}
    {x : V} (hsafe : s.IsParam p → ∀ m, R m → s.IsCached m → s.MayReadVia rd m p → s.Reach m p)
    (hI : Inv (s.withReads rd) F R σ) : Inv (s.withReads rd) F R (setAttr s F p x σ).2 := by
  unfold setAttr
  cases hl : s.lookup p with
  | none => exact hI
  | some a =>
    cases a with
    | cached ps b i => exact hI
    | param val dflt =>
      simp only
      cases val x with
      | none => exact hI
      | some v =>
        simp only
        have key : Inv (s.withReads rd) F R
            { σ with params := upd σ.params p (some v), cache := popAll σ.cache (s.deps F p) } := by
          intro n w hRn hcn hc
          simp only at hc ⊢
          unfold popAll at hc
          split at hc
          · cases hc
          · rename_i hnd
            have hcn' := withReads_isCached.1 hcn
            rw [mem_deps_iff hs hF hcn'] at hnd
            have hnr : ¬ (s.withReads rd).MayRead n p :=
              fun h => hnd (Or.inl (hsafe ⟨val, dflt, hl⟩ n hRn hcn' (withReads_mayRead.1 h)))
            rw [not_mayRead_agree hw hnr]
            exact hI n w hRn hcn hc
        split
        · exact key
        · split
          · exact key
          · exact hI

theorem step_inv_safe {s : Schema N V} {rd : N → List N} {rank} (hs : s.Shape rank)
    (hw : (s.withReads rd).WellFormed rank) {F : Nat} (hF : ∀ n, rank n < F) {R : N → Prop}
    (hR : Closed (s.withReads rd) R) {σ : State N V} {o : Op N V} (hdel : ∀ p, o ≠ .delParam p)
    (hsafe : ∀ p x, o = .set p x → s.IsParam p → ∀ m, R m → s.IsCached m → s.MayReadVia rd m p → s.Reach m p)
    (hI : Inv (s.withReads rd) F R σ) (hO : NoOv R σ) :
    Inv (s.withReads rd) F R (step s F σ o) ∧ (step s F σ o).overrides = σ.overrides := by
  cases o with
  | set p x => exact ⟨setAttr_inv_safe hs hw hF (hsafe p x rfl) hI, setAttr_overrides⟩
  | get n =>
    have h := getAttr_good hw hR (fun n => Nat.le_of_lt (hF n)) F n σ (Nat.le_of_lt (hF n)) hI hO
    rw [getAttr_withReads] at h
    exact ⟨h.2.2.1, h.2.1⟩
  | delCached n =>
    refine ⟨?_, delCached_overrides⟩
    show Inv _ F R (delCached s F n σ).2
    unfold delCached
    split
    · refine popAll_inv hI (fun m v hc => ?_)
      unfold popAll upd at hc
      split at hc
      · cases hc
      · split at hc
        · cases hc
        · exact hc
    · exact hI
  | delParam p => exact absurd rfl (hdel p)

theorem run_inv_safe {s : Schema N V} {rd : N → List N} {rank} (hs : s.Shape rank)
    (hw : (s.withReads rd).WellFormed rank) {F : Nat} (hF : ∀ n, rank n < F) {R : N → Prop}
    (hR : Closed (s.withReads rd) R) : ∀ (ops : List (Op N V)) (σ : State N V),
      (∀ o ∈ ops, ∀ p, o ≠ .delParam p) →
      (∀ p x, Op.set p x ∈ ops → s.IsParam p → ∀ m, R m → s.IsCached m → s.MayReadVia rd m p → s.Reach m p) →
      Inv (s.withReads rd) F R σ → NoOv R σ →
      Inv (s.withReads rd) F R (run s F σ ops) ∧ (run s F σ ops).overrides = σ.overrides := by
  intro ops
  induction ops with
  | nil => intro σ _ _ hI _; exact ⟨hI, rfl⟩
  | cons o ops ih =>
    intro σ hdel hsafe hI hO
    obtain ⟨h1, h2⟩ := step_inv_safe hs hw hF hR (hdel o (by simp))
      (fun p x e => hsafe p x (by simp [e])) hI hO
    have hO' : NoOv R (step s F σ o) := fun n hn => by rw [h2]; exact hO n hn
    obtain ⟨h3, h4⟩ := ih (step s F σ o) (fun o' ho' => hdel o' (by simp [ho']))
      (fun p x hp => hsafe p x (by simp [hp])) h1 hO'
    exact ⟨h3, h4.trans h2⟩

/-- If every parameter assigned in a history is safe for `n`, then `n` reads fresh after it. -/
theorem readsFresh_of_safe {s : Schema N V} {rd : N → List N} {rank} (hs : s.Shape rank) (hb : s.ReadsBounded rd)
    (hr : ∀ n m, s.ReadStep rd n m → rank m < rank n) (hx : ∀ n, ∀ m ∈ rd n, s.lookup m ≠ Option.none)
    {F : Nat} (hF : ∀ n, rank n < F) (n : N) (π : N → Option V) (ops : List (Op N V))
    (hdel : ∀ o ∈ ops, ∀ p, o ≠ .delParam p) (hset : ∀ p x, Op.set p x ∈ ops → s.IsParam p → s.SafeFor rd n p) :
    ReadsFresh s F (run s F (State.fresh π) ops) n := by
  have hw := withReads_wf hb hr hx
  have hR : Closed (s.withReads rd) (s.MayReadVia rd n) := by
    intro a b ha hab
    have hab' : s.ReadStep rd a b := hab.imp withReads_declares.1 withReads_defaults.1
    clear hab
    induction ha with
    | refl => exact .cons hab' (.refl _)
    | cons h _ ih => exact .cons h (ih (fun p x hp hip m hm => hset p x hp hip m (.cons h hm)) hab')
  obtain ⟨hI, hov⟩ := run_inv_safe hs hw hF hR ops (State.fresh π) hdel
    (fun p x hp hip m hm hc hmp => hset p x hp hip m hm hc hmp) (fresh_inv π) (fun _ _ => rfl)
  have h := readsFresh_of_inv hw hF hR hI (fun m _ => by rw [hov]; rfl) (.refl n)
  unfold ReadsFresh at h ⊢
  rwa [getAttr_withReads] at h

end Verif.Cache
