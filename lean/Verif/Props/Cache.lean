import Verif.Lemmas.CachePreserve
import Verif.Model.ObjEq
/-
Properties C01-C06: the parameter/cached-property framework (`pyRSD/rsd/_cache.py`) and the two context managers built
on it (`preserve`, `cache_override`).
-/
set_option linter.unusedSectionVars false
set_option linter.unusedSimpArgs false
namespace Verif.Cache
variable {N V : Type} [DecidableEq N]

/-! ### C01: cached attributes are never stale -/

/-- **C01.**  For every class whose cached attributes read only what they declare (`WellFormed`) and whose
attribute-valued defaults are covered by declarations, and for every history of assignments, reads and deletions of
cached attributes (each possibly failing) starting from a new object, every attribute reads as on a brand-new object
with the same parameter values: same value or same exception. -/
theorem C01_never_stale (s : Schema N V) (rank : N → Nat) (hw : s.WellFormed rank) (hd : s.DefaultsCovered)
    (F : Nat) (hF : ∀ n, rank n < F) (π : N → Option V) (ops : List (Op N V))
    (hops : ∀ o ∈ ops, ∀ p, o ≠ .delParam p) (n : N) :
    ReadsFresh s F (run s F (State.fresh π) ops) n := by
  obtain ⟨hI, hov⟩ := run_inv hw hd hF closed_true ops (State.fresh π)
    (fun o ho p hp => absurd hp (hops o ho p)) (fresh_inv π) (fun _ _ => rfl)
  exact readsFresh_of_inv hw hF closed_true hI (fun m _ => by rw [hov]; rfl) trivial

/-- A read changes no parameter, so that reads can be interleaved anywhere (used to read `C01` as: *every* read in a
history is fresh). -/
theorem C01_read_keeps_params (s : Schema N V) (rank : N → Nat) (hw : s.WellFormed rank) (F : Nat)
    (hF : ∀ n, rank n < F) (n : N) (σ : State N V) : (getAttr s F n σ).2.params = σ.params := by
  refine (getAttr_good (R := fun _ => False) hw (fun _ _ h => absurd h id) (fun n => Nat.le_of_lt (hF n)) F n σ
    (Nat.le_of_lt (hF n)) (fun _ _ h => absurd h id) (fun _ h => absurd h id)).1

/-- demo class: parameters 0, 1 and 4 (4 defaults to the attribute 2); cached 2 = 10·p0, cached 3 = a2 + p1;
an interpolated function 5 of 3. -/
def demo : Schema Nat Int :=
  { mro := [[(0, .param some .none), (1, .param (fun v => if v < 0 then none else some v) (.value 7)),
             (2, .cached [0] (.read 0 fun v => .ret (10 * v)) false),
             (3, .cached [2, 1] (.read 2 fun a => .read 1 fun b => if b = 3 then .raise else .ret (a + b)) false),
             (4, .param some (.attr 2))],
            [(5, .cached [3] (.read 3 fun a => .ret (a * a)) true)]]
    extra := fun _ => []
    eqv := fun a b => decide (a = b) }

theorem demo_lookup {n a} (h : demo.lookup n = some a) : n < 6 := by
  by_cases hn : n < 6
  · exact hn
  · exfalso
    have h0 : (n == 0) = false := by simp; omega
    have h1 : (n == 1) = false := by simp; omega
    have h2 : (n == 2) = false := by simp; omega
    have h3 : (n == 3) = false := by simp; omega
    have h4 : (n == 4) = false := by simp; omega
    have h5 : (n == 5) = false := by simp; omega
    simp [Schema.lookup, demo, List.lookup, h0, h1, h2, h3, h4, h5] at h

theorem demo_declares {n m} (h : demo.Declares n m) :
    (n = 2 ∧ m = 0) ∨ (n = 3 ∧ (m = 2 ∨ m = 1)) ∨ (n = 5 ∧ m = 3) := by
  obtain ⟨ps, b, i, hl, hm⟩ := h
  have hn := demo_lookup hl
  have : n = 0 ∨ n = 1 ∨ n = 2 ∨ n = 3 ∨ n = 4 ∨ n = 5 := by omega
  rcases this with rfl | rfl | rfl | rfl | rfl | rfl <;>
    simp [Schema.lookup, demo, List.lookup, List.findSome?] at hl <;> obtain ⟨rfl, _, _⟩ := hl <;> simp_all

theorem demo_defaults {n m} (h : demo.DefaultsTo n m) : n = 4 ∧ m = 2 := by
  obtain ⟨f, hl⟩ := h
  have hn := demo_lookup hl
  have : n = 0 ∨ n = 1 ∨ n = 2 ∨ n = 3 ∨ n = 4 ∨ n = 5 := by omega
  rcases this with rfl | rfl | rfl | rfl | rfl | rfl <;>
    simp [Schema.lookup, demo, List.lookup, List.findSome?] at hl
  simp [hl.2]

theorem demo_wf : demo.WellFormed (fun n => if n = 4 then 2 else if n = 5 then 3 else if n = 0 ∨ n = 1 then 0 else
    if n = 2 then 1 else 2) where
  acyclic := by
    rintro n m (h | h)
    · rcases demo_declares h with ⟨rfl, rfl⟩ | ⟨rfl, rfl | rfl⟩ | ⟨rfl, rfl⟩ <;> decide
    · obtain ⟨rfl, rfl⟩ := demo_defaults h; decide
  parents_exist := by
    intro c n ps b i hc hl m hm
    have key : m = 0 ∨ m = 1 ∨ m = 2 ∨ m = 3 := by
      simp only [demo, List.mem_cons, List.not_mem_nil, or_false] at hc
      have hmem := lookup_eq_mem hl
      rcases hc with rfl | rfl <;>
        simp only [List.mem_cons, Prod.mk.injEq, List.not_mem_nil, or_false, reduceCtorEq, and_false, false_or,
          Attr.cached.injEq] at hmem
      · rcases hmem with ⟨_, rfl, _⟩ | ⟨_, rfl, _⟩ <;> simp at hm <;> omega
      · obtain ⟨_, rfl, _⟩ := hmem; simp at hm; omega
    rcases key with rfl | rfl | rfl | rfl <;> simp [Schema.lookup, demo, List.lookup, List.findSome?]
  reads := by
    intro n ps b i hl
    have hn := demo_lookup hl
    have : n = 0 ∨ n = 1 ∨ n = 2 ∨ n = 3 ∨ n = 4 ∨ n = 5 := by omega
    rcases this with rfl | rfl | rfl | rfl | rfl | rfl <;>
      simp [Schema.lookup, demo, List.lookup, List.findSome?] at hl <;> obtain ⟨rfl, rfl, _⟩ := hl <;> simp [Body.ReadsOnly]
    intro a b
    split <;> trivial

theorem demo_isCached {n} (h : demo.IsCached n) : n = 2 ∨ n = 3 ∨ n = 5 := by
  obtain ⟨ps, b, i, hl⟩ := h
  have hn := demo_lookup hl
  have : n = 0 ∨ n = 1 ∨ n = 2 ∨ n = 3 ∨ n = 4 ∨ n = 5 := by omega
  rcases this with rfl | rfl | rfl | rfl | rfl | rfl <;>
    simp [Schema.lookup, demo, List.lookup, List.findSome?] at hl ⊢

theorem demo_isParam {n} (h : demo.IsParam n) : n = 0 ∨ n = 1 ∨ n = 4 := by
  obtain ⟨f, d, hl⟩ := h
  have hn := demo_lookup hl
  have : n = 0 ∨ n = 1 ∨ n = 2 ∨ n = 3 ∨ n = 4 ∨ n = 5 := by omega
  rcases this with rfl | rfl | rfl | rfl | rfl | rfl <;>
    simp [Schema.lookup, demo, List.lookup, List.findSome?] at hl ⊢

theorem demo_covered : demo.DefaultsCovered := by
  have d20 : demo.Declares 2 0 := ⟨_, _, _, rfl, by simp⟩
  have d32 : demo.Declares 3 2 := ⟨_, _, _, rfl, by simp⟩
  have d31 : demo.Declares 3 1 := ⟨_, _, _, rfl, by simp⟩
  have d53 : demo.Declares 5 3 := ⟨_, _, _, rfl, by simp⟩
  intro n p hn hp hmr
  have h4 : ∀ a b, demo.MayRead a b → a ≠ 4 → b ≠ 4 := by
    intro a b h
    induction h with
    | refl => exact id
    | cons hs _ ih =>
      intro _
      apply ih
      rcases hs with hs | hs
      · rcases demo_declares hs with ⟨_, rfl⟩ | ⟨_, rfl | rfl⟩ | ⟨_, rfl⟩ <;> decide
      · rw [(demo_defaults hs).2]; decide
  have hp4 := h4 n p hmr (by rcases demo_isCached hn with rfl | rfl | rfl <;> decide)
  have key : ∀ a, demo.MayRead a p → a = 2 → p = 0 := by
    intro a h ha
    subst ha
    cases h with
    | refl => rcases demo_isParam hp with h | h | h <;> simp at h
    | cons hs h =>
      rcases hs with hs | hs
      · rcases demo_declares hs with ⟨_, rfl⟩ | ⟨h', _⟩ | ⟨h', _⟩
        · cases h with
          | refl => rfl
          | cons hs _ =>
            rcases hs with hs | hs
            · rcases demo_declares hs with ⟨h', _⟩ | ⟨h', _⟩ | ⟨h', _⟩ <;> simp at h'
            · have := (demo_defaults hs).1; simp at this
        · simp at h'
        · simp at h'
      · have := (demo_defaults hs).1; simp at this
  rcases demo_isParam hp with rfl | rfl | rfl
  · rcases demo_isCached hn with rfl | rfl | rfl
    · exact .one d20
    · exact .cons d32 (.one d20)
    · exact .cons d53 (.cons d32 (.one d20))
  · rcases demo_isCached hn with rfl | rfl | rfl
    · exact absurd (key 2 hmr rfl) (by decide)
    · exact .one d31
    · exact .cons d53 (.one d31)
  · exact absurd rfl hp4

theorem demo_rank (n : Nat) : (fun n => if n = 4 then 2 else if n = 5 then 3 else if n = 0 ∨ n = 1 then 0 else
    if n = 2 then 1 else 2) n < 4 := by
  simp only
  repeat' split
  all_goals omega

/-- A non-trivial history of the demo class (set, read, failing set, re-set, read) meets the hypotheses of C01, and the
value read at its end really is the new one. -/
example : ReadsFresh demo 4 (run demo 4 (State.fresh fun _ => none)
      [.set 0 5, .get 5, .set 1 (-2), .get 3, .set 0 6, .get 3, .delCached 2, .set 1 4]) 5 :=
  C01_never_stale demo _ demo_wf demo_covered 4 demo_rank _ _ (by simp) 5

example : (getAttr demo 4 5 (run demo 4 (State.fresh fun _ => none)
      [.set 0 5, .get 5, .set 1 (-2), .get 3, .set 0 6, .get 3, .delCached 2, .set 1 4])).1.toOption = some 4096 := by
  decide

/-- A class whose parameter 1 defaults to attribute 2, which is computed from parameter 0; attribute 3 declares (and
reads) only parameter 1.  (Shape of `sigma_v` with `default="sigma_lin"`, `power_dm.py:454`.) -/
def viaDefault : Schema Nat Int where
  mro := [[(0, .param some .none), (1, .param some (.attr 2)), (2, .cached [0] (.read 0 fun v => .ret v) false),
           (3, .cached [1] (.read 1 fun v => .ret v) false)]]
  extra := fun _ => []
  eqv := fun a b => decide (a = b)

theorem viaDefault_wf :
    viaDefault.WellFormed (fun n => if n = 3 then 3 else if n = 1 then 2 else if n = 2 then 1 else 0) := by
  have hl : ∀ n a, viaDefault.lookup n = some a → n = 0 ∨ n = 1 ∨ n = 2 ∨ n = 3 := by
    intro n a h
    by_cases hn : n < 4
    · omega
    · have h0 : (n == 0) = false := by simp; omega
      have h1 : (n == 1) = false := by simp; omega
      have h2 : (n == 2) = false := by simp; omega
      have h3 : (n == 3) = false := by simp; omega
      simp [viaDefault, Schema.lookup, List.lookup, List.findSome?, h0, h1, h2, h3] at h
  refine ⟨⟨?_, ?_⟩, ?_⟩
  · rintro n m (⟨ps, b, i, h, hm⟩ | ⟨f, h⟩) <;>
      rcases hl _ _ h with rfl | rfl | rfl | rfl <;>
      simp [viaDefault, Schema.lookup, List.lookup, List.findSome?] at h
    · obtain ⟨rfl, _⟩ := h; simp at hm; subst hm; decide
    · obtain ⟨rfl, _⟩ := h; simp at hm; subst hm; decide
    · obtain ⟨_, rfl⟩ := h; decide
  · intro c n ps b i hc hl' m hm
    simp only [viaDefault, List.mem_cons, List.not_mem_nil, or_false] at hc
    subst hc
    have hmem := lookup_eq_mem hl'
    simp only [List.mem_cons, Prod.mk.injEq, List.not_mem_nil, or_false, reduceCtorEq, and_false, false_or,
          Attr.cached.injEq] at hmem
    rcases hmem with ⟨_, rfl, _⟩ | ⟨_, rfl, _⟩ <;> simp at hm <;> subst hm <;>
      simp [viaDefault, Schema.lookup, List.lookup, List.findSome?]
  · intro n ps b i h
    rcases hl _ _ h with rfl | rfl | rfl | rfl <;>
      simp [viaDefault, Schema.lookup, List.lookup, List.findSome?] at h <;> obtain ⟨rfl, rfl, _⟩ := h <;>
      simp [Body.ReadsOnly]

/-- The hypothesis on attribute-valued defaults is needed: after reading 3 and re-assigning 0, attribute 3 is stale. -/
theorem C01_default_counterexample :
    ∃ s : Schema Nat Int, ∃ rank : Nat → Nat, s.WellFormed rank ∧ (∀ n, rank n < 5) ∧
      ¬ ReadsFresh s 5 (run s 5 (State.fresh fun _ => none) [.set 0 1, .get 3, .set 0 2]) 3 := by
  refine ⟨viaDefault, _, viaDefault_wf, ?_, ?_⟩
  · intro n
    repeat' split
    all_goals omega
  · intro h
    have := congrArg Except.toOption h
    revert this
    decide

/-! ### C02: invalidation is exact -/

/-- **C02.**  Assigning a new value to a parameter drops the cached attribute `n` if and only if `n` depends on the
parameter through declared parents (for a class none of whose descriptors is shared with another class, `extra = []`;
in general the dropped set is the union with what other classes registered).  No other attribute is touched. -/
theorem C02_invalidation_exact (s : Schema N V) (rank : N → Nat) (hw : s.WellFormed rank) (F : Nat)
    (hF : ∀ n, rank n < F) (p : N) (x v : V) (f : V → Option V) (d : Default N V)
    (hp : s.lookup p = some (.param f d)) (hv : f x = some v) (σ : State N V)
    (hnew : ∀ old, σ.params p = some old → s.eqv v old = false)
    (n : N) (hn : s.IsCached n) :
    (s.Reach n p → (setAttr s F p x σ).2.cache n = none) ∧
    (¬ s.Reach n p → n ∉ s.extra p → (setAttr s F p x σ).2.cache n = σ.cache n) ∧
    (∀ q, q ≠ p → (setAttr s F p x σ).2.params q = σ.params q) ∧
    (setAttr s F p x σ).2.params p = some v := by
  have hres : (setAttr s F p x σ).2 = { σ with params := upd σ.params p (some v), cache := popAll σ.cache (s.deps F p) } := by
    unfold setAttr
    rw [hp]
    simp only [hv]
    cases ho : σ.params p with
    | none => simp
    | some old => simp [hnew old ho]
  rw [hres]
  refine ⟨fun h => ?_, fun h1 h2 => ?_, fun q hq => ?_, ?_⟩
  · simp [popAll, (mem_deps_iff hw.toShape hF hn p).2 (Or.inl h)]
  · have : n ∉ s.deps F p := fun h => ((mem_deps_iff hw.toShape hF hn p).1 h).elim h1 h2
    simp [popAll, this]
  · simp [upd, hq]
  · simp [upd]

/-- **C02** (second half): assigning a value that `obj_eq` considers equal changes nothing at all. -/
theorem C02_equal_value_drops_nothing (s : Schema N V) (F : Nat) (p : N) (x v old : V) (f : V → Option V)
    (d : Default N V) (hp : s.lookup p = some (.param f d)) (hv : f x = some v) (σ : State N V)
    (ho : σ.params p = some old) (he : s.eqv v old = true) : setAttr s F p x σ = (.ok (), σ) := by
  unfold setAttr
  simp [hp, hv, ho, he]

/-- **C02** (deleting a cached attribute): it and exactly its dependents are dropped. -/
theorem C02_delete_cached_exact (s : Schema N V) (rank : N → Nat) (hw : s.WellFormed rank) (F : Nat)
    (hF : ∀ n, rank n < F) (q : N) (ps : List N) (b : Body N V) (hq : s.lookup q = some (.cached ps b false))
    (σ : State N V) (n : N) (hn : s.IsCached n) :
    ((n = q ∨ s.Reach n q) → (delCached s F q σ).2.cache n = none) ∧
    (¬ (n = q ∨ s.Reach n q) → n ∉ s.extra q → (delCached s F q σ).2.cache n = σ.cache n) := by
  unfold delCached
  rw [hq]
  refine ⟨fun h => ?_, fun h1 h2 => ?_⟩
  · simp only [popAll, upd]
    rcases h with rfl | h
    · simp
    · simp [(mem_deps_iff hw.toShape hF hn q).2 (Or.inl h)]
  · have h3 : n ∉ s.deps F q := fun h => ((mem_deps_iff hw.toShape hF hn q).1 h).elim (fun h => h1 (Or.inr h)) h2
    have h4 : n ≠ q := fun h => h1 (Or.inl h)
    simp [popAll, upd, h3, h4]

/-- **C02** (the cache is used): after a successful read of a cached attribute that is not overridden, the value is in
the cache, and the next read returns it without touching the object (so the body does not run again). -/
theorem C02_second_read_is_cached (s : Schema N V) (F : Nat) (n : N) (ps : List N) (b : Body N V) (i : Bool)
    (hl : s.lookup n = some (.cached ps b i)) (σ : State N V) (hov : σ.overrides n = none) (v : V)
    (h : (getAttr s F n σ).1 = .ok v) :
    (getAttr s F n σ).2.cache n = some v ∧
    ((getAttr s F n σ).2.overrides n = none → ∀ F', getAttr s F' n (getAttr s F n σ).2 = (.ok v, (getAttr s F n σ).2)) := by
  have key : (getAttr s F n σ).2.cache n = some v := by
    have aux : ∀ rec, (getStep s rec n σ).1 = .ok v → (getStep s rec n σ).2.cache n = some v := by
      intro rec hr
      unfold getStep at hr ⊢
      simp only [hl, hov, ite_self] at hr ⊢
      cases hc : σ.cache n with
      | some w => simp only [hc] at hr ⊢; cases hr; rfl
      | none =>
        simp only [hc] at hr ⊢
        cases hrun : runBody rec b σ with
        | mk r σ' =>
          rw [hrun] at hr
          cases r with
          | error e => cases hr
          | ok w => simp only at hr ⊢; cases hr; simp [upd]
    cases F with
    | zero => exact aux _ h
    | succ F => exact aux _ h
  refine ⟨key, fun ho F' => ?_⟩
  cases F' <;> simp [getAttr, getStep, hl, ho, key]

/-- Class creation succeeds on every well-formed class. -/
theorem C02_class_creation_succeeds (s : Schema N V) (rank : N → Nat) (hw : s.WellFormed rank) (F : Nat)
    (hF : ∀ n, rank n < F) (hdl : s.DictLike) : s.createOk F = true := createOk_of_wf hw hdl hF

example : (getAttr demo 4 3 (run demo 4 (State.fresh fun _ => none) [.set 0 5, .get 3])).1.toOption = some 57 ∧
    (setAttr demo 4 1 9 (run demo 4 (State.fresh fun _ => none) [.set 0 5, .get 3])).2.cache 2 = some 50 ∧
    (setAttr demo 4 1 9 (run demo 4 (State.fresh fun _ => none) [.set 0 5, .get 3])).2.cache 3 = none := by decide

/-! ### C03: preserve -/

/-- Every parameter touched by the block (assigned while it was unset before, or deleted) — the ones for which
`preserve` can leave stale results behind. -/
def Tainted (σ : State N V) (ops : List (Op N V)) (p : N) : Prop :=
  (σ.params p = none ∧ ∃ x, Op.set p x ∈ ops) ∨ Op.delParam p ∈ ops

/-- **C03** (partial).  After `with obj.preserve(): ops` on a reachable object, every parameter has its old value or is
unset as before, and every attribute that cannot read a tainted parameter reads exactly as before the block.
Missing from the full C03: attributes that depend on a parameter that was unset before and assigned inside (see
`C03_unset_counterexample`), blocks left by an exception (`C03_exception_counterexample`), and array-valued parameters
changed by less than the `allclose` tolerance (hypothesis `heq`). -/
theorem C03_preserve_partial (s : Schema N V) (rank : N → Nat) (hw : s.WellFormed rank) (hd : s.DefaultsCovered)
    (F : Nat) (hF : ∀ n, rank n < F) (heq : ∀ a b, s.eqv a b = true → a = b) (hidem : s.Idempotent)
    (pnames kw : List N) (hpn : ∀ p, s.IsParam p ↔ p ∈ pnames)
    (before : List (Op N V)) (hb : ∀ o ∈ before, ∀ p, o ≠ .delParam p) (ops : List (Op N V)) :
    let σ := run s F (State.fresh fun _ => none) before
    let σ' := preserve s F pnames kw ops false σ
    σ'.params = σ.params ∧
    ∀ n, (∀ p, Tainted σ ops p → ¬ s.MayRead n p) → (getAttr s F n σ').1 = (getAttr s F n σ).1 := by
  intro σ σ'
  have hσI : Inv s F (fun _ => True) σ ∧ σ.overrides = fun _ => none :=
    run_inv hw hd hF closed_true before (State.fresh fun _ => none) (fun o ho p hp => absurd hp (hb o ho p))
      (fresh_inv _) (fun _ _ => rfl)
  have hst : Stored s σ := run_stored hw hF hidem before _ (fun p v h => by cases h)
  have hst₁ : Stored s (run s F σ ops) := run_stored hw hF hidem ops σ hst
  have hpar : σ'.params = σ.params := preserveExit_params heq hpn hst hst₁
  refine ⟨hpar, fun n hn => ?_⟩
  have hR := closed_notMayRead (s := s) (Tainted σ ops)
  have hIR : Inv s F (fun n => ∀ m, Tainted σ ops m → ¬ s.MayRead n m) σ := fun m v _ => hσI.1 m v trivial
  have hI₁ := run_inv hw hd hF hR ops σ
    (fun o ho p hp m hm _ => hm p (Or.inr (hp ▸ ho))) hIR (fun m _ => by rw [hσI.2])
  have hI' := preserveExit_inv (kw := kw) hw hd hF heq hpn hst hst₁ hIR hI₁.1 (by
    intro p hp hne m hm
    refine hm p (Or.inl ⟨hp, ?_⟩)
    rcases run_set hw hF p ops σ hne with h | h
    · exact absurd hp h
    · exact h)
  have h1 := readsFresh_of_inv hw hF hR (σ := σ') hI'.1
    (fun m _ => by rw [show σ'.overrides = _ from hI'.2, hI₁.2, hσI.2]) hn
  have h2 := readsFresh_of_inv hw hF closed_true hσI.1 (fun m _ => by rw [hσI.2]) (n := n) trivial
  unfold ReadsFresh at h1 h2
  rw [h1, h2, hpar]

/-- **C03 fails** for a parameter that was unset: attribute 2 raised before the block and returns a value after it. -/
theorem C03_unset_counterexample :
    (getAttr demo 4 2 (State.fresh fun _ => none)).1.toOption = none ∧
    (getAttr demo 4 2 (preserve demo 4 [0, 1, 4] [] [.set 0 5, .get 2] false (State.fresh fun _ => none))).1.toOption
      = some 50 := by decide

/-- **C03 fails** when the block raises: the parameter keeps the value assigned inside. -/
theorem C03_exception_counterexample :
    let σ := run demo 4 (State.fresh fun _ => none) [.set 0 5]
    σ.params 0 = some 5 ∧ (preserve demo 4 [0, 1, 4] [] [.set 0 6] true σ).params 0 = some 6 := by decide

/-- The hypotheses of `C03_preserve_partial` are met by the demo class and a block that assigns, reads and deletes. -/
example : ∀ p, demo.IsParam p ↔ p ∈ [0, 1, 4] := by
  intro p
  constructor
  · intro h; rcases demo_isParam h with rfl | rfl | rfl <;> decide
  · intro h
    simp only [List.mem_cons, List.not_mem_nil, or_false] at h
    rcases h with rfl | rfl | rfl <;> exact ⟨_, _, rfl⟩

example : demo.Idempotent := by
  intro p f d x v hl hx
  have hn := demo_lookup hl
  have : p = 0 ∨ p = 1 ∨ p = 2 ∨ p = 3 ∨ p = 4 ∨ p = 5 := by omega
  rcases this with rfl | rfl | rfl | rfl | rfl | rfl <;>
    simp [Schema.lookup, demo, List.lookup, List.findSome?] at hl
  · obtain ⟨rfl, _⟩ := hl; rfl
  · obtain ⟨rfl, _⟩ := hl
    simp only at hx ⊢
    split at hx
    · cases hx
    · rename_i hneg; cases hx; rw [if_neg hneg]
  · obtain ⟨rfl, _⟩ := hl; rfl

example : (getAttr demo 4 5 (preserve demo 4 [0, 1, 4] [0] [.set 0 6, .get 5, .set 4 3, .delCached 2] false
      (run demo 4 (State.fresh fun _ => none) [.set 0 5, .set 1 2]))).1.toOption = some 2704 := by decide

/-! ### C04: deleting a parameter -/

/-- **C04 fails**: after `del obj.p` an attribute computed from `p` still returns the old value, although a new object
without `p` raises. -/
theorem C04_counterexample :
    let σ := run demo 4 (State.fresh fun _ => none) [.set 0 5, .get 2, .delParam 0]
    (getAttr demo 4 2 σ).1.toOption = some 50 ∧ (getAttr demo 4 2 (State.fresh σ.params)).1.toOption = none := by
  decide

/-- **C04** (partial).  After any history without deletions followed by `del obj.p`, an attribute `n` reads as on a new
object provided no attribute that `n` may read and that itself may read `p` is in the cache at the time of the
deletion (in particular: every `n` that cannot read `p`).  Missing: the attributes that were cached. -/
theorem C04_delete_parameter_partial (s : Schema N V) (rank : N → Nat) (hw : s.WellFormed rank)
    (hd : s.DefaultsCovered) (F : Nat) (hF : ∀ n, rank n < F) (π : N → Option V) (ops : List (Op N V))
    (hops : ∀ o ∈ ops, ∀ p, o ≠ .delParam p) (p n : N) :
    let σ := run s F (State.fresh π) ops
    (∀ m, s.MayRead n m → s.MayRead m p → s.IsCached m → σ.cache m = none) →
    ReadsFresh s F (delParam s p σ).2 n := by
  intro σ hn
  obtain ⟨hI, hov⟩ := run_inv hw hd hF closed_true ops (State.fresh π)
    (fun o ho p hp => absurd hp (hops o ho p)) (fresh_inv π) (fun _ _ => rfl)
  let R : N → Prop := fun n => ∀ m, s.MayRead n m → s.MayRead m p → s.IsCached m → σ.cache m = none
  have hR : Closed s R := fun a b ha hs m hm => ha m (.cons hs hm)
  have hI' : Inv s F R (delParam s p σ).2 := by
    rcases delParam_params s p σ with e | ⟨_, e⟩
    · rw [e]; exact fun m v _ => hI m v trivial
    · rw [e]
      intro m v hRm hcm hc
      have hc : σ.cache m = some v := hc
      by_cases hmp : s.MayRead m p
      · rw [hRm m (.refl m) hmp hcm] at hc; cases hc
      · show eval s (upd σ.params p none) F m = .ok v
        rw [not_mayRead_agree hw hmp]
        exact hI m v trivial hcm hc
  exact readsFresh_of_inv hw hF hR hI' (fun m _ => by
    rw [delParam_overrides]; show σ.overrides m = none; rw [show σ.overrides = _ from hov]; rfl) hn

example : let σ := run demo 4 (State.fresh fun _ => none) [.set 0 5, .set 1 2, .get 2, .delParam 1]
    (getAttr demo 4 3 σ).1.toOption = some 57 := by decide

/-! ### C05: an assigned parameter reads back -/

/-- **C05**, general form: after a successful assignment the parameter reads back either the validated new value, or
(only if `obj_eq` holds) the old value. -/
theorem C05_reads_back_up_to_objEq (s : Schema N V) (F : Nat) (p : N) (x v : V) (f : V → Option V)
    (d : Default N V) (hp : s.lookup p = some (.param f d)) (hv : f x = some v) (σ : State N V) :
    (getAttr s F p (setAttr s F p x σ).2).1 = .ok v ∨
    ∃ old, σ.params p = some old ∧ s.eqv v old = true ∧ (getAttr s F p (setAttr s F p x σ).2).1 = .ok old := by
  have hget : ∀ τ : State N V, ∀ w, τ.params p = some w → (getAttr s F p τ).1 = .ok w := by
    intro τ w hw
    cases F <;> simp [getAttr, getStep, hp, hw]
  by_cases h : ∃ old, σ.params p = some old ∧ s.eqv v old = true
  · obtain ⟨old, h1, h2⟩ := h
    right
    refine ⟨old, h1, h2, ?_⟩
    rw [C02_equal_value_drops_nothing s F p x v old f d hp hv σ h1 h2]
    exact hget σ old h1
  · left
    refine hget _ v ?_
    have hne : ∀ old, σ.params p = some old → s.eqv v old = false := by
      intro old ho
      cases he : s.eqv v old with
      | false => rfl
      | true => exact absurd ⟨old, ho, he⟩ h
    unfold setAttr
    rw [hp]
    simp only [hv]
    cases ho : σ.params p with
    | none => simp [upd]
    | some old => simp [hne old ho, upd]

/-- **C05** (partial): with the equality test of the code (`obj_eq`), a scalar assigned to a parameter that is unset or
holds a scalar reads back exactly.  Missing: array values (`C05_array_counterexample`). -/
theorem C05_scalar_reads_back_partial (s : Schema N Val) (he : s.eqv = objEq) (F : Nat) (p : N) (x : Val)
    (q : Rat) (f : Val → Option Val) (d : Default N Val) (hp : s.lookup p = some (.param f d))
    (hv : f x = some (.scalar q)) (σ : State N Val)
    (hold : ∀ old, σ.params p = some old → old = .none ∨ ∃ r, old = .scalar r) :
    (getAttr s F p (setAttr s F p x σ).2).1 = .ok (.scalar q) := by
  rcases C05_reads_back_up_to_objEq s F p x _ f d hp hv σ with h | ⟨old, h1, h2, h3⟩
  · exact h
  · rw [h3]
    rcases hold old h1 with rfl | ⟨r, rfl⟩
    · rw [he] at h2; simp [objEq] at h2
    · rw [he] at h2
      simp only [objEq, decide_eq_true_eq] at h2
      rw [h2]

/-- **C05 fails** for arrays: `obj.p = [1]; obj.p = [1.000001]; obj.p` is `[1]`. -/
theorem C05_array_counterexample :
    let s : Schema Nat Val := { mro := [[(0, .param some .none)]], extra := fun _ => [], eqv := objEq }
    let σ := run s 1 (State.fresh fun _ => none) [.set 0 (.array [1]), .set 0 (.array [1000001 / 1000000])]
    (getAttr s 1 0 σ).1.toOption = some (.array [1]) := by decide +kernel

/-! ### C06: cache overrides -/

/-- **C06 fails**: an attribute computed while one of its inputs was overridden stays in the cache after the block. -/
theorem C06_counterexample :
    let σ := run demo 4 (State.fresh fun _ => none) [.set 0 5, .set 1 2]
    (getAttr demo 4 3 σ).1.toOption = some 52 ∧
    (getAttr demo 4 3 (withOverride demo 4 (fun n => if n = 2 then some 0 else none) [.get 3] σ)).1.toOption
      = some 2 := by decide

/-- Overrides of an `interpolated_function` attribute are silently ignored. -/
theorem C06_interpolated_ignored :
    let σ := run demo 4 (State.fresh fun _ => none) [.set 0 5, .set 1 2]
    (getAttr demo 4 5 { σ with overrides := fun n => if n = 5 then some 0 else none }).1.toOption = some 2704 := by
  decide

/-- **C06** (partial).  After `with obj.cache_override(ov): ops` on a reachable object, every attribute that cannot read
an overridden attribute reads as on a new object with the current parameter values.  Missing: the attributes that can,
when they were computed inside the block (`C06_counterexample`). -/
theorem C06_override_partial (s : Schema N V) (rank : N → Nat) (hw : s.WellFormed rank) (hd : s.DefaultsCovered)
    (F : Nat) (hF : ∀ n, rank n < F) (π : N → Option V) (before ops : List (Op N V))
    (hb : ∀ o ∈ before ++ ops, ∀ p, o ≠ .delParam p) (ov : N → Option V) (n : N)
    (hn : ∀ m, ov m ≠ none → ¬ s.MayRead n m) :
    ReadsFresh s F (withOverride s F ov ops (run s F (State.fresh π) before)) n := by
  obtain ⟨hI, hov⟩ := run_inv hw hd hF closed_true before (State.fresh π)
    (fun o ho p hp => absurd hp (hb o (List.mem_append_left _ ho) p)) (fresh_inv π) (fun _ _ => rfl)
  have hR := closed_notMayRead (s := s) (fun m => ov m ≠ none)
  have hI₁ := run_inv hw hd hF hR ops { run s F (State.fresh π) before with overrides := ov }
    (fun o ho p hp => absurd hp (hb o (List.mem_append_right _ ho) p)) (fun m v _ => hI m v trivial) (by
      intro m hm
      show ov m = none
      cases h : ov m with
      | none => rfl
      | some v => exact absurd (.refl m) (hm m (by rw [h]; simp)))
  exact readsFresh_of_inv hw hF hR (σ := withOverride s F ov ops (run s F (State.fresh π) before))
    (fun m v hm hc => hI₁.1 m v hm hc) (fun _ _ => rfl) hn

/-- Inside the block, and in reads that only go through plain cached properties, the override is what is returned. -/
theorem C06_override_is_read (s : Schema N V) (F : Nat) (n : N) (ps : List N) (b : Body N V) (v : V)
    (hl : s.lookup n = some (.cached ps b false)) (σ : State N V) (ho : σ.overrides n = some v) :
    (getAttr s F n σ).1 = .ok v := by
  cases F <;> simp [getAttr, getStep, hl, ho]

end Verif.Cache
