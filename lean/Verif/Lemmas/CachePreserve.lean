import Verif.Lemmas.Cache
set_option linter.unusedSectionVars false
namespace Verif.Cache
variable {N V : Type} [DecidableEq N]

theorem mem_lookup_some {β : Type} : ∀ {c : List (N × β)} {n : N} {a : β}, (n, a) ∈ c → c.lookup n ≠ none := by
  intro c
  induction c with
  | nil => intro n a h; simp at h
  | cons e c ih =>
    intro n a h
    obtain ⟨k, w⟩ := e
    rw [List.lookup_cons]
    split
    · simp
    · rename_i hk
      rcases List.mem_cons.1 h with h | h
      · cases h; simp at hk
      · exact ih h

theorem cachemap_mem {s : Schema N V} {n : N} {ps : List N} (h : s.cachemap n = some ps) :
    ∃ c ∈ s.mro, ∃ b i, c.lookup n = some (.cached ps b i) := by
  unfold Schema.cachemap at h
  obtain ⟨c, hc, h⟩ := List.exists_of_findSome?_eq_some h
  refine ⟨c, hc, ?_⟩
  cases hl : c.lookup n with
  | none => rw [hl] at h; simp at h
  | some a =>
    rw [hl] at h
    cases a with
    | param => simp at h
    | cached qs b i => simp at h; subst h; exact ⟨b, i, rfl⟩

/-- Within one class body every name has one entry (`__dict__` is a dict). -/
def Schema.DictLike (s : Schema N V) : Prop :=
  ∀ c ∈ s.mro, ∀ n a, (n, a) ∈ c → c.lookup n = some a

theorem createOk_of_wf {s : Schema N V} {rank} (hw : s.WellFormed rank) (hdl : s.DictLike) {F : Nat}
    (hF : ∀ n, rank n < F) : s.createOk F = true := by
  unfold Schema.createOk
  rw [List.all_eq_true]
  intro n hn
  unfold Schema.cachedNames at hn
  rw [List.mem_flatMap] at hn
  obtain ⟨c, hc, hn⟩ := hn
  rw [List.mem_filterMap] at hn
  obtain ⟨⟨m, a⟩, hm, ha⟩ := hn
  cases a with
  | param => simp at ha
  | cached qs b i =>
    simp at ha
    subst ha
    have hl := hdl c hc _ _ hm
    have hne : s.cachemap m ≠ none := by
      unfold Schema.cachemap
      intro h
      rw [List.findSome?_eq_none_iff] at h
      have := h c hc
      rw [hl] at this
      simp at this
    cases hps : s.cachemap m with
    | none => exact absurd hps hne
    | some ps =>
      obtain ⟨c', hc', b', i', hl'⟩ := cachemap_mem hps
      obtain ⟨a, ha, _⟩ := ancestors_ok hw.toShape F ps (hw.parents_exist c' m ps b' i' hc' hl') (fun p _ => hF p)
      simp [ha]

/-! ### stored values are validated ones -/

def Stored (s : Schema N V) (σ : State N V) : Prop :=
  ∀ p v, σ.params p = some v → ∃ f d, s.lookup p = some (.param f d) ∧ f v = some v

/-- Validators accept their own results. -/
def Schema.Idempotent (s : Schema N V) : Prop :=
  ∀ p f d x v, s.lookup p = some (.param f d) → f x = some v → f v = some v

theorem setAttr_cases (s : Schema N V) (F : Nat) (p : N) (x : V) (σ : State N V) :
    (setAttr s F p x σ).2 = σ ∨
    ∃ f d v, s.lookup p = some (.param f d) ∧ f x = some v ∧
      (setAttr s F p x σ).2 = { σ with params := upd σ.params p (some v), cache := popAll σ.cache (s.deps F p) } := by
  unfold setAttr
  cases hl : s.lookup p with
  | none => exact Or.inl rfl
  | some a =>
    cases a with
    | cached => exact Or.inl rfl
    | param f d =>
      simp only
      cases hx : f x with
      | none => exact Or.inl rfl
      | some v =>
        simp only
        cases hp : σ.params p with
        | none => right; exact ⟨f, d, v, rfl, hx, rfl⟩
        | some old =>
          by_cases he : s.eqv v old = true
          · left; simp [he]
          · right; exact ⟨f, d, v, rfl, hx, by simp [he]⟩

theorem setAttr_params {s : Schema N V} (heq : ∀ a b, s.eqv a b = true → a = b) {F : Nat} {p : N} {x v : V}
    {f d} (hl : s.lookup p = some (.param f d)) (hx : f x = some v) (σ : State N V) :
    (setAttr s F p x σ).2.params = upd σ.params p (some v) := by
  unfold setAttr
  rw [hl]
  simp only [hx]
  cases hp : σ.params p with
  | none => rfl
  | some old =>
    by_cases he : s.eqv v old = true
    · have := heq _ _ he
      subst this
      funext q
      by_cases hq : q = p
      · subst hq; simp [upd, he, hp]
      · simp [upd, he, hq]
    · simp [he]

theorem getAttr_params {s : Schema N V} {rank} (hw : s.WellFormed rank) {F : Nat} (hF : ∀ n, rank n < F) (n : N)
    (σ : State N V) : (getAttr s F n σ).2.params = σ.params :=
  (getAttr_good (R := fun _ => False) hw (fun _ _ h => absurd h id) (fun n => Nat.le_of_lt (hF n)) F n σ
    (Nat.le_of_lt (hF n)) (fun _ _ h => absurd h id) (fun _ h => absurd h id)).1

theorem delCached_params {s : Schema N V} {F : Nat} {n : N} {σ : State N V} :
    (delCached s F n σ).2.params = σ.params := by unfold delCached; split <;> rfl

theorem delParam_params (s : Schema N V) (p : N) (σ : State N V) :
    (delParam s p σ).2 = σ ∨ (s.IsParam p ∧ (delParam s p σ).2 = { σ with params := upd σ.params p Option.none }) := by
  unfold delParam
  split
  · rename_i f d hl
    split
    · left; rfl
    · right; exact ⟨⟨f, d, hl⟩, rfl⟩
  · left; rfl

theorem step_stored {s : Schema N V} {rank} (hw : s.WellFormed rank) {F : Nat} (hF : ∀ n, rank n < F)
    (hidem : s.Idempotent) {σ : State N V} (o : Op N V) (h : Stored s σ) : Stored s (step s F σ o) := by
  cases o with
  | set p x =>
    show Stored s (setAttr s F p x σ).2
    rcases setAttr_cases s F p x σ with h' | ⟨f, d, v, hl, hx, h'⟩
    · rw [h']; exact h
    · rw [h']
      intro q w hq
      simp only [upd] at hq
      split at hq
      · rename_i e; subst e
        have hvw : v = w := by simpa using hq
        subst hvw
        exact ⟨f, d, hl, hidem q f d x v hl hx⟩
      · exact h q w hq
  | get n => intro q w hq; exact h q w (by rw [← getAttr_params hw hF n σ]; exact hq)
  | delCached n => intro q w hq; exact h q w (by rw [← delCached_params (s := s) (F := F) (n := n)]; exact hq)
  | delParam p =>
    show Stored s (delParam s p σ).2
    rcases delParam_params s p σ with h' | ⟨_, h'⟩
    · rw [h']; exact h
    · rw [h']
      intro q w hq
      simp only [upd] at hq
      split at hq
      · cases hq
      · exact h q w hq

theorem run_stored {s : Schema N V} {rank} (hw : s.WellFormed rank) {F : Nat} (hF : ∀ n, rank n < F)
    (hidem : s.Idempotent) : ∀ (ops : List (Op N V)) (σ : State N V), Stored s σ → Stored s (run s F σ ops) := by
  intro ops
  induction ops with
  | nil => intro σ h; exact h
  | cons o ops ih => intro σ h; exact ih _ (step_stored hw hF hidem o h)

/-- A parameter that is set after a block was set before it or was assigned in it. -/
theorem run_set {s : Schema N V} {rank} (hw : s.WellFormed rank) {F : Nat} (hF : ∀ n, rank n < F) (p : N) :
    ∀ (ops : List (Op N V)) (σ : State N V), (run s F σ ops).params p ≠ none →
      σ.params p ≠ none ∨ ∃ x, Op.set p x ∈ ops := by
  intro ops
  induction ops with
  | nil => intro σ h; exact Or.inl h
  | cons o ops ih =>
    intro σ h
    rcases ih _ h with h' | ⟨x, hx⟩
    · cases o with
      | set q x =>
        have h' : (setAttr s F q x σ).2.params p ≠ none := h'
        rcases setAttr_cases s F q x σ with e | ⟨f, d, v, hl, hx, e⟩
        · rw [e] at h'; exact Or.inl h'
        · rw [e] at h'
          by_cases hpq : p = q
          · subst hpq; exact Or.inr ⟨x, by simp⟩
          · left; simpa [upd, hpq] using h'
      | get n => left; rw [← getAttr_params hw hF n σ]; exact h'
      | delCached n => left; rw [← delCached_params (s := s) (F := F) (n := n)]; exact h'
      | delParam q =>
        have h' : (delParam s q σ).2.params p ≠ none := h'
        left
        rcases delParam_params s q σ with e | ⟨_, e⟩
        · rw [e] at h'; exact h'
        · rw [e] at h'
          simp only [upd] at h'
          split at h'
          · exact absurd rfl h'
          · exact h'
    · exact Or.inr ⟨x, by simp [hx]⟩

/-! ### the exit half of `preserve` -/

theorem mem_saveParams {σ : State N V} {names : List N} {e : N × V} :
    e ∈ saveParams σ names ↔ e.1 ∈ names ∧ σ.params e.1 = some e.2 := by
  unfold saveParams
  rw [List.mem_filterMap]
  constructor
  · rintro ⟨p, hp, h⟩
    cases hv : σ.params p with
    | none => rw [hv] at h; simp at h
    | some v => rw [hv] at h; simp at h; subst h; exact ⟨hp, hv⟩
  · rintro ⟨h1, h2⟩
    exact ⟨e.1, h1, by simp [h2]⟩

theorem restoreParams_params {s : Schema N V} (heq : ∀ a b, s.eqv a b = true → a = b) {F : Nat}
    (π : N → Option V) : ∀ (l : List (N × V)) (σ : State N V),
      (∀ e ∈ l, π e.1 = some e.2 ∧ ∃ f d, s.lookup e.1 = some (.param f d) ∧ f e.2 = some e.2) →
      ∀ q, (restoreParams s F l σ).params q = if q ∈ l.map Prod.fst then π q else σ.params q := by
  intro l
  induction l with
  | nil => intro σ _ q; simp [restoreParams]
  | cons e l ih =>
    intro σ h q
    obtain ⟨p, v⟩ := e
    obtain ⟨hπ, f, d, hl, hv⟩ := h (p, v) (by simp)
    simp only [restoreParams]
    rw [ih _ (fun e he => h e (by simp [he])) q, setAttr_params heq hl hv σ]
    simp only [List.map_cons, List.mem_cons]
    by_cases h1 : q ∈ l.map Prod.fst
    · simp [h1]
    · by_cases h2 : q = p
      · subst h2; simp [upd, hπ]
      · simp [h1, h2, upd]

theorem restoreParams_inv {s : Schema N V} {rank} (hw : s.WellFormed rank) (hd : s.DefaultsCovered) {F : Nat}
    (hF : ∀ n, rank n < F) {R : N → Prop} : ∀ (l : List (N × V)) (σ : State N V), Inv s F R σ →
      Inv s F R (restoreParams s F l σ) ∧ (restoreParams s F l σ).overrides = σ.overrides := by
  intro l
  induction l with
  | nil => intro σ h; exact ⟨h, rfl⟩
  | cons e l ih =>
    intro σ h
    obtain ⟨p, v⟩ := e
    obtain ⟨h1, h2⟩ := ih _ (setAttr_inv hw hd hF (p := p) (x := v) h)
    exact ⟨h1, h2.trans setAttr_overrides⟩

theorem unsetParams_params {s : Schema N V} : ∀ (l : List N) (σ : State N V), (∀ p ∈ l, s.IsParam p) →
    ∀ q, (unsetParams s l σ).params q = if q ∈ l then none else σ.params q := by
  intro l
  induction l with
  | nil => intro σ _ q; simp [unsetParams]
  | cons p l ih =>
    intro σ h q
    simp only [unsetParams]
    rw [ih _ (fun p hp => h p (by simp [hp])) q]
    simp only [List.mem_cons]
    by_cases h1 : q ∈ l
    · simp [h1]
    · simp only [h1, if_false, or_false]
      obtain ⟨f, d, hl⟩ := h p (by simp)
      cases hp : σ.params p with
      | none =>
        simp only [Option.isSome_none, Bool.false_eq_true, if_false]
        by_cases h2 : q = p
        · subst h2; simp [hp]
        · simp [h2]
      | some v =>
        simp only [Option.isSome_some, if_true, delParam, hl, hp, upd]

theorem unsetParams_inv {s : Schema N V} {rank} (hw : s.WellFormed rank) {F : Nat} {R : N → Prop} :
    ∀ (l : List N) (σ : State N V),
      (∀ p ∈ l, σ.params p ≠ none → ∀ n, R n → s.IsCached n → ¬ s.MayRead n p) → Inv s F R σ →
      Inv s F R (unsetParams s l σ) ∧ (unsetParams s l σ).overrides = σ.overrides := by
  intro l
  induction l with
  | nil => intro σ _ h; exact ⟨h, rfl⟩
  | cons p l ih =>
    intro σ hp h
    simp only [unsetParams]
    cases hpp : σ.params p with
    | none =>
      simp only [Option.isSome_none, Bool.false_eq_true, if_false]
      exact ih σ (fun q hq => hp q (by simp [hq])) h
    | some v =>
      simp only [Option.isSome_some, if_true]
      have hI := delParam_inv (p := p) hw (hp p (by simp) (by rw [hpp]; simp)) h
      obtain ⟨h1, h2⟩ := ih _ (by
        intro q hq hne
        refine hp q (by simp [hq]) ?_
        rcases delParam_params s p σ with e | ⟨_, e⟩
        · rw [e] at hne; exact hne
        · rw [e] at hne
          simp only [upd] at hne
          split at hne
          · exact absurd rfl hne
          · exact hne) hI
      exact ⟨h1, h2.trans delParam_overrides⟩

section
variable {s : Schema N V} {rank : N → Nat}

theorem preserveExit_params (heq : ∀ a b, s.eqv a b = true → a = b) {F : Nat} {pnames kw : List N}
    (hpn : ∀ p, s.IsParam p ↔ p ∈ pnames) {σ σ₁ : State N V} (hst : Stored s σ) (hst₁ : Stored s σ₁) :
    (preserveExit s F pnames kw σ σ₁).params = σ.params := by
  have hsave : ∀ names : List N, ∀ e ∈ saveParams σ names,
      σ.params e.1 = some e.2 ∧ ∃ f d, s.lookup e.1 = some (.param f d) ∧ f e.2 = some e.2 := by
    intro names e he
    have := (mem_saveParams.1 he).2
    exact ⟨this, hst e.1 e.2 this⟩
  have hmem : ∀ names : List N, ∀ q, q ∈ (saveParams σ names).map Prod.fst ↔ q ∈ names ∧ σ.params q ≠ none := by
    intro names q
    rw [List.mem_map]
    constructor
    · rintro ⟨e, he, rfl⟩
      obtain ⟨h1, h2⟩ := mem_saveParams.1 he
      exact ⟨h1, by rw [h2]; simp⟩
    · rintro ⟨h1, h2⟩
      cases hv : σ.params q with
      | none => exact absurd hv h2
      | some v => exact ⟨(q, v), mem_saveParams.2 ⟨h1, hv⟩, rfl⟩
  funext q
  simp only [preserveExit]
  rw [unsetParams_params _ _ (fun p hp => (hpn p).2 (List.mem_filter.1 hp).1) q,
    restoreParams_params heq σ.params _ _ (hsave pnames) q, restoreParams_params heq σ.params _ _ (hsave kw) q]
  simp only [hmem, List.mem_filter]
  by_cases hq : q ∈ pnames
  · cases hv : σ.params q with
    | none => simp [hq]
    | some v => simp [hq]
  · have h1 : σ.params q = none := by
      cases hv : σ.params q with
      | none => rfl
      | some v => obtain ⟨f, d, hl, _⟩ := hst q v hv; exact absurd ((hpn q).1 ⟨f, d, hl⟩) hq
    have h2 : σ₁.params q = none := by
      cases hv : σ₁.params q with
      | none => rfl
      | some v => obtain ⟨f, d, hl, _⟩ := hst₁ q v hv; exact absurd ((hpn q).1 ⟨f, d, hl⟩) hq
    simp [hq, h1, h2]

theorem preserveExit_inv (hw : s.WellFormed rank) (hd : s.DefaultsCovered) {F : Nat} (hF : ∀ n, rank n < F)
    (heq : ∀ a b, s.eqv a b = true → a = b) {pnames kw : List N}
    (hpn : ∀ p, s.IsParam p ↔ p ∈ pnames) {σ σ₁ : State N V} (hst : Stored s σ) (hst₁ : Stored s σ₁)
    {R : N → Prop} (hI : Inv s F R σ) (hI₁ : Inv s F R σ₁)
    (htaint : ∀ p, σ.params p = none → σ₁.params p ≠ none → ∀ n, R n → ¬ s.MayRead n p) :
    Inv s F R (preserveExit s F pnames kw σ σ₁) ∧ (preserveExit s F pnames kw σ σ₁).overrides = σ₁.overrides := by
  have hpar := preserveExit_params (F := F) (kw := kw) heq hpn hst hst₁
  have hsave : ∀ names : List N, ∀ e ∈ saveParams σ names,
      σ.params e.1 = some e.2 ∧ ∃ f d, s.lookup e.1 = some (.param f d) ∧ f e.2 = some e.2 := by
    intro names e he
    have := (mem_saveParams.1 he).2
    exact ⟨this, hst e.1 e.2 this⟩
  obtain ⟨a1, a2⟩ := restoreParams_inv hw hd hF (saveParams σ kw) σ₁ hI₁
  obtain ⟨b1, b2⟩ := restoreParams_inv hw hd hF (saveParams σ pnames) _ a1
  obtain ⟨c1, c2⟩ := unsetParams_inv hw (pnames.filter (fun p => (σ.params p).isNone)) _ (by
    intro p hp hne n hn hc
    have hnone : σ.params p = none := by simpa using (List.mem_filter.1 hp).2
    rw [restoreParams_params heq σ.params _ _ (hsave pnames) p,
      restoreParams_params heq σ.params _ _ (hsave kw) p] at hne
    have hno : ∀ names : List N, p ∉ (saveParams σ names).map Prod.fst := by
      intro names hmem
      obtain ⟨e, he, rfl⟩ := List.mem_map.1 hmem
      have := (mem_saveParams.1 he).2
      rw [hnone] at this; cases this
    rw [if_neg (hno pnames), if_neg (hno kw)] at hne
    exact htaint p hnone hne n hn) b1
  refine ⟨?_, c2.trans (b2.trans a2)⟩
  intro n v hRn hcn hc
  rw [hpar]
  have hpar' : (unsetParams s (pnames.filter (fun p => (σ.params p).isNone))
    (restoreParams s F (saveParams σ pnames) (restoreParams s F (saveParams σ kw) σ₁))).params = σ.params := hpar
  simp only [preserveExit] at hc
  cases hs : σ.cache n with
  | some w =>
    rw [hs] at hc
    simp only at hc
    exact hI n v hRn hcn (hs.trans hc)
  | none =>
    rw [hs] at hc
    simp only at hc
    have := c1 n v hRn hcn hc
    rw [hpar'] at this
    exact this
end

end Verif.Cache
