import Verif.Spec.Cache
set_option linter.unusedSectionVars false
namespace Verif.Cache
variable {N V : Type} [DecidableEq N]

/-! ### denotational value of an attribute -/

def runBodyE (get : N → Except Err V) : Body N V → Except Err V
  | .ret v => .ok v
  | .raise => .error .raised
  | .read n k => match get n with
    | .ok v => runBodyE get (k v)
    | .error e => .error e

def evalStep (s : Schema N V) (rec : N → Except Err V) (π : N → Option V) (n : N) : Except Err V :=
  match s.lookup n with
  | Option.none => .error .attribute
  | some (.param val dflt) =>
    match π n with
    | some v => .ok v
    | Option.none =>
      match dflt with
      | .none => .error .unset
      | .value v => match val v with | some w => .ok w | Option.none => .error .invalid
      | .attr d => rec d
  | some (.cached _ body _) => runBodyE rec body

def eval (s : Schema N V) (π : N → Option V) : Nat → N → Except Err V
  | 0 => evalStep s (fun _ => .error .recursion) π
  | f + 1 => evalStep s (eval s π f) π

theorem runBodyE_congr {ps : List N} {g g' : N → Except Err V} (h : ∀ n ∈ ps, g n = g' n) :
    ∀ b : Body N V, b.ReadsOnly ps → runBodyE g b = runBodyE g' b := by
  intro b
  induction b with
  | ret v => intro _; rfl
  | raise => intro _; rfl
  | read n k ih =>
    intro hr
    simp only [runBodyE, h n hr.1]
    cases g' n with
    | error e => rfl
    | ok v => exact ih v (hr.2 v)

theorem evalStep_congr {s : Schema N V} {rank} (hw : s.WellFormed rank) {g g' : N → Except Err V}
    {π π' : N → Option V} {n : N}
    (hrec : ∀ m, (s.Declares n m ∨ s.DefaultsTo n m) → g m = g' m)
    (hπ : s.IsParam n → π n = π' n) : evalStep s g π n = evalStep s g' π' n := by
  unfold evalStep
  cases hl : s.lookup n with
  | none => rfl
  | some a =>
    cases a with
    | param f d =>
      simp only
      rw [hπ ⟨f, d, hl⟩]
      cases π' n with
      | some v => rfl
      | none =>
        cases d with
        | none => rfl
        | value v => rfl
        | attr d => exact hrec d (Or.inr ⟨f, hl⟩)
    | cached ps b i =>
      exact runBodyE_congr (fun m hm => hrec m (Or.inl ⟨ps, b, i, hl, hm⟩)) b (hw.reads n ps b i hl)

theorem eval_fuel {s : Schema N V} {rank} (hw : s.WellFormed rank) (π : N → Option V) :
    ∀ (k : Nat) (n : N) (f f' : Nat), rank n ≤ k → rank n ≤ f → rank n ≤ f' → eval s π f n = eval s π f' n := by
  intro k
  induction k with
  | zero =>
    intro n f f' hk _ _
    have key : ∀ m, ¬ (s.Declares n m ∨ s.DefaultsTo n m) := by
      intro m hm; have := hw.acyclic n m hm; omega
    cases f <;> cases f' <;>
      exact evalStep_congr hw (fun m hm => absurd hm (key m)) (fun _ => rfl)
  | succ k ih =>
    intro n f f' hk hf hf'
    cases f with
    | zero =>
      have key : ∀ m, ¬ (s.Declares n m ∨ s.DefaultsTo n m) := by
        intro m hm; have := hw.acyclic n m hm; omega
      cases f' <;> exact evalStep_congr hw (fun m hm => absurd hm (key m)) (fun _ => rfl)
    | succ f =>
      cases f' with
      | zero =>
        have key : ∀ m, ¬ (s.Declares n m ∨ s.DefaultsTo n m) := by
          intro m hm; have := hw.acyclic n m hm; omega
        exact evalStep_congr hw (fun m hm => absurd hm (key m)) (fun _ => rfl)
      | succ f' =>
        refine evalStep_congr hw (fun m hm => ?_) (fun _ => rfl)
        have := hw.acyclic n m hm
        exact ih m f f' (by omega) (by omega) (by omega)

/-- The value of `n` does not depend on parameters that `n` cannot end up reading. -/
theorem eval_agree {s : Schema N V} {rank} (hw : s.WellFormed rank) {π π' : N → Option V} :
    ∀ (f : Nat) (n : N), (∀ p, s.MayRead n p → s.IsParam p → π p = π' p) → eval s π f n = eval s π' f n := by
  intro f
  induction f with
  | zero =>
    intro n h
    exact evalStep_congr hw (fun m hm => rfl) (h n (.refl n))
  | succ f ih =>
    intro n h
    refine evalStep_congr hw (fun m hm => ?_) (h n (.refl n))
    exact ih m (fun p hp hip => h p (.cons hm hp) hip)

/-! ### the cache invariant, relative to a set of names closed under reading -/

/-- `R` is closed under the reads of its members. -/
def Closed (s : Schema N V) (R : N → Prop) : Prop :=
  ∀ n m, R n → (s.Declares n m ∨ s.DefaultsTo n m) → R m

def Inv (s : Schema N V) (F : Nat) (R : N → Prop) (σ : State N V) : Prop :=
  ∀ n v, R n → s.IsCached n → σ.cache n = some v → eval s σ.params F n = .ok v

def NoOv (R : N → Prop) (σ : State N V) : Prop := ∀ n, R n → σ.overrides n = Option.none

/-- What a correct attribute reader does. -/
def GoodGet (s : Schema N V) (F : Nat) (R : N → Prop) (B : N → Prop) (get : N → State N V → Res N V) : Prop :=
  ∀ n σ, B n → Inv s F R σ → NoOv R σ →
    (get n σ).2.params = σ.params ∧ (get n σ).2.overrides = σ.overrides ∧ Inv s F R (get n σ).2 ∧
    (R n → (get n σ).1 = eval s σ.params F n)

theorem runBody_good {s : Schema N V} {F : Nat} {R B : N → Prop} {get : N → State N V → Res N V}
    (hg : GoodGet s F R B get) {ps : List N} (hB : ∀ m ∈ ps, B m) :
    ∀ (b : Body N V), b.ReadsOnly ps → ∀ σ, Inv s F R σ → NoOv R σ →
      (runBody get b σ).2.params = σ.params ∧ (runBody get b σ).2.overrides = σ.overrides ∧
      Inv s F R (runBody get b σ).2 ∧
      ((∀ m ∈ ps, R m) → (runBody get b σ).1 = runBodyE (eval s σ.params F) b) := by
  intro b
  induction b with
  | ret v => intro _ σ hI _; exact ⟨rfl, rfl, hI, fun _ => rfl⟩
  | raise => intro _ σ hI _; exact ⟨rfl, rfl, hI, fun _ => rfl⟩
  | read n k ih =>
    intro hr σ hI hO
    obtain ⟨h1, h2, h3, h4⟩ := hg n σ (hB n hr.1) hI hO
    simp only [runBody, runBodyE]
    cases hget : get n σ with
    | mk r σ' =>
      rw [hget] at h1 h2 h3 h4
      simp only at h1 h2 h3 h4
      cases r with
      | error e =>
        refine ⟨h1, h2, h3, fun hR => ?_⟩
        rw [← h4 (hR n hr.1)]
      | ok v =>
        simp only
        have hO' : NoOv R σ' := fun m hm => by rw [h2]; exact hO m hm
        obtain ⟨g1, g2, g3, g4⟩ := ih v (hr.2 v) σ' h3 hO'
        refine ⟨g1.trans h1, g2.trans h2, g3, fun hR => ?_⟩
        rw [g4 hR, ← h4 (hR n hr.1), h1]

theorem getStep_good {s : Schema N V} {rank} (hw : s.WellFormed rank) {F : Nat} {R B B' : N → Prop}
    (hR : Closed s R) {rec : N → State N V → Res N V} (hg : GoodGet s F R B rec)
    (hB : ∀ n m, B' n → (s.Declares n m ∨ s.DefaultsTo n m) → B m)
    (hF : ∀ n, B' n → rank n ≤ F) :
    GoodGet s F R B' (getStep s rec) := by
  intro n σ hBn hI hO
  have hev : eval s σ.params F n = evalStep s (eval s σ.params F) σ.params n := by
    rw [eval_fuel hw σ.params (rank n) n F (F + 1) (Nat.le_refl _) (hF n hBn) (by have := hF n hBn; omega)]
    rfl
  unfold getStep
  rw [hev]
  unfold evalStep
  cases hl : s.lookup n with
  | none => exact ⟨rfl, rfl, hI, fun _ => rfl⟩
  | some a =>
    cases a with
    | param f d =>
      simp only
      cases hp : σ.params n with
      | some v => exact ⟨rfl, rfl, hI, fun _ => rfl⟩
      | none =>
        cases d with
        | none => exact ⟨rfl, rfl, hI, fun _ => rfl⟩
        | value v => exact ⟨rfl, rfl, hI, fun _ => rfl⟩
        | attr d =>
          have hd : s.DefaultsTo n d := ⟨f, hl⟩
          obtain ⟨h1, h2, h3, h4⟩ := hg d σ (hB n d hBn (Or.inr hd)) hI hO
          exact ⟨h1, h2, h3, fun hRn => h4 (hR n d hRn (Or.inr hd))⟩
    | cached ps b i =>
      simp only
      have hcn : s.IsCached n := ⟨ps, b, i, hl⟩
      have hrest : ∀ (hov : (if i = true then Option.none else σ.overrides n) = Option.none),
          let r := (match σ.cache n with
            | some v => ((.ok v, σ) : Res N V)
            | Option.none =>
              match runBody rec b σ with
              | (.ok v, σ') => (.ok v, { σ' with cache := upd σ'.cache n (some v) })
              | (.error e, σ') => (.error e, σ'))
          r.2.params = σ.params ∧ r.2.overrides = σ.overrides ∧ Inv s F R r.2 ∧
          (R n → r.1 = runBodyE (eval s σ.params F) b) := by
        intro _
        cases hc : σ.cache n with
        | some v =>
          refine ⟨rfl, rfl, hI, fun hRn => ?_⟩
          have := hI n v hRn hcn hc
          rw [hev] at this
          simp only [evalStep, hl] at this
          exact this.symm
        | none =>
          have hBps : ∀ m ∈ ps, B m := fun m hm => hB n m hBn (Or.inl ⟨ps, b, i, hl, hm⟩)
          have hRps : R n → ∀ m ∈ ps, R m := fun hRn m hm => hR n m hRn (Or.inl ⟨ps, b, i, hl, hm⟩)
          obtain ⟨g1, g2, g3, g4⟩ := runBody_good hg hBps b (hw.reads n ps b i hl) σ hI hO
          cases hrun : runBody rec b σ with
          | mk r σ' =>
            rw [hrun] at g1 g2 g3 g4
            simp only at g1 g2 g3 g4
            cases r with
            | error e => exact ⟨g1, g2, g3, fun hRn => g4 (hRps hRn)⟩
            | ok v =>
              refine ⟨g1, g2, ?_, fun hRn => g4 (hRps hRn)⟩
              intro m w hRm hcm hm
              simp only [upd] at hm
              split at hm
              · rename_i hmn
                subst hmn
                have : w = v := by simpa using hm.symm
                subst this
                show eval s σ'.params F m = .ok w
                rw [g1, hev]
                simp only [evalStep, hl]
                exact (g4 (hRps hRm)).symm
              · exact g3 m w hRm hcm hm
      cases hov : (if i = true then Option.none else σ.overrides n) with
      | none => exact hrest hov
      | some v =>
        refine ⟨rfl, rfl, hI, fun hRn => ?_⟩
        have := hO n hRn
        rw [this] at hov
        cases i <;> simp at hov

theorem getAttr_good {s : Schema N V} {rank} (hw : s.WellFormed rank) {F : Nat} {R : N → Prop}
    (hR : Closed s R) (hF : ∀ n, rank n ≤ F) :
    ∀ f, GoodGet s F R (fun n => rank n ≤ f) (getAttr s f) := by
  intro f
  induction f with
  | zero =>
    refine getStep_good (B := fun _ => False) hw hR (fun n σ h => absurd h id) ?_ (fun n _ => hF n)
    intro n m hn hm
    have := hw.acyclic n m hm
    omega
  | succ f ih =>
    refine getStep_good hw hR ih ?_ (fun n _ => hF n)
    intro n m hn hm
    have := hw.acyclic n m hm
    show rank m ≤ f
    have : rank n ≤ f + 1 := hn
    omega

/-! ### inversion of the cache map -/

theorem ancStep_ok {s : Schema N V} {rec : List N → Except Err (List N)} :
    ∀ (ps : List N), (∀ p ∈ ps, s.lookup p ≠ Option.none) →
      (∀ p ∈ ps, ∀ qs b i, s.lookup p = some (.cached qs b i) → ∃ a, rec qs = .ok a) →
      ∃ a, s.ancStep rec ps = .ok a ∧
        ∀ d, d ∈ a ↔ d ∈ ps ∨ ∃ p ∈ ps, ∃ qs b i, s.lookup p = some (.cached qs b i) ∧ ∃ a', rec qs = .ok a' ∧ d ∈ a' := by
  intro ps
  induction ps with
  | nil => intro _ _; exact ⟨[], rfl, by simp⟩
  | cons p ps ih =>
    intro hex hrec
    obtain ⟨r, hr, hrm⟩ := ih (fun q hq => hex q (by simp [hq])) (fun q hq => hrec q (by simp [hq]))
    simp only [Schema.ancStep]
    cases hl : s.lookup p with
    | none => exact absurd hl (hex p (by simp))
    | some a =>
      cases a with
      | param f d =>
        refine ⟨p :: r, by simp [hr], fun d => ?_⟩
        simp only [List.mem_cons, hrm]
        constructor
        · rintro (rfl | h | ⟨q, hq, rest⟩)
          · exact Or.inl (Or.inl rfl)
          · exact Or.inl (Or.inr h)
          · exact Or.inr ⟨q, Or.inr hq, rest⟩
        · rintro ((rfl | h) | ⟨q, rfl | hq, qs, b, i, hlq, rest⟩)
          · exact Or.inl rfl
          · exact Or.inr (Or.inl h)
          · rw [hl] at hlq; cases hlq
          · exact Or.inr (Or.inr ⟨q, hq, qs, b, i, hlq, rest⟩)
      | cached qs b i =>
        obtain ⟨a', ha'⟩ := hrec p (by simp) qs b i hl
        refine ⟨p :: (a' ++ r), by simp [ha', hr], fun d => ?_⟩
        simp only [List.mem_cons, List.mem_append, hrm]
        constructor
        · rintro (rfl | h | h | ⟨q, hq, rest⟩)
          · exact Or.inl (Or.inl rfl)
          · exact Or.inr ⟨p, Or.inl rfl, qs, b, i, hl, a', ha', h⟩
          · exact Or.inl (Or.inr h)
          · exact Or.inr ⟨q, Or.inr hq, rest⟩
        · rintro ((rfl | h) | ⟨q, rfl | hq, qs', b', i', hlq, a'', ha'', hd⟩)
          · exact Or.inl rfl
          · exact Or.inr (Or.inr (Or.inl h))
          · rw [hl] at hlq
            cases hlq
            rw [ha'] at ha''
            cases ha''
            exact Or.inr (Or.inl hd)
          · exact Or.inr (Or.inr (Or.inr ⟨q, hq, qs', b', i', hlq, a'', ha'', hd⟩))

theorem lookup_mem {s : Schema N V} {n : N} {a : Attr N V} (h : s.lookup n = some a) :
    ∃ c ∈ s.mro, c.lookup n = some a := by
  unfold Schema.lookup at h
  exact List.exists_of_findSome?_eq_some h

theorem Declares.exists_lookup {s : Schema N V} {rank} (hw : s.Shape rank) {n : N} {ps b i}
    (h : s.lookup n = some (.cached ps b i)) : ∀ m ∈ ps, s.lookup m ≠ Option.none := by
  obtain ⟨c, hc, hl⟩ := lookup_mem h
  exact hw.parents_exist c n ps b i hc hl

theorem ancestors_ok {s : Schema N V} {rank} (hw : s.Shape rank) :
    ∀ (f : Nat) (ps : List N), (∀ p ∈ ps, s.lookup p ≠ Option.none) → (∀ p ∈ ps, rank p < f) →
      ∃ a, s.ancestors f ps = .ok a ∧ ∀ d, d ∈ a ↔ d ∈ ps ∨ ∃ p ∈ ps, s.Reach p d := by
  intro f
  induction f with
  | zero =>
    intro ps hex hrk
    cases ps with
    | nil => exact ⟨[], rfl, by simp⟩
    | cons p ps => exact absurd (hrk p (by simp)) (by omega)
  | succ f ih =>
    intro ps hex hrk
    have hsub : ∀ p ∈ ps, ∀ qs b i, s.lookup p = some (.cached qs b i) →
        ∃ a, s.ancestors f qs = .ok a ∧ ∀ d, d ∈ a ↔ d ∈ qs ∨ ∃ q ∈ qs, s.Reach q d := by
      intro p hp qs b i hl
      refine ih qs (Declares.exists_lookup hw hl) (fun q hq => ?_)
      have h1 := hw.acyclic p q (Or.inl ⟨qs, b, i, hl, hq⟩)
      have h2 := hrk p hp
      omega
    obtain ⟨a, ha, hm⟩ := ancStep_ok (rec := s.ancestors f) ps hex
      (fun p hp qs b i hl => (hsub p hp qs b i hl).imp (fun a h => h.1))
    refine ⟨a, ha, fun d => ?_⟩
    rw [hm]
    constructor
    · rintro (h | ⟨p, hp, qs, b, i, hl, a', ha', hd⟩)
      · exact Or.inl h
      · obtain ⟨a'', ha'', hm'⟩ := hsub p hp qs b i hl
        rw [ha'] at ha''
        cases ha''
        refine Or.inr ⟨p, hp, ?_⟩
        rcases (hm' d).1 hd with h | ⟨q, hq, hr⟩
        · exact .one ⟨qs, b, i, hl, h⟩
        · exact .cons ⟨qs, b, i, hl, hq⟩ hr
    · rintro (h | ⟨p, hp, hr⟩)
      · exact Or.inl h
      · right
        cases hr with
        | one hd =>
          obtain ⟨qs, b, i, hl, hq⟩ := hd
          obtain ⟨a', ha', hm'⟩ := hsub p hp qs b i hl
          exact ⟨p, hp, qs, b, i, hl, a', ha', (hm' d).2 (Or.inl hq)⟩
        | cons hd hr =>
          obtain ⟨qs, b, i, hl, hq⟩ := hd
          obtain ⟨a', ha', hm'⟩ := hsub p hp qs b i hl
          exact ⟨p, hp, qs, b, i, hl, a', ha', (hm' d).2 (Or.inr ⟨_, hq, hr⟩)⟩

theorem findSome?_cachemap {n : N} {ps : List N} {b : Body N V} {i : Bool} :
    ∀ (l : List (List (N × Attr N V))),
      l.findSome? (fun c => c.lookup n) = some (.cached ps b i) →
      l.findSome? (fun c => match c.lookup n with
        | some (.cached ps _ _) => some ps
        | _ => Option.none) = some ps := by
  intro l
  induction l with
  | nil => intro h; simp at h
  | cons c l ih =>
    intro h
    simp only [List.findSome?_cons] at h ⊢
    cases hc : c.lookup n with
    | none => rw [hc] at h; simp only at h ⊢; exact ih h
    | some a =>
      rw [hc] at h
      simp only [Option.some.injEq] at h
      subst h
      rfl

/-- The parent list registered for a name that resolves to a cached attribute is the resolved one. -/
theorem cachemap_of_lookup {s : Schema N V} {n ps b i} (h : s.lookup n = some (.cached ps b i)) :
    s.cachemap n = some ps := findSome?_cachemap s.mro h

theorem lookup_eq_mem {n : N} {a : Attr N V} : ∀ {c : List (N × Attr N V)}, c.lookup n = some a → (n, a) ∈ c := by
  intro c
  induction c with
  | nil => intro h; simp at h
  | cons e c ih =>
    intro h
    obtain ⟨k, w⟩ := e
    rw [List.lookup_cons] at h
    split at h
    · rename_i hk
      have : n = k := by simpa using hk
      subst this
      cases h
      simp
    · simp [ih h]

theorem mem_cachedNames {s : Schema N V} {n ps b i} (h : s.lookup n = some (.cached ps b i)) :
    n ∈ s.cachedNames := by
  obtain ⟨c, hc, hl⟩ := lookup_mem h
  unfold Schema.cachedNames
  rw [List.mem_flatMap]
  exact ⟨c, hc, List.mem_filterMap.2 ⟨(n, _), lookup_eq_mem hl, rfl⟩⟩

theorem inverted_iff {s : Schema N V} {rank} (hw : s.Shape rank) {F : Nat} (hF : ∀ n, rank n < F)
    {n : N} (hc : s.IsCached n) (d : N) : s.inverted F d n = true ↔ s.Reach n d := by
  obtain ⟨ps, b, i, hl⟩ := hc
  unfold Schema.inverted
  rw [cachemap_of_lookup hl]
  obtain ⟨a, ha, hm⟩ := ancestors_ok hw F ps (Declares.exists_lookup hw hl) (fun p _ => hF p)
  simp only [ha, decide_eq_true_eq, hm]
  constructor
  · rintro (h | ⟨p, hp, hr⟩)
    · exact .one ⟨ps, b, i, hl, h⟩
    · exact .cons ⟨ps, b, i, hl, hp⟩ hr
  · intro h
    cases h with
    | one hd =>
      obtain ⟨qs, b', i', hl', hq⟩ := hd
      rw [hl] at hl'; cases hl'
      exact Or.inl hq
    | cons hd hr =>
      obtain ⟨qs, b', i', hl', hq⟩ := hd
      rw [hl] at hl'; cases hl'
      exact Or.inr ⟨_, hq, hr⟩

theorem mem_deps_iff {s : Schema N V} {rank} (hw : s.Shape rank) {F : Nat} (hF : ∀ n, rank n < F)
    {n : N} (hc : s.IsCached n) (d : N) : n ∈ s.deps F d ↔ s.Reach n d ∨ n ∈ s.extra d := by
  unfold Schema.deps
  rw [List.mem_append, List.mem_filter, inverted_iff hw hF hc]
  constructor
  · rintro (h | h)
    · exact Or.inl h.2
    · exact Or.inr h
  · rintro (h | h)
    · obtain ⟨ps, b, i, hl⟩ := hc
      exact Or.inl ⟨mem_cachedNames hl, h⟩
    · exact Or.inr h

/-! ### operations preserve the invariant -/

theorem not_mayRead_agree {s : Schema N V} {rank} (hw : s.WellFormed rank) {π : N → Option V} {p : N}
    {v : Option V} {F n} (h : ¬ s.MayRead n p) : eval s (upd π p v) F n = eval s π F n := by
  refine eval_agree hw F n (fun q hq _ => ?_)
  unfold upd
  split
  · rename_i e; subst e; exact absurd hq h
  · rfl

theorem setAttr_inv {s : Schema N V} {rank} (hw : s.WellFormed rank) (hd : s.DefaultsCovered)
    {F : Nat} (hF : ∀ n, rank n < F) {R : N → Prop} {σ : State N V} {p : N} {x : V}
    (hI : Inv s F R σ) : Inv s F R (setAttr s F p x σ).2 := by
  unfold setAttr
  cases hl : s.lookup p with
  | none => exact hI
  | some a =>
    cases a with
    | cached ps b i => exact hI
    | param val dflt =>
      simp only
      cases val x with
      | none => exact hI
      | some v =>
        simp only
        have key : Inv s F R { σ with params := upd σ.params p (some v), cache := popAll σ.cache (s.deps F p) } := by
          intro n w hRn hcn hc
          simp only at hc ⊢
          unfold popAll at hc
          split at hc
          · cases hc
          · rename_i hnd
            rw [mem_deps_iff hw.toShape hF hcn] at hnd
            have hnr : ¬ s.MayRead n p := fun h => hnd (Or.inl (hd n p hcn ⟨val, dflt, hl⟩ h))
            rw [not_mayRead_agree hw hnr]
            exact hI n w hRn hcn hc
        split
        · exact key
        · split
          · exact key
          · exact hI

theorem popAll_inv {s : Schema N V} {F : Nat} {R : N → Prop} {σ : State N V} {c : N → Option V}
    (hI : Inv s F R σ) (hsub : ∀ n v, c n = some v → σ.cache n = some v) :
    Inv s F R { σ with cache := c } := by
  intro n v hRn hcn hc
  exact hI n v hRn hcn (hsub n v hc)

theorem delCached_inv {s : Schema N V} {F : Nat} {R : N → Prop} {σ : State N V} {n : N}
    (hI : Inv s F R σ) : Inv s F R (delCached s F n σ).2 := by
  unfold delCached
  split
  · refine popAll_inv hI (fun m v hc => ?_)
    unfold popAll upd at hc
    split at hc
    · cases hc
    · split at hc
      · cases hc
      · exact hc
  · exact hI

theorem delParam_inv {s : Schema N V} {rank} (hw : s.WellFormed rank) {F : Nat} {R : N → Prop}
    {σ : State N V} {p : N} (hp : ∀ n, R n → s.IsCached n → ¬ s.MayRead n p)
    (hI : Inv s F R σ) : Inv s F R (delParam s p σ).2 := by
  unfold delParam
  split
  · split
    · exact hI
    · intro n v hRn hcn hc
      rw [not_mayRead_agree hw (hp n hRn hcn)]
      exact hI n v hRn hcn hc
  · exact hI

theorem setAttr_overrides {s : Schema N V} {F p x} {σ : State N V} :
    (setAttr s F p x σ).2.overrides = σ.overrides := by
  unfold setAttr
  split
  · split
    · rfl
    · simp only
      split
      · rfl
      · split <;> rfl
  · rfl

theorem delCached_overrides {s : Schema N V} {F n} {σ : State N V} :
    (delCached s F n σ).2.overrides = σ.overrides := by unfold delCached; split <;> rfl

theorem delParam_overrides {s : Schema N V} {n} {σ : State N V} :
    (delParam s n σ).2.overrides = σ.overrides := by
  unfold delParam; split
  · split <;> rfl
  · rfl

/-- Every operation keeps the invariant, provided deleted parameters are not readable from `R`. -/
theorem step_inv {s : Schema N V} {rank} (hw : s.WellFormed rank) (hd : s.DefaultsCovered)
    {F : Nat} (hF : ∀ n, rank n < F) {R : N → Prop} (hR : Closed s R) {σ : State N V} {o : Op N V}
    (ho : ∀ p, o = .delParam p → ∀ n, R n → s.IsCached n → ¬ s.MayRead n p)
    (hI : Inv s F R σ) (hO : NoOv R σ) :
    Inv s F R (step s F σ o) ∧ (step s F σ o).overrides = σ.overrides := by
  cases o with
  | set p x => exact ⟨setAttr_inv hw hd hF hI, setAttr_overrides⟩
  | get n =>
    obtain ⟨_, h2, h3, _⟩ := getAttr_good hw hR (fun n => Nat.le_of_lt (hF n)) F n σ (Nat.le_of_lt (hF n)) hI hO
    exact ⟨h3, h2⟩
  | delCached n => exact ⟨delCached_inv hI, delCached_overrides⟩
  | delParam p => exact ⟨delParam_inv hw (ho p rfl) hI, delParam_overrides⟩

theorem run_inv {s : Schema N V} {rank} (hw : s.WellFormed rank) (hd : s.DefaultsCovered)
    {F : Nat} (hF : ∀ n, rank n < F) {R : N → Prop} (hR : Closed s R) :
    ∀ (ops : List (Op N V)) (σ : State N V),
      (∀ o ∈ ops, ∀ p, o = .delParam p → ∀ n, R n → s.IsCached n → ¬ s.MayRead n p) →
      Inv s F R σ → NoOv R σ →
      Inv s F R (run s F σ ops) ∧ (run s F σ ops).overrides = σ.overrides := by
  intro ops
  induction ops with
  | nil => intro σ _ hI _; exact ⟨hI, rfl⟩
  | cons o ops ih =>
    intro σ hops hI hO
    obtain ⟨h1, h2⟩ := step_inv hw hd hF hR (hops o (by simp)) hI hO
    have hO' : NoOv R (step s F σ o) := fun n hn => by rw [h2]; exact hO n hn
    obtain ⟨h3, h4⟩ := ih (step s F σ o) (fun o' ho' => hops o' (by simp [ho'])) h1 hO'
    exact ⟨h3, h4.trans h2⟩

theorem fresh_inv {s : Schema N V} {F : Nat} {R : N → Prop} (π : N → Option V) : Inv s F R (State.fresh π) := by
  intro n v _ _ hc; cases hc

theorem readsFresh_of_inv {s : Schema N V} {rank} (hw : s.WellFormed rank) {F : Nat} (hF : ∀ n, rank n < F)
    {R : N → Prop} (hR : Closed s R) {σ : State N V} (hI : Inv s F R σ) (hO : NoOv R σ) {n : N} (hn : R n) :
    ReadsFresh s F σ n := by
  have hF' : ∀ n, rank n ≤ F := fun n => Nat.le_of_lt (hF n)
  have h1 := (getAttr_good hw hR hF' F n σ (hF' n) hI hO).2.2.2 hn
  have h2 := (getAttr_good hw hR hF' F n (State.fresh σ.params) (hF' n) (fresh_inv _) (fun _ _ => rfl)).2.2.2 hn
  unfold ReadsFresh
  rw [h1, h2]
  rfl

theorem closed_true {s : Schema N V} : Closed s (fun _ => True) := fun _ _ _ _ => trivial

theorem closed_notMayRead {s : Schema N V} (P : N → Prop) : Closed s (fun n => ∀ m, P m → ¬ s.MayRead n m) := by
  intro n m hn hs l hl hml
  exact hn l hl (.cons hs hml)

end Verif.Cache
