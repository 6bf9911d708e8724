import Verif.Lemmas.Shipped
import Mathlib.Data.List.Forall2
import Mathlib.Tactic.ByContra
/-
A worst-case implementation of a table (every attribute is the sum of everything it can read) and the proof that it goes
stale on every pair that the declarations do not cover.
-/
set_option linter.unusedSectionVars false
set_option linter.unusedSimpArgs false
namespace Verif.Shipped
open Verif.Cache

/-- reads the listed attributes in turn and returns the sum -/
def sumBody : List Nat → Nat → Body Nat Nat
  | [], acc => .ret acc
  | r :: rs, acc => .read r (fun v => sumBody rs (acc + v))

theorem sumBody_readsOnly {ps : List Nat} : ∀ {rs : List Nat}, (∀ r ∈ rs, r ∈ ps) → ∀ acc, (sumBody rs acc).ReadsOnly ps := by
  intro rs
  induction rs with
  | nil => intro _ acc; trivial
  | cons r rs ih =>
    intro h acc
    exact ⟨h r (by simp), fun v => ih (fun r' hr' => h r' (by simp [hr'])) _⟩

/-- The worst case: setters accept everything, defaults are 0, every cached attribute is the sum of its reads. -/
def worst (M : List Table) : Impl Nat :=
  { validate := fun _ v => some v, dflt := fun _ => some 0, body := fun n => sumBody (readsOf M n) 0 }

theorem worst_respects (M : List Table) : (worst M).Respects M := by
  intro n r h
  have : readsOf M n = r.reads := by unfold readsOf; rw [h]
  simp only [worst, this]
  exact sumBody_readsOnly (fun _ h => h) 0

/-- the value of every attribute of `worst` -/
def val (M : List Table) (π : Nat → Option Nat) (n : Nat) : Nat :=
  match rowOf M n with
  | none => 0
  | some ⟨.param (some d), _⟩ => (π n).getD (if _h : d < n then val M π d else 0)
  | some ⟨.param none, _⟩ => (π n).getD 0
  | some ⟨.cached _ _, rd⟩ => (rd.map (fun m => if _h : m < n then val M π m else 0)).sum
termination_by n

section
variable {M : List Table} {K : Nat} {c : Cert} (h : check M K c = true) {ex : Nat → List Nat} {eqv : Nat → Nat → Bool}

/-- A relation between attributes and values that evaluation preserves (except at the attributes in `stuck`). -/
structure Preserved (M : List Table) (π : Nat → Option Nat) (stuck : Nat → Prop) (R : Nat → Nat → Prop) : Prop where
  param : ∀ n rd, rowOf M n = some ⟨.param none, rd⟩ → R n ((π n).getD 0)
  paramSet : ∀ n d rd v, rowOf M n = some ⟨.param (some d), rd⟩ → π n = some v → R n v
  paramDflt : ∀ n d rd v, rowOf M n = some ⟨.param (some d), rd⟩ → π n = none → R d v → R n v
  cached : ∀ n ps i rd, rowOf M n = some ⟨.cached ps i, rd⟩ → ¬ stuck n →
    ∀ vs, List.Forall₂ R rd vs → R n vs.sum

/-- The states met while evaluating. -/
structure Ok (π : Nat → Option Nat) (stuck : Nat → Prop) (R : Nat → Nat → Prop) (σ : State Nat Nat) : Prop where
  params : σ.params = π
  overrides : ∀ n, σ.overrides n = none
  cache : ∀ n v, σ.cache n = some v → R n v
  stuck : ∀ n, stuck n → (σ.cache n).isSome

theorem runBody_sum {get : Nat → State Nat Nat → Res Nat Nat} {π stuck R} : ∀ {rs : List Nat},
    (∀ r ∈ rs, ∀ σ, Ok π stuck R σ → ∃ v σ', get r σ = (.ok v, σ') ∧ R r v ∧ Ok π stuck R σ' ∧
      (∀ x w, σ.cache x = some w → σ'.cache x = some w)) →
    ∀ acc σ, Ok π stuck R σ → ∃ vs σ', runBody get (sumBody rs acc) σ = (.ok (acc + vs.sum), σ') ∧
      List.Forall₂ R rs vs ∧ Ok π stuck R σ' ∧ (∀ x w, σ.cache x = some w → σ'.cache x = some w) := by
  intro rs
  induction rs with
  | nil => intro _ acc σ hσ; exact ⟨[], σ, by simp [sumBody, runBody], .nil, hσ, fun _ _ h => h⟩
  | cons r rs ih =>
    intro hg acc σ hσ
    obtain ⟨v, σ₁, h1, hR, ho, hm⟩ := hg r (by simp) σ hσ
    obtain ⟨vs, σ₂, h2, hR2, ho2, hm2⟩ := ih (fun r' hr' => hg r' (by simp [hr'])) (acc + v) σ₁ ho
    refine ⟨v :: vs, σ₂, ?_, .cons hR hR2, ho2, fun x w hw => hm2 x w (hm x w hw)⟩
    simp only [sumBody, runBody, h1, h2, List.sum_cons, Nat.add_assoc]

include h

theorem eval_worst {π stuck R} (hc : Preserved M π stuck R) : ∀ (F n : Nat), n ≤ F → (∃ r, rowOf M n = some r) →
    ∀ σ, Ok π stuck R σ → ∃ v σ', getAttr (schema M (worst M) ex eqv) F n σ = (.ok v, σ') ∧ R n v ∧ Ok π stuck R σ' ∧
      (∀ x w, σ.cache x = some w → σ'.cache x = some w) ∧
      ((∃ ps i rd, rowOf M n = some ⟨.cached ps i, rd⟩) → (σ'.cache n).isSome) := by
  have main : ∀ (F n : Nat) (rec : Nat → State Nat Nat → Res Nat Nat),
      (∀ m, m < n → (∃ r, rowOf M m = some r) → ∀ σ, Ok π stuck R σ → ∃ v σ', rec m σ = (.ok v, σ') ∧ R m v ∧
        Ok π stuck R σ' ∧ (∀ x w, σ.cache x = some w → σ'.cache x = some w)) → (∃ r, rowOf M n = some r) →
      ∀ σ, Ok π stuck R σ → ∃ v σ', getStep (schema M (worst M) ex eqv) rec n σ = (.ok v, σ') ∧ R n v ∧
      Ok π stuck R σ' ∧ (∀ x w, σ.cache x = some w → σ'.cache x = some w) ∧
      ((∃ ps i rd, rowOf M n = some ⟨.cached ps i, rd⟩) → (σ'.cache n).isSome) := by
    rintro F n rec hrec ⟨⟨k, rd⟩, hr⟩ σ hσ
    have hk := rowOk_of_check h hr
    unfold getStep
    rw [lookup_schema, hr]
    cases k with
    | param d =>
      have nc : ∀ {p : Prop}, (∃ ps i rd', some ⟨.param d, rd⟩ = some (⟨.cached ps i, rd'⟩ : Row)) → p := by
        rintro p ⟨ps, i, rd', h'⟩; cases h'
      cases d with
      | none =>
        simp only [Option.map_some, Row.attr, worst, hσ.params]
        cases hp : π n with
        | some v =>
          exact ⟨v, σ, rfl, by simpa [hp] using hc.param n rd hr, hσ, fun _ _ h => h, nc⟩
        | none =>
          exact ⟨0, σ, rfl, by simpa [hp] using hc.param n rd hr, hσ, fun _ _ h => h, nc⟩
      | some d =>
        simp only [Option.map_some, Row.attr, worst, hσ.params]
        cases hp : π n with
        | some v => exact ⟨v, σ, rfl, hc.paramSet n d rd v hr hp, hσ, fun _ _ h => h, nc⟩
        | none =>
          obtain ⟨hlt, hex⟩ := hk.step _ rd hr d (Or.inr rfl)
          obtain ⟨v, σ', h1, h2, h3, h4⟩ := hrec d hlt hex σ hσ
          exact ⟨v, σ', h1, hc.paramDflt n d rd v hr hp h2, h3, h4, nc⟩
    | cached ps i =>
      simp only [Option.map_some, Row.attr, hσ.overrides, ite_self]
      cases hcn : σ.cache n with
      | some v => exact ⟨v, σ, rfl, hσ.cache n v hcn, hσ, fun _ _ h => h, fun _ => by rw [hcn]; rfl⟩
      | none =>
        have hns : ¬ stuck n := by
          intro hs; have := hσ.stuck n hs; rw [hcn] at this; cases this
        have hrd : readsOf M n = rd := by unfold readsOf; rw [hr]
        obtain ⟨vs, σ', h1, h2, h3, h4⟩ := runBody_sum (get := rec) (π := π) (stuck := stuck) (R := R) (rs := rd)
          (fun m hm σ hσ => by
            obtain ⟨hlt, hex⟩ := hk.step _ rd hr m (Or.inl ⟨ps, i, rfl, hm⟩)
            exact hrec m hlt hex σ hσ) 0 σ hσ
        have hb : (worst M).body n = sumBody rd 0 := by simp only [worst, hrd]
        rw [Nat.zero_add] at h1
        simp only [hb, h1]
        have hR := hc.cached n ps i rd hr hns vs h2
        refine ⟨_, _, rfl, hR, ⟨h3.params, h3.overrides, ?_, ?_⟩, ?_, ?_⟩
        · intro x v hx
          by_cases hxn : x = n
          · subst hxn
            simp only [upd, if_true] at hx
            cases hx; exact hR
          · simp only [upd, if_neg hxn] at hx
            exact h3.cache x v hx
        · intro x hx
          by_cases hxn : x = n
          · subst hxn; simp [upd]
          · simp only [upd, if_neg hxn]; exact h3.stuck x hx
        · intro x w hx
          by_cases hxn : x = n
          · subst hxn; rw [hcn] at hx; cases hx
          · simp only [upd, if_neg hxn]; exact h4 x w hx
        · intro _; simp [upd]
  intro F
  induction F with
  | zero =>
    intro n hn hex σ hσ
    exact main 0 n _ (fun m hm => absurd hm (by omega)) hex σ hσ
  | succ F ih =>
    intro n hn hex σ hσ
    refine main (F + 1) n _ (fun m hm hex σ hσ => ?_) hex σ hσ
    obtain ⟨v, σ', a, b, d, e, _⟩ := ih m (by omega) hex σ hσ
    exact ⟨v, σ', a, b, d, e⟩

theorem val_cached {π} {n ps i rd} (hr : rowOf M n = some ⟨.cached ps i, rd⟩) :
    val M π n = (rd.map (val M π)).sum := by
  have hk := rowOk_of_check h hr
  rw [val]
  simp only [hr]
  congr 1
  refine List.map_congr_left (fun m hm => ?_)
  rw [dif_pos (hk.step _ rd hr m (Or.inl ⟨ps, i, rfl, hm⟩)).1]

theorem val_dflt {π} {n d rd} (hr : rowOf M n = some ⟨.param (some d), rd⟩) :
    val M π n = (π n).getD (val M π d) := by
  have hk := rowOk_of_check h hr
  rw [val]
  simp only [hr]
  rw [dif_pos (hk.step _ rd hr d (Or.inr rfl)).1]

omit h in
theorem val_param {π} {n rd} (hr : rowOf M n = some ⟨.param none, rd⟩) : val M π n = (π n).getD 0 := by
  rw [val]; simp only [hr]

omit h in
theorem forall2_eq {f : Nat → Nat} : ∀ {rd vs : List Nat}, List.Forall₂ (fun n v => v = f n) rd vs → vs = rd.map f := by
  intro rd vs hf
  induction hf with
  | nil => rfl
  | cons a _ ih => simp [a, ih]

theorem closed_val (π) : Preserved M π (fun _ => False) (fun n v => v = val M π n) where
  param n rd hr := by rw [val_param hr]
  paramSet n d rd v hr hp := by rw [val_dflt h hr, hp]; rfl
  paramDflt n d rd v hr hp hv := by rw [val_dflt h hr, hp]; exact hv
  cached n ps i rd hr _ vs hf := by rw [val_cached h hr, forall2_eq hf]

omit h in
theorem le_sum_of_mem {a : Nat} : ∀ {l : List Nat}, a ∈ l → a ≤ l.sum := by
  intro l
  induction l with
  | nil => intro h; cases h
  | cons b l ih =>
    intro h
    rcases List.mem_cons.1 h with rfl | h
    · simp
    · have := ih h; simp only [List.sum_cons]; omega

omit h in
theorem forall2_le {f : Nat → Nat} {Q : Nat → Prop} : ∀ {rd vs : List Nat},
    List.Forall₂ (fun n v => v ≤ f n ∧ (Q n → v < f n)) rd vs →
    vs.sum ≤ (rd.map f).sum ∧ ((∃ r ∈ rd, Q r) → vs.sum < (rd.map f).sum) := by
  intro rd vs hf
  induction hf with
  | nil => simp
  | @cons r v rd vs a _ ih =>
    obtain ⟨h1, h2⟩ := a
    simp only [List.sum_cons, List.map_cons]
    refine ⟨by omega, ?_⟩
    rintro ⟨x, hx, hq⟩
    rcases List.mem_cons.1 hx with rfl | hx
    · have := h2 hq; omega
    · have := ih.2 ⟨x, hx, hq⟩; omega

/-- one parameter set to 1, everything else unset -/
def only (p : Nat) : Nat → Option Nat := upd (fun _ => none) p (some 1)

/-- whatever may read `p` has a positive value when `p` is 1 -/
theorem val_pos {p : Nat} (hp : c.params.testBit p = true) (hpe : ∃ r, rowOf M p = some r) {n}
    (hm : (schema M (worst M) ex eqv).MayReadVia (readsOf M) n p) : 0 < val M (only p) n := by
  induction hm with
  | refl n =>
    obtain ⟨r, hr0⟩ := hpe
    obtain ⟨d, rd, hr⟩ := (rowOk_of_check h hr0).params.1 hp
    cases d with
    | none => rw [val_param hr]; simp [only, upd]
    | some d => rw [val_dflt h hr]; simp [only, upd]
  | @cons n m l hs _ ih =>
    have ih := ih hp hpe
    obtain ⟨k, rd, hr, hm⟩ := readStep_iff.1 hs
    rcases hm with ⟨ps, i, rfl, hm⟩ | rfl
    · rw [val_cached h hr]
      exact Nat.lt_of_lt_of_le ih (le_sum_of_mem (List.mem_map_of_mem hm))
    · rw [val_dflt h hr]
      by_cases hnl : n = l
      · subst hnl; simp [only, upd]
      · simp only [only, upd, if_neg hnl, Option.getD_none]; exact ih

theorem closed_stale (p m : Nat) (hmc : ∃ ps i rd, rowOf M m = some ⟨.cached ps i, rd⟩)
    (hpm : ¬ (schema M (worst M) ex eqv).MayReadVia (readsOf M) p m) :
    Preserved M (only p) (fun x => x = m) (fun n v => v ≤ val M (only p) n ∧
      ((schema M (worst M) ex eqv).MayReadVia (readsOf M) n m → v < val M (only p) n)) := by
  have stop : ∀ {n k rd}, rowOf M n = some ⟨k, rd⟩ → (∀ ps i, k ≠ .cached ps i) → (∀ d, k ≠ .param (some d)) →
      ¬ (schema M (worst M) ex eqv).MayReadVia (readsOf M) n m := by
    intro n k rd hr h1 h2 hm
    cases hm with
    | refl => obtain ⟨ps, i, rd', h'⟩ := hmc; rw [hr] at h'; cases h'; exact h1 _ _ rfl
    | cons hs _ =>
      obtain ⟨k', rd', hr', hx⟩ := readStep_iff.1 hs
      rw [hr] at hr'; cases hr'
      rcases hx with ⟨ps, i, rfl, _⟩ | rfl
      · exact h1 _ _ rfl
      · exact h2 _ rfl
  refine ⟨?_, ?_, ?_, ?_⟩
  · intro n rd hr
    refine ⟨by rw [val_param hr]; exact Nat.le_refl _, fun hm => absurd hm (stop hr (by simp) (by simp))⟩
  · intro n d rd v hr hp
    have hnp : n = p := by
      by_contra hne
      simp [only, upd, if_neg hne] at hp
    refine ⟨by rw [val_dflt h hr, hp]; exact Nat.le_refl _, fun hm => absurd (hnp ▸ hm) hpm⟩
  · rintro n d rd v hr hp ⟨hle, hlt⟩
    rw [val_dflt h hr, hp]
    refine ⟨hle, fun hm => hlt ?_⟩
    cases hm with
    | refl => obtain ⟨ps, i, rd', h'⟩ := hmc; rw [hr] at h'; cases h'
    | cons hs hm =>
      obtain ⟨k', rd', hr', hx⟩ := readStep_iff.1 hs
      rw [hr] at hr'; cases hr'
      rcases hx with ⟨ps, i, hx, _⟩ | hx
      · cases hx
      · cases hx; exact hm
  · intro n ps i rd hr hne vs hf
    rw [val_cached h hr]
    obtain ⟨h1, h2⟩ := forall2_le hf
    refine ⟨h1, fun hm => h2 ?_⟩
    cases hm with
    | refl => exact absurd rfl hne
    | cons hs hm =>
      obtain ⟨k', rd', hr', hx⟩ := readStep_iff.1 hs
      rw [hr] at hr'; cases hr'
      rcases hx with ⟨ps', i', hx, hmem⟩ | hx
      · exact ⟨_, hmem, hm⟩
      · cases hx

theorem mayReadVia_rank {n m} (hm : (schema M (worst M) ex eqv).MayReadVia (readsOf M) n m) :
    rankOf K m ≤ rankOf K n := by
  induction hm with
  | refl => exact Nat.le_refl _
  | cons hs _ ih => exact Nat.le_of_lt (Nat.lt_of_le_of_lt ih (readStep_rank h hs))

omit h in
theorem mayReadVia_trans {n m l : Nat} (h1 : (schema M (worst M) ex eqv).MayReadVia (readsOf M) n m)
    (h2 : (schema M (worst M) ex eqv).MayReadVia (readsOf M) m l) :
    (schema M (worst M) ex eqv).MayReadVia (readsOf M) n l := by
  induction h1 with
  | refl => exact h2
  | cons hs _ ih => exact .cons hs (ih h2)

/-- If `n` may read the cached attribute `m`, and `m` may read parameter `p` without depending on it through declared
parents (nor through another class sharing the descriptor), then reading `m`, setting `p`, and reading `n` gives a
stale value in the worst-case implementation. -/
theorem worst_stale {F n m p : Nat} (hF : K ≤ F) (hn : ∃ r, rowOf M n = some r)
    (hnm : (schema M (worst M) ex eqv).MayReadVia (readsOf M) n m)
    (hcm : (schema M (worst M) ex eqv).IsCached m)
    (hmp : (schema M (worst M) ex eqv).MayReadVia (readsOf M) m p) (hpp : (schema M (worst M) ex eqv).IsParam p)
    (hre : ¬ (schema M (worst M) ex eqv).Reach m p) (hex : m ∉ ex p) :
    ¬ ReadsFresh (schema M (worst M) ex eqv) F
      (run (schema M (worst M) ex eqv) F (State.fresh (fun _ => none)) [.get m, .set p 1]) n := by
  have hmc := isCached_iff.1 hcm
  obtain ⟨d, rd, hrp⟩ := isParam_iff.1 hpp
  have hkp := rowOk_of_check h hrp
  have hpb := hkp.params.2 ⟨d, rd, hrp⟩
  have hme : ∃ r, rowOf M m = some r := by obtain ⟨ps, i, rd', h'⟩ := hmc; exact ⟨_, h'⟩
  obtain ⟨rm, hrm⟩ := hme
  have hmK := (rowOk_of_check h hrm).lt
  obtain ⟨rn, hrn⟩ := hn
  have hnK := (rowOk_of_check h hrn).lt
  have hpm : ¬ (schema M (worst M) ex eqv).MayReadVia (readsOf M) p m := by
    intro hpm
    have h1 := mayReadVia_rank h hpm
    cases hmp with
    | refl => obtain ⟨ps, i, rd', h'⟩ := hmc; rw [hrp] at h'; cases h'
    | cons hs hl =>
      have h2 := readStep_rank h hs
      have h3 := mayReadVia_rank h hl
      omega
  -- first read: all zeros
  have hz : Preserved M (fun _ => none) (fun _ => False) (fun _ v => v = 0) := by
    refine ⟨fun _ _ _ => rfl, fun _ _ _ _ _ hp => (by cases hp), fun _ _ _ _ _ _ h => h, ?_⟩
    intro n ps i rd _ _ vs hf
    have : vs.sum = 0 := by
      have hf' : List.Forall₂ (fun n v => v = (fun _ => 0) n) rd vs := hf
      rw [forall2_eq hf']
      simp
    exact this
  have hok0 : Ok (fun _ => none) (fun _ => False) (fun _ v => v = 0) (State.fresh (fun _ => none)) :=
    ⟨rfl, fun _ => rfl, fun n v hv => (by cases hv), fun _ hf => hf.elim⟩
  obtain ⟨v0, σ₁, hg1, _, ho1, _, hc1⟩ := eval_worst h (ex := ex) (eqv := eqv) hz F m (by omega) ⟨_, hrm⟩ _ hok0
  have hc1 := hc1 hmc
  -- the assignment
  have hrun : run (schema M (worst M) ex eqv) F (State.fresh (fun _ => none)) [.get m, .set p 1] =
      { σ₁ with params := only p, cache := popAll σ₁.cache ((schema M (worst M) ex eqv).deps F p) } := by
    obtain ⟨f, dd, hl⟩ := hpp
    have hl' := hl
    rw [lookup_schema, hrp] at hl'
    have hf : f = fun v => some v := by
      cases d <;> simp only [Option.map_some, Row.attr, worst, Option.some.injEq, Attr.param.injEq] at hl' <;>
        exact hl'.1.symm
    simp only [run, List.foldl_cons, List.foldl_nil, step, hg1, setAttr, hl, hf, ho1.params, if_true]
    rfl
  set σ₂ : State Nat Nat :=
    { σ₁ with params := only p, cache := popAll σ₁.cache ((schema M (worst M) ex eqv).deps F p) } with hσ₂
  have hmd : m ∉ (schema M (worst M) ex eqv).deps F p := by
    rw [mem_deps_iff (shape_of_check h) (F := F) (fun x => by unfold rankOf; split <;> omega) hcm]
    rintro (hx | hx)
    · exact hre hx
    · exact hex hx
  have hpos : ∀ {x}, (schema M (worst M) ex eqv).MayReadVia (readsOf M) x m → 0 < val M (only p) x := by
    intro x hx
    refine val_pos h hpb ⟨_, hrp⟩ (ex := ex) (eqv := eqv) ?_
    exact mayReadVia_trans hx hmp
  have hok2 : Ok (only p) (fun x => x = m) (fun n v => v ≤ val M (only p) n ∧
      ((schema M (worst M) ex eqv).MayReadVia (readsOf M) n m → v < val M (only p) n)) σ₂ := by
    refine ⟨rfl, ho1.overrides, ?_, ?_⟩
    · intro x v hx
      have : v = 0 := by
        simp only [hσ₂, popAll] at hx
        split at hx
        · cases hx
        · exact ho1.cache x v hx
      subst this
      exact ⟨Nat.zero_le _, fun hm => hpos hm⟩
    · rintro x rfl
      simp only [hσ₂, popAll, if_neg hmd]
      exact hc1
  obtain ⟨v2, σ₃, hg2, hv2, _⟩ := eval_worst h (ex := ex) (eqv := eqv) (closed_stale h p m hmc hpm) F n (by omega)
    ⟨_, hrn⟩ _ hok2
  obtain ⟨v3, σ₄, hg3, hv3, _⟩ := eval_worst h (ex := ex) (eqv := eqv) (closed_val h (only p)) F n (by omega)
    ⟨_, hrn⟩ (State.fresh (only p)) ⟨rfl, fun _ => rfl, fun n v hv => (by cases hv), fun _ hf => hf.elim⟩
  intro hfresh
  rw [hrun] at hfresh
  unfold ReadsFresh at hfresh
  rw [hg2, show σ₂.params = only p from rfl, hg3] at hfresh
  simp only [Except.ok.injEq] at hfresh
  have := hv2.2 hnm
  omega

/-- every exception of the certificate comes from an uncovered pair -/
theorem bad_iff {n p : Nat} : ∀ (B : Nat), n < B → (∃ r, rowOf M n = some r) → (at' c.bad n).testBit p = true →
    ∃ m, (schema M (worst M) ex eqv).MayReadVia (readsOf M) n m ∧ (schema M (worst M) ex eqv).IsCached m ∧
      (schema M (worst M) ex eqv).MayReadVia (readsOf M) m p ∧ (schema M (worst M) ex eqv).IsParam p ∧
      ¬ (schema M (worst M) ex eqv).Reach m p := by
  intro B
  induction B generalizing n with
  | zero => intro hn; omega
  | succ B ih =>
    rintro hn ⟨⟨k, rd⟩, hr⟩ hb
    have hk := rowOk_of_check h hr
    rcases (hk.bad k rd hr p).1 hb with ⟨⟨ps, i, rfl⟩, hrc, hp, hdc⟩ | ⟨m, hm, hbm⟩
    · have hmr := mayRead_of_rc h (im := worst M) (ex := ex) (eqv := eqv) (n + 1) n (by omega) ⟨_, hr⟩ p hrc
      obtain ⟨r, hrp⟩ := mayReadVia_exists h hmr ⟨_, hr⟩
      obtain ⟨d, rd', hrp'⟩ := (rowOk_of_check h hrp).params.1 hp
      refine ⟨n, .refl n, isCached_iff.2 ⟨ps, i, rd, hr⟩, hmr, isParam_iff.2 ⟨d, rd', hrp'⟩, fun hre => ?_⟩
      rw [dc_of_reach h hre] at hdc
      cases hdc
    · obtain ⟨hlt, hex⟩ := hk.step k rd hr m hm
      obtain ⟨m', a, b, d, e, f⟩ := ih (by omega) hex hbm
      exact ⟨m', .cons (readStep_iff.2 ⟨k, rd, hr, hm⟩) a, b, d, e, f⟩

end
end Verif.Shipped
