/-
C109: the reference counts of `Spline`.
-/
import Verif.Model.SplineRef
import Mathlib.Algebra.BigOperators.Group.Finset.Basic
import Mathlib.Algebra.Order.BigOperators.Group.Finset
import Mathlib.Tactic

namespace Verif.SplineRef

/-- the program makes no sense unless variables are used between their definition and the end of their life; `live` are those that exist -/
def Scoped (live : Finset ℕ) : List Op → Prop
  | [] => True
  | .make v :: os => v ∉ live ∧ Scoped (insert v live) os
  | .null v :: os => v ∉ live ∧ Scoped (insert v live) os
  | .copy v w :: os => v ∉ live ∧ w ∈ live ∧ Scoped (insert v live) os
  | .assign v w :: os => v ∈ live ∧ w ∈ live ∧ Scoped live os
  | .destroy v :: os => v ∈ live ∧ Scoped (live.erase v) os
  | .evaluate v :: os => v ∈ live ∧ Scoped live os

/-- how many variables hold `p` -/
def holders (σ : State) (p : ℕ) : ℤ := ∑ u ∈ σ.live, if σ.ptr u = some p then 1 else 0

structure Inv (σ : State) : Prop where
  heap : ∀ p, σ.heap p = if holders σ p = 0 then none else some (holders σ p)
  fresh : ∀ p, σ.next ≤ p → holders σ p = 0

theorem holders_nonneg (σ : State) (p : ℕ) : 0 ≤ holders σ p := Finset.sum_nonneg fun u _ => by split <;> norm_num

theorem holders_insert {live : Finset ℕ} {ptr : ℕ → Option ℕ} {v : ℕ} (hv : v ∉ live) (x : Option ℕ) (p : ℕ) (h : ℕ → Option ℤ) (n : ℕ) :
    holders { heap := h, next := n, live := insert v live, ptr := Function.update ptr v x } p = (if x = some p then 1 else 0) + ∑ u ∈ live, if ptr u = some p then 1 else 0 := by
  change (∑ u ∈ insert v live, if Function.update ptr v x u = some p then (1:ℤ) else 0) = _
  rw [Finset.sum_insert hv, Function.update_self]
  congr 1
  refine Finset.sum_congr rfl fun u hu => ?_
  have hne : u ≠ v := by rintro rfl; exact hv hu
  rw [Function.update_of_ne hne]

theorem holders_update {live : Finset ℕ} {ptr : ℕ → Option ℕ} {v : ℕ} (hv : v ∈ live) (x : Option ℕ) (p : ℕ) (h : ℕ → Option ℤ) (n : ℕ) :
    holders { heap := h, next := n, live := live, ptr := Function.update ptr v x } p + (if ptr v = some p then 1 else 0) = (∑ u ∈ live, if ptr u = some p then 1 else 0) + if x = some p then 1 else 0 := by
  change (∑ u ∈ live, if Function.update ptr v x u = some p then (1:ℤ) else 0) + _ = _
  rw [← Finset.add_sum_erase _ _ hv, ← Finset.add_sum_erase live (fun u => if ptr u = some p then (1:ℤ) else 0) hv, Function.update_self]
  have : (∑ u ∈ live.erase v, if Function.update ptr v x u = some p then (1:ℤ) else 0) = ∑ u ∈ live.erase v, if ptr u = some p then 1 else 0 := by
    refine Finset.sum_congr rfl fun u hu => ?_
    rw [Function.update_of_ne (Finset.ne_of_mem_erase hu)]
  rw [this]
  ring

theorem holders_erase {live : Finset ℕ} {ptr : ℕ → Option ℕ} {v : ℕ} (hv : v ∈ live) (p : ℕ) (h : ℕ → Option ℤ) (n : ℕ) :
    holders { heap := h, next := n, live := live.erase v, ptr := ptr } p + (if ptr v = some p then 1 else 0) = ∑ u ∈ live, if ptr u = some p then 1 else 0 := by
  unfold holders
  simp only
  rw [← Finset.add_sum_erase live (fun u => if ptr u = some p then (1:ℤ) else 0) hv]
  ring

/-- a variable that exists holds an implementation that is there -/
theorem Inv.there {σ : State} (hσ : Inv σ) {v p : ℕ} (hv : v ∈ σ.live) (hp : σ.ptr v = some p) : 1 ≤ holders σ p ∧ σ.heap p = some (holders σ p) := by
  have : 1 ≤ holders σ p := by
    unfold holders
    refine le_trans (by rw [if_pos hp]) (Finset.single_le_sum (f := fun u => if σ.ptr u = some p then (1:ℤ) else 0) (fun u _ => by split <;> norm_num) hv)
  refine ⟨this, ?_⟩
  rw [hσ.heap p, if_neg (by omega)]

theorem step_inv {σ : State} (hσ : Inv σ) {o : Op} {os : List Op} (hs : Scoped σ.live (o :: os)) : ∃ σ', step σ o = some σ' ∧ Inv σ' ∧ Scoped σ'.live os := by
  have hn : ∀ p, (∑ u ∈ σ.live, if σ.ptr u = some p then (1:ℤ) else 0) = holders σ p := fun p => rfl
  cases o with
  | make v =>
    obtain ⟨hv, hs⟩ := hs
    simp only [step, retain, Function.update_self, Option.map_some]
    refine ⟨_, rfl, ⟨fun p => ?_, fun p hp => ?_⟩, hs⟩
    · rw [holders_insert hv, hn]
      by_cases h : p = σ.next
      · subst h
        simp [Function.update_self, hσ.fresh σ.next le_rfl]
      · have : ¬ (some σ.next = some p) := by simp; exact fun e => h e.symm
        simp only [Function.update_of_ne h, if_neg this, zero_add]
        exact hσ.heap p
    · rw [holders_insert hv, hn]
      have : ¬ (some σ.next = some p) := by simp; simp only at hp; omega
      rw [if_neg this, hσ.fresh p (by simp only at hp; omega)]; rfl
  | null v =>
    obtain ⟨hv, hs⟩ := hs
    refine ⟨_, rfl, ⟨fun p => ?_, fun p hp => ?_⟩, hs⟩
    · rw [holders_insert hv, hn]
      simpa using hσ.heap p
    · rw [holders_insert hv, hn]
      simpa using hσ.fresh p hp
  | copy v w =>
    obtain ⟨hv, hw, hs⟩ := hs
    simp only [step, Function.update_self]
    cases hp : σ.ptr w with
    | none =>
      refine ⟨_, rfl, ⟨fun p => ?_, fun p hp' => ?_⟩, hs⟩
      · rw [holders_insert hv, hn]; simpa using hσ.heap p
      · rw [holders_insert hv, hn]; simpa using hσ.fresh p hp'
    | some q =>
      obtain ⟨h1, h2⟩ := hσ.there hw hp
      simp only [retain, h2, Option.map_some]
      refine ⟨_, rfl, ⟨fun p => ?_, fun p hp' => ?_⟩, hs⟩
      · rw [holders_insert hv, hn]
        by_cases h : p = q
        · subst h
          simp only [if_true, Function.update_self]
          rw [if_neg (by omega)]
          congr 1; ring
        · have : ¬ (some q = some p) := by simp; exact fun e => h e.symm
          simp only [Function.update_of_ne h, if_neg this, zero_add]
          exact hσ.heap p
      · rw [holders_insert hv, hn]
        have h0 := hσ.fresh p hp'
        have : ¬ (some q = some p) := by simp; rintro rfl; omega
        rw [if_neg this, h0]; rfl
  | assign v w =>
    obtain ⟨hv, hw, hs⟩ := hs
    simp only [step]
    split
    · next hne =>
      have key : ∀ (h : ℕ → Option ℤ), (∀ p, h p = if holders { σ with heap := h, ptr := Function.update σ.ptr v (σ.ptr w) } p = 0 then none else
            some (holders { σ with heap := h, ptr := Function.update σ.ptr v (σ.ptr w) } p)) → Inv { σ with heap := h, ptr := Function.update σ.ptr v (σ.ptr w) } := by
        intro h hh
        refine ⟨hh, fun p hp => ?_⟩
        have e := holders_update (ptr := σ.ptr) hv (σ.ptr w) p h σ.next
        have h0 := hσ.fresh p hp
        rw [hn, h0] at e
        have hw' : ¬ σ.ptr w = some p := fun hc => by have := (hσ.there hw hc).1; omega
        have hv' : ¬ σ.ptr v = some p := fun hc => by have := (hσ.there hv hc).1; omega
        rw [if_neg hw', if_neg hv'] at e
        simpa using e
      cases hpv : σ.ptr v with
      | none =>
        simp only [release, Option.bind_some]
        cases hpw : σ.ptr w with
        | none => rw [hpv, hpw] at hne; exact absurd rfl hne
        | some q =>
          obtain ⟨h1, h2⟩ := hσ.there hw hpw
          simp only [retain, h2, Option.map_some]
          refine ⟨_, rfl, ?_, hs⟩
          rw [hpw] at key
          refine key _ fun p => ?_
          have e := holders_update (ptr := σ.ptr) hv (some q) p (Function.update σ.heap q (some (holders σ q + 1))) σ.next
          rw [hn, hpv, if_neg (by simp), add_zero] at e
          rw [e]
          by_cases h : p = q
          · subst h
            rw [if_pos rfl, Function.update_self, if_neg (by omega)]
          · have : ¬ (some q = some p) := by simp; exact fun e => h e.symm
            simp only [Function.update_of_ne h, if_neg this, add_zero]
            exact hσ.heap p
      | some r =>
        obtain ⟨g1, g2⟩ := hσ.there hv hpv
        simp only [release, g2, Option.map_some, Option.bind_some]
        cases hpw : σ.ptr w with
        | none =>
          refine ⟨_, rfl, ?_, hs⟩
          rw [hpw] at key
          refine key _ fun p => ?_
          have e := holders_update (ptr := σ.ptr) hv none p (Function.update σ.heap r (if holders σ r - 1 ≤ 0 then none else some (holders σ r - 1))) σ.next
          rw [hn, hpv] at e
          simp only [reduceCtorEq, if_false, add_zero] at e
          by_cases h : p = r
          · subst h
            rw [if_pos rfl] at e
            rw [Function.update_self]
            have e' : holders { σ with heap := Function.update σ.heap p (if holders σ p - 1 ≤ 0 then none else some (holders σ p - 1)), ptr := Function.update σ.ptr v none } p = holders σ p - 1 := by
              linarith
            rw [e']
            by_cases hz : holders σ p - 1 = 0
            · rw [if_pos (by omega), if_pos hz]
            · rw [if_neg (by omega), if_neg hz]
          · have : ¬ (some r = some p) := by simp; exact fun e => h e.symm
            rw [if_neg this, add_zero] at e
            simp only [Function.update_of_ne h]
            rw [e]
            exact hσ.heap p
        | some q =>
          have hrq : r ≠ q := by rintro rfl; rw [hpv, hpw] at hne; exact hne rfl
          obtain ⟨h1, h2⟩ := hσ.there hw hpw
          simp only [retain, Function.update_of_ne (Ne.symm hrq), h2, Option.map_some]
          refine ⟨_, rfl, ?_, hs⟩
          rw [hpw] at key
          refine key _ fun p => ?_
          have e := holders_update (ptr := σ.ptr) hv (some q) p (Function.update (Function.update σ.heap r (if holders σ r - 1 ≤ 0 then none else some (holders σ r - 1))) q (some (holders σ q + 1))) σ.next
          rw [hn, hpv] at e
          by_cases h : p = q
          · subst h
            have hr : ¬ (some r = some p) := by simp; exact hrq
            rw [if_neg hr, if_pos rfl, add_zero] at e
            rw [e, Function.update_self, if_neg (by omega)]
          · have hq : ¬ (some q = some p) := by simp; exact fun e => h e.symm
            rw [if_neg hq, add_zero] at e
            rw [Function.update_of_ne h]
            by_cases h' : p = r
            · subst h'
              rw [if_pos rfl] at e
              rw [Function.update_self]
              have e' : holders { σ with
                  heap := Function.update (Function.update σ.heap p (if holders σ p - 1 ≤ 0 then none else some (holders σ p - 1))) q (some (holders σ q + 1)), ptr := Function.update σ.ptr v (some q) } p =
                  holders σ p - 1 := by
                linarith
              rw [e']
              by_cases hz : holders σ p - 1 = 0
              · rw [if_pos (by omega), if_pos hz]
              · rw [if_neg (by omega), if_neg hz]
            · have hr : ¬ (some r = some p) := by simp; exact fun e => h' e.symm
              rw [if_neg hr, add_zero] at e
              rw [e, Function.update_of_ne h']
              exact hσ.heap p
    · exact ⟨_, rfl, hσ, hs⟩
  | destroy v =>
    obtain ⟨hv, hs⟩ := hs
    simp only [step]
    cases hpv : σ.ptr v with
    | none =>
      refine ⟨_, rfl, ⟨fun p => ?_, fun p hp => ?_⟩, hs⟩
      · have e := holders_erase (ptr := σ.ptr) hv p σ.heap σ.next
        rw [hpv, hn] at e
        simp only [reduceCtorEq, if_false, add_zero] at e
        rw [e]; exact hσ.heap p
      · have e := holders_erase (ptr := σ.ptr) hv p σ.heap σ.next
        rw [hpv, hn] at e
        simp only [reduceCtorEq, if_false, add_zero] at e
        rw [e]; exact hσ.fresh p hp
    | some r =>
      obtain ⟨g1, g2⟩ := hσ.there hv hpv
      simp only [release, g2, Option.map_some]
      refine ⟨_, rfl, ⟨fun p => ?_, fun p hp => ?_⟩, hs⟩
      · have e := holders_erase (ptr := σ.ptr) hv p (Function.update σ.heap r (if holders σ r - 1 ≤ 0 then none else some (holders σ r - 1))) σ.next
        rw [hpv, hn] at e
        by_cases h : p = r
        · subst h
          rw [if_pos rfl] at e
          rw [eq_sub_of_add_eq e]
          simp only [Function.update_self]
          by_cases hz : holders σ p - 1 = 0
          · rw [if_pos (by omega), if_pos hz]
          · rw [if_neg (by omega), if_neg hz]
        · have hr : ¬ (some r = some p) := by simp; exact fun e => h e.symm
          rw [if_neg hr, add_zero] at e
          rw [e]
          simp only [Function.update_of_ne h]
          exact hσ.heap p
      · have e := holders_erase (ptr := σ.ptr) hv p (Function.update σ.heap r (if holders σ r - 1 ≤ 0 then none else some (holders σ r - 1))) σ.next
        rw [hpv, hn] at e
        have h0 := hσ.fresh p hp
        have hr : ¬ (some r = some p) := by simp; rintro rfl; omega
        rw [if_neg hr, add_zero] at e
        rw [e]; exact h0
  | evaluate v =>
    obtain ⟨hv, hs⟩ := hs
    simp only [step]
    cases hpv : σ.ptr v with
    | none => exact ⟨_, rfl, hσ, hs⟩
    | some r =>
      obtain ⟨g1, g2⟩ := hσ.there hv hpv
      simp only [g2, Option.map_some]
      exact ⟨_, rfl, hσ, hs⟩

theorem run_inv {os : List Op} : ∀ {σ : State}, Inv σ → Scoped σ.live os → ∃ σ', run σ os = some σ' ∧ Inv σ' := by
  induction os with
  | nil => exact fun hσ _ => ⟨_, rfl, hσ⟩
  | cons o os ih =>
    intro σ hσ hs
    obtain ⟨σ', e, hσ', hs'⟩ := step_inv hσ hs
    obtain ⟨σ'', e', h⟩ := ih hσ' hs'
    exact ⟨σ'', by simp only [run, e, Option.bind_some, e'], h⟩

/-- **C109**: in a program that uses its `Spline` variables during their lives, whatever it does with them, nothing is used or deleted that is not there; and at every moment the implementations that exist are those that a variable
holds: none is lost, and none is deleted while it is held -/
theorem C109_refcount {os : List Op} (h : Scoped ∅ os) : ∃ σ, run start os = some σ ∧ ∀ p, (σ.heap p).isSome ↔ ∃ v ∈ σ.live, σ.ptr v = some p := by
  have h0 : Inv start := ⟨fun p => by simp [start, holders], fun p _ => by simp [start, holders]⟩
  obtain ⟨σ, e, hσ⟩ := run_inv h0 h
  refine ⟨σ, e, fun p => ⟨fun hp => ?_, fun ⟨v, hv, hp⟩ => ?_⟩⟩
  · by_contra hc
    push Not at hc
    have : holders σ p = 0 := Finset.sum_eq_zero fun u hu => if_neg (hc u hu)
    rw [hσ.heap p, if_pos this] at hp
    exact absurd hp (by simp)
  · rw [(hσ.there hv hp).2]; rfl

/-- **C109** (end): when every variable has ended its life, nothing is left -/
theorem C109_no_leak {os : List Op} (h : Scoped ∅ os) {σ : State} (he : run start os = some σ) (hl : σ.live = ∅) (p : ℕ) : σ.heap p = none := by
  obtain ⟨σ', e, hσ⟩ := C109_refcount h
  rw [he] at e
  cases e
  have := hσ p
  rw [hl] at this
  simpa using this

/-- a program that meets the hypotheses: a self-assignment, an assignment that drops the last holder, a copy that outlives the original -/
example : ∃ σ, run start [.make 0, .assign 0 0, .make 1, .copy 2 1, .assign 1 0, .destroy 0, .evaluate 1, .null 3, .assign 2 3, .destroy 1, .destroy 2, .destroy 3] = some σ ∧ ∀ p, (σ.heap p).isSome ↔ ∃ v ∈ σ.live, σ.ptr v = some p :=
  C109_refcount (by simp only [Scoped]; decide)

end Verif.SplineRef
