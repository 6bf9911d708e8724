/-
C151: the parameters of the quasar model.
-/
import Verif.Model.QsoParams
import Verif.Props.GalParams
import Mathlib.Data.List.Sort

namespace Verif.Params

open Qso

/-! ### the class of default parameters -/

theorem schema_from (attrs : List Attr) (r : Registry) :
    (∀ n, n ∈ (attrs.foldl Registry.add r).free ↔ n ∈ r.free ∨ ∃ a ∈ attrs, a.name = n ∧ a.kind = .free ∧ a.deprecated = false) ∧
    (∀ n, n ∈ (attrs.foldl Registry.add r).fixed ↔ n ∈ r.fixed ∨ ∃ a ∈ attrs, a.name = n ∧ a.kind = .fixed ∧ a.deprecated = false) ∧
    (∀ n, n ∈ (attrs.foldl Registry.add r).modelParams ↔ n ∈ r.modelParams ∨ ∃ a ∈ attrs, a.name = n ∧ a.kind ≠ .other ∧ a.deprecated = false ∧ a.modelParam = true) ∧
    (∀ n, n ∈ (attrs.foldl Registry.add r).extraParams ↔ n ∈ r.extraParams ∨ ∃ a ∈ attrs, a.name = n ∧ a.kind ≠ .other ∧ a.deprecated = false ∧ a.modelParam = false) ∧
    (∀ n, n ∈ (attrs.foldl Registry.add r).deprecated ↔ n ∈ r.deprecated ∨ ∃ a ∈ attrs, a.name = n ∧ a.kind ≠ .other ∧ a.deprecated = true) := by
  induction attrs generalizing r with
  | nil => simp
  | cons a l ih =>
    obtain ⟨h1, h2, h3, h4, h5⟩ := ih (r.add a)
    simp only [List.foldl_cons]
    obtain ⟨name, kind, mp, dep⟩ := a
    refine ⟨fun n => ?_, fun n => ?_, fun n => ?_, fun n => ?_, fun n => ?_⟩
    · rw [h1]; cases kind <;> cases mp <;> cases dep <;> simp [Registry.add, @eq_comm String n name] <;> tauto
    · rw [h2]; cases kind <;> cases mp <;> cases dep <;> simp [Registry.add, @eq_comm String n name] <;> tauto
    · rw [h3]; cases kind <;> cases mp <;> cases dep <;> simp [Registry.add, @eq_comm String n name] <;> tauto
    · rw [h4]; cases kind <;> cases mp <;> cases dep <;> simp [Registry.add, @eq_comm String n name] <;> tauto
    · rw [h5]; cases kind <;> cases mp <;> cases dep <;> simp [Registry.add, @eq_comm String n name] <;> tauto

theorem str_trans (a b c : String) (h1 : decide (a ≤ b) = true) (h2 : decide (b ≤ c) = true) : decide (a ≤ c) = true :=
  decide_eq_true (String.le_trans (of_decide_eq_true h1) (of_decide_eq_true h2))

theorem str_total (a b : String) : (decide (a ≤ b) || decide (b ≤ a)) = true := by
  rcases String.le_total a b with h | h <;> simp [h]

theorem schema_length (attrs : List Attr) (r : Registry) :
    ((attrs.foldl Registry.add r).free ++ (attrs.foldl Registry.add r).fixed).Perm
      ((attrs.filter fun a => decide (a.kind ≠ .other ∧ a.deprecated = false)).map Attr.name ++ (r.free ++ r.fixed)) := by
  induction attrs generalizing r with
  | nil => simp
  | cons a l ih =>
    simp only [List.foldl_cons]
    refine (ih (r.add a)).trans ?_
    obtain ⟨name, kind, mp, dep⟩ := a
    have key : ∀ (x : String) (A B C : List String), (A ++ (B ++ x :: C)).Perm (x :: (A ++ (B ++ C))) := fun x A B C =>
      (List.Perm.append_left A List.perm_middle).trans List.perm_middle
    cases kind <;> cases mp <;> cases dep <;> simp [Registry.add, key]

/-- **C151** (defaults): whatever the class holds, iterating over the defaults gives every parameter that is not deprecated once, in alphabetical order; the names are valid exactly if they are such parameters; a parameter is passed to the model exactly if it was declared so,
and free exactly if it was declared so -/
theorem C151_schema (attrs : List Attr) (hn : (attrs.map Attr.name).Nodup) :
    (schema attrs).iter.Pairwise (· < ·) ∧
    (∀ n, n ∈ (schema attrs).iter ↔ ∃ a ∈ attrs, a.name = n ∧ a.kind ≠ .other ∧ a.deprecated = false) ∧
    (∀ n, (schema attrs).contains n = true ↔ n ∈ (schema attrs).iter) ∧
    (∀ n, n ∈ (schema attrs).modelParamsSorted ↔ ∃ a ∈ attrs, a.name = n ∧ a.kind ≠ .other ∧ a.deprecated = false ∧ a.modelParam = true) ∧
    (∀ n, n ∈ (schema attrs).free ↔ ∃ a ∈ attrs, a.name = n ∧ a.kind = .free ∧ a.deprecated = false) ∧
    (∀ n, n ∈ (schema attrs).deprecated ↔ ∃ a ∈ attrs, a.name = n ∧ a.kind ≠ .other ∧ a.deprecated = true) := by
  obtain ⟨h1, h2, h3, h4, h5⟩ := schema_from attrs ⟨[], [], [], [], []⟩
  simp only [List.not_mem_nil, false_or] at h1 h2 h3 h4 h5
  have hmem : ∀ n, n ∈ (schema attrs).iter ↔ ∃ a ∈ attrs, a.name = n ∧ a.kind ≠ .other ∧ a.deprecated = false := by
    intro n
    unfold Registry.iter sortNames
    rw [List.mem_mergeSort, List.mem_append]
    unfold schema
    rw [h1, h2]
    constructor
    · rintro (⟨a, ha, e, k, d⟩ | ⟨a, ha, e, k, d⟩)
      · exact ⟨a, ha, e, by rw [k]; simp, d⟩
      · exact ⟨a, ha, e, by rw [k]; simp, d⟩
    · rintro ⟨a, ha, e, k, d⟩
      cases hk : a.kind with
      | free => exact Or.inl ⟨a, ha, e, hk, d⟩
      | fixed => exact Or.inr ⟨a, ha, e, hk, d⟩
      | other => exact absurd hk k
  refine ⟨?_, hmem, fun n => ?_, fun n => ?_, h1, h5⟩
  · have hp := schema_length attrs ⟨[], [], [], [], []⟩
    simp only [List.append_nil] at hp
    have hnd : ((schema attrs).free ++ (schema attrs).fixed).Nodup := by
      refine hp.nodup_iff.2 ?_
      exact hn.sublist (List.filter_sublist.map _)
    have hs : (sortNames ((schema attrs).free ++ (schema attrs).fixed)).Pairwise fun a b => decide (a ≤ b) = true :=
      List.pairwise_mergeSort str_trans str_total _
    have hnd' : (sortNames ((schema attrs).free ++ (schema attrs).fixed)).Nodup := (List.mergeSort_perm _ _).nodup_iff.2 hnd
    refine (hs.and hnd').imp fun h => ?_
    have hle := of_decide_eq_true h.1
    by_contra hlt
    exact h.2 (String.le_antisymm hle (String.not_lt.1 hlt))
  · unfold Registry.contains
    rw [decide_eq_true_iff, hmem]
    unfold schema
    rw [h3, h4]
    constructor
    · rintro (⟨a, ha, e, k, d, _⟩ | ⟨a, ha, e, k, d, _⟩) <;> exact ⟨a, ha, e, k, d⟩
    · rintro ⟨a, ha, e, k, d⟩
      cases hm : a.modelParam with
      | true => exact Or.inl ⟨a, ha, e, k, d, hm⟩
      | false => exact Or.inr ⟨a, ha, e, k, d, hm⟩
  · unfold Registry.modelParamsSorted sortNames
    rw [List.mem_mergeSort]
    exact h3 n

/-! ### the quasar model -/

theorem qso_mem (n : Qso) : n ∈ qsoNames := by cases n <;> decide

theorem qso_nodup : qsoNames.Nodup := by decide

/-- the names of the model are those of the class -/
theorem C151_names : qsoNames.map Qso.str = (schema qsoAttrs).iter ∧ qsoModelParams.map Qso.str = (schema qsoAttrs).modelParamsSorted := by
  have sorted : ∀ l : List String, l.Pairwise (fun a b => decide (a ≤ b) = true) → ∀ m : List String, l.Perm m → l = sortNames m := by
    intro l hl m hp
    unfold sortNames
    refine List.Perm.eq_of_pairwise' (r := fun a b => decide (a ≤ b) = true) hl ?_ (hp.trans (List.mergeSort_perm _ _).symm)
    exact List.pairwise_mergeSort str_trans str_total _
  refine ⟨sorted _ (by decide +kernel) _ (by decide +kernel), sorted _ (by decide +kernel) _ (by decide +kernel)⟩

theorem qso_complete (va : Qso → Bool) (cl : Qso → ℝ → ℝ) : Complete (qsoSys va cl) := fun n _ _ => ⟨qso_mem n, fun d _ => qso_mem d⟩

/-- the expressions mention only unconstrained parameters -/
theorem qso_deps (n : Qso) (e : Expr Qso ℝ) (h : qsoExpr n = some e) : ∀ d ∈ e.deps, qsoExpr d = none := by
  intro d hd
  cases n <;> simp only [qsoExpr, Option.some.injEq, reduceCtorEq] at h <;> subst h <;>
    simp only [List.mem_cons, List.not_mem_nil, or_false] at hd <;> rcases hd with rfl | rfl <;> rfl

theorem qso_acyclic (va : Qso → Bool) (cl : Qso → ℝ → ℝ) : Acyclic (qsoSys va cl) := by
  refine ⟨fun n => if (qsoExpr n).isSome then 1 else 0, fun n e he d hd => ?_⟩
  have h1 := qso_deps n e he d hd
  have h2 : (qsoExpr n).isSome = true := by rw [show qsoExpr n = some e from he]; rfl
  simp [h1, h2]

end Verif.Params
