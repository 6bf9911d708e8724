/-
Specification for C136: what it means for loaded data to be used and undone.
-/
import Verif.Model.Loaded
import Verif.Spec.Cache

namespace Verif.Loaded

open Verif.Cache

variable {N V : Type} [DecidableEq N]

/-- What a brand-new object with the parameters and the data of `o` reads. -/
def freshRead (S : DSchema N V) (F : Nat) (o : Obj N V) (n : N) : Except Err V := (getAttr (S.at o.data) F n (State.fresh o.st.params)).1

/-- The class makes sense, whatever the data: declarations are acyclic and cover what is read (C09 for the shipped models), flags are parameters which take any value, and `True` and `False` are told apart. -/
structure DSchema.OK (S : DSchema N V) (rank : N → Nat) : Prop where
  wf : ∀ D, (S.at D).WellFormed rank
  covered : ∀ D, (S.at D).DefaultsCovered
  flag : ∀ p ∈ S.flags, ∀ D, ∃ d, (S.at D).lookup p = some (.param some d)
  tt : S.truthy S.tt = true
  ff : S.truthy S.ff = false
  tf : S.eqv S.tt S.ff = false
  ft : S.eqv S.ff S.tt = false

/-- Operations on an object other than loading and unloading: reads, assignments (not of the flags), deletions of cached attributes. -/
def Plain (S : DSchema N V) : Op N V → Prop
  | .set p _ => p ∉ S.flags
  | .get _ => True
  | .delCached _ => True
  | .delParam _ => False

/-- A history in which no term is loaded over another table of the same term. -/
def ValidRun (S : DSchema N V) (F : Nat) : Obj N V → List (LOp N V) → Prop
  | _, [] => True
  | o, x :: ops =>
    (match x with
      | .base b => Plain S b
      | .load p _ => o.data p = none
      | .unload _ => True) ∧ ValidRun S F (lstep S F o x) ops

/-- A new object: parameters as set by the constructor, nothing loaded. -/
def newObj (π : N → Option V) : Obj N V := ⟨State.fresh π, fun _ => none⟩

end Verif.Loaded
