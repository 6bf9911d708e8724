/-
Model of `ParameterSet.update_fiducial` (`pyRSD/rsdfit/parameters/parameterset.py:323-343`), called when a chain is analysed
(`pyRSD/rsdfit/analysis/tools.py:200-203`), on top of the model of parameter sets in `Verif/Model/Params.lean`.
-/
import Verif.Model.Params

namespace Verif.UpdateFid

open Verif.Params

variable {N V : Type} [DecidableEq N]

/-- A parameter set with the fiducials of its parameters (`Parameter.fiducial`, `parameter.py:291-296`; `none` is `None`). -/
structure FSt (N V : Type) where
  st : St N V
  fid : N → Option V

/-- The loop that gives every parameter without a constraint its fiducial, infinity when it has none
(`parameterset.py:329-332`). -/
def toFiducials (sys : Sys N V) (ch : N → List N) (inf : V) (fid : N → Option V) : St N V → List N → St N V
  | st, [] => st
  | st, n :: ns =>
    toFiducials sys ch inf fid
      (match sys.expr n with
        | none => st.set ch n ((fid n).getD inf)
        | some _ => st) ns

/-- The loop that stores the values of the constrained parameters as their fiducials, `None` when the value is not finite
(`parameterset.py:335-339`); `none` is a RecursionError of an evaluation. -/
def readFiducials (sys : Sys N V) (ch : N → List N) (fuel : Nat) (finite : V → Bool) : FSt N V → List N → Option (FSt N V)
  | s, [] => some s
  | s, n :: ns =>
    match sys.expr n with
    | none => readFiducials sys ch fuel finite s ns
    | some _ =>
      match getval sys ch fuel s.st n with
      | none => none
      | some (v, st) =>
        readFiducials sys ch fuel finite ⟨st, upd s.fid n (if finite v then some v else none)⟩ ns

/-- The loop that gives the parameters without a constraint their old values back (`parameterset.py:341-343`). -/
def restore (sys : Sys N V) (ch : N → List N) : St N V → List (N × V) → St N V
  | st, [] => st
  | st, (k, v) :: kvs =>
    restore sys ch
      (match sys.expr k with
        | none => st.set ch k v
        | some _ => st) kvs

/-- How the call ends. -/
inductive Outcome (N V : Type) where
  | done (s : FSt N V)
  | notPrepared (s : FSt N V)      -- RuntimeError of `update_values` (`parameterset.py:360-361`), with the state it leaves
  | recursion                       -- RecursionError of an evaluation

/-- `update_fiducial()` (`parameterset.py:323-343`): `values = self.valuesdict()` reads every parameter (line 327),
`update_values()` without arguments only checks that the set is prepared (line 334).
Simplifications: evaluating an expression does not raise, and `np.isfinite` accepts its value. -/
def updateFiducial (sys : Sys N V) (ch : N → List N) (fuel : Nat) (inf : V) (finite : V → Bool) (prepared : Bool)
    (s : FSt N V) : Outcome N V :=
  match readAll sys ch fuel s.st sys.names with
  | none => .recursion
  | some (values, st1) =>
    if prepared = false then .notPrepared ⟨toFiducials sys ch inf s.fid st1 sys.names, s.fid⟩
    else
      match readFiducials sys ch fuel finite ⟨toFiducials sys ch inf s.fid st1 sys.names, s.fid⟩ sys.names with
      | none => .recursion
      | some s2 => .done ⟨restore sys ch s2.st (sys.names.zip values), s2.fid⟩

end Verif.UpdateFid
