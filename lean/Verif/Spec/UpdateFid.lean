/-
What the fiducial of a constrained parameter should be, independently of the code.
-/
import Verif.Spec.Params

namespace Verif.UpdateFid

open Verif.Params

variable {N V : Type} [DecidableEq N]

/-- `w` are the values of all parameters when the unconstrained ones sit at their fiducials (at `inf` those that have none)
and every constrained one has the value of its expression. -/
def AtFiducials (sys : Sys N V) (inf : V) (fid : N → Option V) (w : N → V) : Prop :=
  (∀ b ∈ sys.names, sys.expr b = none → w b = (fid b).getD inf) ∧
  ∀ n e, sys.expr n = some e → w n = sys.clamp n (e.eval (e.deps.map w))

/-- The fiducial that stands for a value: the value if it is a finite number, otherwise none. -/
def known (finite : V → Bool) (v : V) : Option V := if finite v then some v else none

/-- The fiducials of the varying parameters are inside their bounds. -/
def FiducialsInBounds (sys : Sys N V) (inf : V) (fid : N → Option V) : Prop :=
  ∀ b ∈ sys.names, sys.expr b = none → sys.vary b = true → sys.clamp b ((fid b).getD inf) = (fid b).getD inf

end Verif.UpdateFid
