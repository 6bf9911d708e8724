/-
What "constrained parameters reflect the current parameters" means, independently of the symbol table.
-/
import Verif.Model.Params

namespace Verif.Params

variable {N V : Type} [DecidableEq N]

/-- `w` gives every unconstrained parameter its assigned value, and every constrained one the value of its expression at `w`
(then cut to its own bounds): the meaning of the constraint system at the values `base`. -/
def Solves (sys : Sys N V) (base : N → V) (w : N → V) : Prop :=
  ∀ n, match sys.expr n with
    | none => w n = base n
    | some e => w n = sys.clamp n (e.eval (e.deps.map w))

/-- The constraints are acyclic. -/
def Acyclic (sys : Sys N V) : Prop :=
  ∃ rank : N → Nat, ∀ n e, sys.expr n = some e → ∀ d ∈ e.deps, rank d < rank n

/-- The dictionary holds all constrained parameters and everything their expressions mention. -/
def Complete (sys : Sys N V) : Prop :=
  ∀ n e, sys.expr n = some e → n ∈ sys.names ∧ ∀ d ∈ e.deps, d ∈ sys.names

/-- Assigned values of varying parameters are inside the bounds. -/
def InBounds (sys : Sys N V) (val : N → V) : Prop :=
  ∀ n, sys.expr n = none → sys.vary n = true → sys.clamp n (val n) = val n

end Verif.Params
