/-
What a user expects of the end of a run: nothing that was computed is lost, whatever fails and whenever the process is killed.
-/
import Verif.Model.RunEnd

namespace Verif.RunEnd.Spec

variable {α : Type}

/-- a result that has all of another one: the steps of a chain begin with those of the old one; a minimization goes on from the old one -/
def Extends : Result α → Result α → Prop
  | .mcmc l, .mcmc l' => l <+: l'
  | .nlopt _, .nlopt _ => True
  | _, _ => False

/-- a restarted fit is done by the solver that made it (`driver.py:479-482`) -/
def SameSolver : Result α → Solved α → Prop
  | _, .raised => True
  | .mcmc _, .emcee _ _ => True
  | .nlopt _, .lbfgs _ _ => True
  | _, _ => False

/-- what was there before the run, of the chain that is run: nothing, or the file that is restarted, which is read -/
inductive Before (d : Disk α) (e : Env α) : List α → Prop where
  | fresh (h : e.restart = none) : Before d e []
  | again (f : String) (l : List α) (h : e.restart = some f) (hf : d.results f = some (.whole (.mcmc l))) (hr : e.reads = true) : Before d e l

/-- the log of the chain before the run -/
inductive LogBefore (d : Disk α) (e : Env α) : List String → Prop where
  | fresh (h : e.restart = none) : LogBefore d e []
  | again (f : String) (l : List String) (h : e.restart = some f) (hf : d.logs f = some l) : LogBefore d e l

/-- ctrl+c and errors are exceptions for the user, convergence and the failure of another chain are not -/
def failed : Option Stop → Bool
  | some .keyboard => true
  | some .error => true
  | _ => false

end Verif.RunEnd.Spec
