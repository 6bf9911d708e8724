import Verif.Model.Setup
/-!
Which files a run is to use, and what a run in parallel is to be.
-/
namespace Verif.Setup

variable {σ M Cfg : Type}

/-- The parameter file of a run: the one in the folder if there is one, else the one given. -/
def wantedParams (fs : FS σ M) (a : Args) : Option Path :=
  if isDir fs a.folder = true ∧ (fs (a.folder ++ ["params.dat"])).isSome then some (a.folder ++ ["params.dat"]) else a.params

/-- The model of a run: the file given, else the one in the folder if there is one. -/
def wantedModel (fs : FS σ M) (a : Args) : Option Path :=
  match a.model with
  | some p => some p
  | none => if isDir fs a.folder = true ∧ (fs (a.folder ++ ["model.npy"])).isSome then some (a.folder ++ ["model.npy"]) else none

/-- The parameters and the model a rank has, once it has them. -/
def RState.has : RState σ M Cfg → Option (Cfg × M)
  | .doing _ c m => some (c, m)
  | .waiting c m => some (c, m)
  | .running c m => some (c, m)
  | _ => none

/-- The rank is past the barrier, with these parameters and this model. -/
def RState.Runs (x : RState σ M Cfg) (c : Cfg) (m : M) : Prop := x = .running c m

/-- The model a run is to have. -/
def IsModel (j : Job σ M Cfg) (fs : FS σ M) (a : Args) (c : Cfg) (m : M) : Prop :=
  match a.model with
  | some p => fs p = some (.mod m)
  | none => m = j.build c

/-- A state of the set-up that some interleaving of the ranks leads to. -/
def Reach (j : Job σ M Cfg) (a : Args) {n : ℕ} (fs : FS σ M) (s : State σ M Cfg n) : Prop := ∃ k, Run j a k (begin_ fs n) s

/-- Nobody can go on. -/
def Stuck (j : Job σ M Cfg) (a : Args) {n : ℕ} (s : State σ M Cfg n) : Prop := ∀ r, step j a s r = none

end Verif.Setup
