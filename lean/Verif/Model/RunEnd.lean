/-
How a run ends: `RSDFitDriver.run` (`rsdfit/rsdfit.py:224-266`), `FittingDriver.run` from the solver on (`rsdfit/driver.py:571-622`), and `FileLogger` (`rsdfit/util/rsd_logging.py:51-135`).

One process that has a chain, that is a master of a pool.  What is done to the disk is a list of its states, one after each operation, so that a process which is killed leaves one of them.  Whatever may fail is a field of `Env`.
What a step of a chain or a state of the minimizer is, is left open (`α`).
-/
import Mathlib.Data.List.Basic

namespace Verif.RunEnd

/-- the result of a fit: the steps of a chain, or where the minimizer is -/
inductive Result (α : Type) where
  | mcmc (steps : List α)
  | nlopt (state : α)

/-- a results file: touched but empty (`rsd_io.py:105-106`), written in part, or whole -/
inductive Stored (α : Type) where
  | touched
  | part
  | whole (r : Result α)

/-- the disk: the results files of the folder, the logs by the names of their results, the temporary log, and whether the folder has a directory `logs` -/
structure Disk (α : Type) where
  results : String → Option (Stored α)
  logs : String → Option (List String)
  temp : Option (List String)
  logdir : Bool

/-- one entry is changed -/
def put {β : Type} (f : String → Option β) (n : String) (v : Option β) : String → Option β := fun m => if m = n then v else f m

/-- why the sampling or the minimization ended before all iterations: ctrl+c, an error, convergence, or another chain that failed (`emcee_solver.py:63-73`) -/
inductive Stop where
  | keyboard
  | error
  | converged
  | exiting

/-- what the solver did: it raised (before it began, or when the results were made), or it is emcee or LBFGS and ended -/
inductive Solved (α : Type) where
  | raised
  | emcee (new : List α) (stop : Option Stop)
  | lbfgs (state : α) (stop : Option Stop)

/-- how `to_npz` ends (`driver.py:618`) -/
inductive Save where
  | ok
  | early
  | late
deriving DecidableEq

/-- what happens to a run: the file that is restarted, whether it is read (`driver.py:475-477`), what the solver does, the name of the new file, if one can be made (`rsd_io.py:93-106`), how it is saved, whether
the summary can be made (`driver.py:620-622`), what is logged, and what is logged of an exception -/
structure Env (α : Type) where
  restart : Option String
  reads : Bool
  solved : Solved α
  name : Option String
  save : Save
  summary : Bool
  messages : List String
  trace : List String

/-- `manager.exception` (`emcee_solver.py:117-120`): convergence and the failure of another chain are none -/
def reported : Option Stop → Option Stop
  | some .keyboard => some .keyboard
  | some .error => some .error
  | _ => none

/-- the new results with the old ones before them (`emcee_solver.py:360-363`), if there are such -/
def extend {α : Type} (old : Option (Result α)) (new : List α) : Result α :=
  match old with
  | some (.mcmc l) => .mcmc (l ++ new)
  | _ => .mcmc new

/-- `self.results, exception = solver(…)` (`driver.py:594`): the results, if any, and the exception; `none` if it raises.  LBFGS has no results after an error (`lbfgs_solver.py:150-185`) -/
def solve {α : Type} (old : Option (Result α)) : Solved α → Option (Option (Result α) × Option Stop)
  | .raised => none
  | .emcee new stop => some (some (extend old new), reported stop)
  | .lbfgs x none => some (some (.nlopt x), none)
  | .lbfgs x (some .keyboard) => some (some (.nlopt x), some .keyboard)
  | .lbfgs _ (some s) => some (none, some s)

/-- the old results: what `set_restart` loads (`driver.py:475-477`).  `none` if that raises -/
def oldResult {α : Type} (d : Disk α) (e : Env α) : Option (Option (Result α)) :=
  match e.restart with
  | none => some none
  | some f =>
    match d.results f, e.reads with
    | some (.whole r), true => some (some r)
    | _, _ => none

/-- what the body of the `with` did: the states of the disk, the last one first, `logger.output_name`, and whether an exception leaves it -/
structure Body (α : Type) where
  hist : List (Disk α)
  output : Option String
  exc : Bool

/-- `finalize_fit` (`driver.py:612-622`) and what follows (`rsdfit.py:258-265`) -/
def finalize {α : Type} (d : Disk α) (e : Env α) (r : Result α) (ex : Option Stop) : Body α :=
  match e.name with
  | none => ⟨[d], none, true⟩
  | some n =>
    let touch := { d with results := put d.results n (some .touched) }
    let half := { d with results := put d.results n (some .part) }
    let whole := { d with results := put d.results n (some (.whole r)) }
    match e.save with
    | .early => ⟨[touch, d], some n, true⟩
    | .late => ⟨[half, touch, d], some n, true⟩
    | .ok =>
      let summarized := match ex with
        | none => e.summary
        | some .keyboard => e.summary
        | _ => true
      ⟨[whole, half, touch, d], some n, !summarized || ex.isSome⟩

/-- the body of the `with` (`rsdfit.py:246-265`) -/
def body {α : Type} (d : Disk α) (e : Env α) : Body α :=
  match oldResult d e with
  | none => ⟨[d], none, true⟩
  | some old =>
    match solve old e.solved with
    | none => ⟨[d], none, true⟩
    | some (none, ex) => ⟨[d], none, ex.isSome⟩
    | some (some r, ex) => finalize d e r ex

/-- `copy_log` (`rsd_logging.py:115-135`): what is written to which log, `none` for an exception before the log is opened -/
def copyLog {α : Type} (d : Disk α) (e : Env α) (output : Option String) : Option (String × List String) :=
  match output with
  | none => none
  | some n =>
    if !d.logdir then none
    else match e.restart with
      | none => some (n, d.temp.getD [])
      | some f => (d.logs f).map fun old => (n, old ++ d.temp.getD [])

/-- the exception is logged (`rsd_logging.py:87-90`) -/
def traced {α : Type} (d : Disk α) (e : Env α) (exc : Bool) : Disk α := if exc then { d with temp := d.temp.map (· ++ e.trace) } else d

/-- the log is copied, or that fails (`rsd_logging.py:92-96`): the states of the disk, the last one first.  A log that is written in part is not told from an empty one. -/
def copied {α : Type} (d : Disk α) (e : Env α) (output : Option String) : List (Disk α) :=
  match copyLog d e output with
  | none => [d]
  | some (n, l) => [{ d with logs := put d.logs n (some l) }, { d with logs := put d.logs n (some []) }, d]

/-- the restarted file is removed if there was no exception (`rsd_logging.py:105-109`) -/
def removed {α : Type} (d : Disk α) (e : Env α) (exc : Bool) : List (Disk α) :=
  match e.restart, exc with
  | some f, false => [{ d with results := put d.results f none }]
  | _, _ => []

/-- the temporary log is removed (`rsd_logging.py:100-103`) -/
def untemp {α : Type} (d : Disk α) : Disk α := { d with temp := none }

/-- `FileLogger.__exit__` (`rsd_logging.py:85-113`): the states of the disk after `d`, the last one first -/
def leave {α : Type} (d : Disk α) (e : Env α) (output : Option String) (exc : Bool) : List (Disk α) :=
  removed (untemp ((copied (traced d e exc) e output).headD d)) e exc ++ [untemp ((copied (traced d e exc) e output).headD d)] ++ copied (traced d e exc) e output

/-- `RSDFitDriver.run` (`rsdfit.py:242-265`): all states of the disk, the last one first -/
def history {α : Type} (d : Disk α) (e : Env α) : List (Disk α) :=
  let d0 := { d with temp := some e.messages }
  let b := body d0 e
  leave (b.hist.headD d0) e b.output b.exc ++ b.hist ++ [{ d with temp := some [] }, d]

/-- the disk after the run -/
def final {α : Type} (d : Disk α) (e : Env α) : Disk α := (history d e).headD d

/-- what leaves a `with` if its `__exit__` returns `suppress` -/
def afterWith (suppress exc : Bool) : Bool := exc && !suppress

/-- whether `run` raises: `FileLogger.__exit__` returns `True` (`rsd_logging.py:113`), and so does `MPIManager.__exit__` (`mpi_manager.py:122`) -/
def raises {α : Type} (d : Disk α) (e : Env α) : Bool := afterWith true (afterWith true (body { d with temp := some e.messages } e).exc)

/-- what the shell sees: `os._exit(0)` if `run` returns (`rsdfit.py:267-277`), else the 1 of an exception -/
def exitCode {α : Type} (d : Disk α) (e : Env α) : ℕ := if raises d e then 1 else 0

end Verif.RunEnd
