import Mathlib.Data.Real.Basic
/-!
Model of how a run gets its starting point and its numbers of iterations: the attributes of `FittingDriver`
(`pyRSD/rsdfit/driver.py:203-216`), the command line in `RSDFitDriver.initialize_algorithm` (`pyRSD/rsdfit/rsdfit.py:144-166`),
`find_init_result` (`rsdfit.py:10-41`), the first part of `FittingDriver.run` (`driver.py:525-575`) and `set_restart`
(`driver.py:460-494`).
-/
namespace Verif.Start

/-- The valid values of `init_from` (`driver.py:113`). -/
inductive Init where
  | nlopt | fiducial | prior | result | previousRun
  deriving DecidableEq

/-- A result file: the names of the free parameters, the best values and the value of the log probability (`max_lnprob`) or of
minus the minimised function (`- min_chi2`). -/
structure Res where
  names : List String
  best : List ℝ
  score : ℝ

/-- What is at a path: a directory (with the result files in it, in the order of `glob`) or a result file. -/
inductive Node (P : Type) where
  | dir (results : List (P × Res))
  | res (r : Res)

/-- What can be raised. -/
inductive Err where
  | key        -- KeyError
  | noFile     -- `RuntimeError` of `find_init_result`
  | noStart    -- `ValueError`, `start_from` must be given (`driver.py:545`)
  | load       -- what is to be a result cannot be loaded
  | prior      -- `ValueError`, prior with `nlopt` (`driver.py:572`)
  | missing    -- `ValueError`, parameter missing (`driver.py:566`)
  deriving DecidableEq, Repr

variable {P : Type}

/-- A driver: the parameters of its file (`none`: not in the file; `init_from` and `start_from` can be `None` there) and its
attributes.  The options of LBFGS are represented by `max_iter`.  The attribute is the same object as the value of the parameter,
if that is in the file (`driver.py:211`). -/
structure Drv (P : Type) where
  parInit : Option (Option Init)
  parStart : Option (Option P)
  parMaxIter : Option (Option ℕ)
  parIterations : Option ℕ
  attrInit : Option Init
  attrStart : Option P
  attrMaxIter : Option ℕ

/-- The attributes are the values of the file, else the defaults `'fiducial'`, `None` and options without `max_iter`
(`driver.py:103, 131, 165, 209-216`). -/
def make (init : Option (Option Init)) (start : Option (Option P)) (maxIter : Option (Option ℕ)) : Drv P :=
  { parInit := init, parStart := start, parMaxIter := maxIter, parIterations := none,
    attrInit := init.getD (some .fiducial), attrStart := start.getD none, attrMaxIter := maxIter.getD none }

/-- `max(enumerate(l), key=operator.itemgetter(1))`: the first of the largest. -/
noncomputable def best : List (P × Res) → Option (P × Res)
  | [] => none
  | x :: l =>
    match best l with
    | none => some x
    | some y => if x.2.score < y.2.score then some y else some x

/-- `find_init_result` (`rsdfit.py:10-41`). -/
noncomputable def findInit (fs : P → Option (Node P)) (p : P) : Except Err P :=
  match fs p with
  | none => .error .noFile
  | some (.res _) => .ok p
  | some (.dir l) =>
    match best l with
    | none => .error .noFile
    | some x => .ok x.1

/-- The command line is put into the driver (`rsdfit.py:144-166`); `folder` is the folder of the run. -/
noncomputable def configure (fs : P → Option (Node P)) (folder : P) (nlopt : Bool) (iterations : ℕ) (d : Drv P) : Except Err (Drv P) :=
  let d := { d with parIterations := some iterations }
  match (if nlopt then
      match d.parMaxIter with
      | none => .error .key                                                         -- line 152
      | some _ => .ok { d with parMaxIter := some (some iterations), attrMaxIter := some iterations }
    else .ok d : Except Err (Drv P)) with
  | .error e => .error e
  | .ok d =>
    if d.parInit.getD none = some .result then                                      -- lines 156-157
      let start : Except Err P :=
        match d.parStart.getD none with
        | none => findInit fs folder
        | some p =>
          match fs p with
          | some (.dir _) => findInit fs p
          | _ => .ok p
      match start with
      | .error e => .error e
      | .ok p => if (fs p).isSome then .ok { d with parStart := some (some p) }      -- lines 164-166
                 else .error .noFile
    else .ok d

/-- A free parameter: its name and its fiducial value (`None` becomes `nan` in the array of values). -/
structure Free where
  name : String
  fiducial : Option ℝ

/-- `dict(zip(names, values))[name]`: of several equal names the last one counts. -/
def lookup (names : List String) (values : List ℝ) (n : String) : Option ℝ :=
  ((names.zip values).reverse.find? (fun x => decide (x.1 = n))).map Prod.snd

/-- Where a run starts. -/
inductive Point where
  | none                            -- chosen by the solver from the priors
  | peak                            -- the maximum found by `find_peak_probability`
  | values (v : List (Option ℝ))    -- `none` is `nan`
  | previous                        -- the previous results

/-- The first part of `FittingDriver.run` (`driver.py:525-575`).  The test of line 563 is `has_fiducial is not None`, which is always
true. -/
def start (fs : P → Option (Node P)) (free : List Free) (nlopt : Bool) (d : Drv P) : Except Err Point :=
  match d.attrInit with
  | some .nlopt => .ok .peak
  | some .fiducial => .ok (.values (free.map Free.fiducial))
  | some .result =>
    match d.attrStart with
    | none => .error .noStart
    | some p =>
      match fs p with
      | some (.res r) => .ok (.values (free.map fun x =>
          match lookup r.names r.best x.name with
          | some v => some v
          | none => x.fiducial))
      | _ => .error .load
  | some .prior => if nlopt then .error .prior else .ok .none
  | some .previousRun => .ok .previous
  | none => .ok .none

/-- `set_restart` (`driver.py:460-494`); `isLbfgs` and `done` are the kind and the iterations of the results. -/
def setRestart (isLbfgs : Bool) (done iterations : ℕ) (d : Drv P) : Except Err (Drv P) :=
  let d := { d with attrInit := some .previousRun }
  match d.parInit with
  | none => .error .key                                                             -- line 477
  | some _ =>
    let d := { d with parInit := some (some .previousRun) }
    if isLbfgs then .ok { d with attrMaxIter := some (iterations + done), parMaxIter := some (some (iterations + done)) }
    else .ok { d with parIterations := some (iterations + done) }

end Verif.Start
