/-
Model of the part of `pyRSD/rsdfit/driver.py` that carries results and starting values to the parameters: the `results` setter, `set_fit_results`,
`set_fiducial`, `apply`, and the choice of the starting point and of the analytic flags in `run` and `find_peak_probability`.

Built on the models of the result containers (`Verif.Model.Results`) and of `set_free_parameters` (`Verif.Model.Params`).
-/
import Verif.Model.Results
import Verif.Model.Params

namespace Verif.Apply

open Params Results

noncomputable section

open Classical in
/-- (real numbers are compared classically) -/
local instance : DecidableEq ℝ := Classical.decEq ℝ

/-- What a results file holds: a chain (`EmceeResults.to_npz`) or a minimum (`LBFGSResults.to_npz`). -/
inductive File where
  | emcee (free cons : List String) (chain : Chain) (consChain : Option (List (String × List (List ℝ)))) (lnprobs : List (List ℝ)) (burnin : ℕ)
  | lbfgs (r : Lbfgs)

/-- A results object. -/
inductive Res where
  | emcee (r : Emcee)
  | lbfgs (r : Lbfgs)

/-- `EmceeResults.from_npz` (`emcee_results.py:278-299`) and `load_results` (`driver.py:21-29`).  Simplification: a file made by one class is refused
by the loader of the other. -/
def load : File → Res
  | .emcee free cons chain cc lnprobs b => .emcee ((saveResults ⟨free, cons, chain, cc, lnprobs, 0, []⟩).setBurnin b)
  | .lbfgs r => .lbfgs r

/-- What fails. -/
inductive Err where
  | order          -- ValueError of `verify_param_ordering`
  | key            -- KeyError
  | method         -- ValueError of `set_fit_results`
  | setFree        -- RuntimeError of `set_free_parameters`
  | noneValue      -- TypeError: `None` compared to a number
  | fiducial       -- ValueError: fiducial values missing
  | startFrom      -- ValueError: no `start_from`
  | prior          -- ValueError: initialisation from the prior is for MCMC
  | noResults      -- AttributeError: `None.copy()`
  deriving DecidableEq

/-- The static part of a driver: the parameter set and the model it feeds (see `Verif.Params.setFree`), and the `fiducial` values. -/
structure Cfg where
  sys : Sys String ℝ
  children : String → List String
  fuel : ℕ
  free : List String
  cons : List String
  within : String → ℝ → Bool
  modelParams : List String
  accepts : List (String × ℝ) → Bool
  fiducial : String → Option ℝ

/-- The mutable part: parameters, model, results. -/
structure Drv where
  st : St String ℝ
  model : String → Option ℝ
  results : Option Res

/-- `method` of `set_fit_results` -/
inductive Method where
  | median
  | peak
  | maxLnprob
  | other
  deriving DecidableEq

/-- The `results` setter (`driver.py:679-693`) for the name of a file. -/
def setResults (c : Cfg) (d : Drv) (f : File) : Except Err Drv :=
  match load f with
  | .emcee r =>
    match r.verify c.free c.cons with
    | none => .error .order
    | some r => .ok { d with results := some (.emcee r) }
  | .lbfgs r =>
    match r.verify c.free c.cons with
    | none => .error .order
    | some r => .ok { d with results := some (.lbfgs r) }

/-- storing the statistics a parameter of the results has just computed -/
def putParam (l : List (String × Param)) (n : String) (p : Param) : List (String × Param) := l.map fun q => if q.1 = n then (q.1, p) else q

/-- `[self[name].median for name in self.free_names]` (`emcee_results.py:552-557`), and the same for `peak` (`emcee_results.py:566-571`) -/
def readEach (f : Param → ℝ × Param) : List String → List (String × Param) → Option (List ℝ × List (String × Param))
  | [], l => some ([], l)
  | n :: ns, l =>
    match l.lookup n with
    | none => none
    | some p =>
      match readEach f ns (putParam l n (f p).2) with
      | none => none
      | some (vs, l') => some ((f p).1 :: vs, l')

/-- `max_lnprob_values` (`emcee_results.py:536-542`) -/
def maxRow (A : ArgMax) (r : Emcee) : List ℝ := (r.chain.getD (A.pos r.lnprobs).1 []).getD (A.pos r.lnprobs).2 []

/-- The values `set_fit_results` takes (`driver.py:1237-1247`). -/
def bestFit (S : Stats) (A : ArgMax) (m : Method) : Res → Except Err (List ℝ × Res)
  | .lbfgs r => .ok (r.values, .lbfgs r)
  | .emcee r =>
    match m with
    | .median =>
      match readEach (Param.readMedian S) r.free r.results with
      | none => .error .key
      | some (vs, l) => .ok (vs, .emcee { r with results := l })
    | .peak =>
      match readEach (Param.readPeak S) r.free r.results with
      | none => .error .key
      | some (vs, l) => .ok (vs, .emcee { r with results := l })
    | .maxLnprob => .ok (maxRow A r, .emcee r)
    | .other => .error .method

/-- `self.theory.set_free_parameters(theta)` with the returned flag dropped (`driver.py:1230` and `driver.py:1248`) -/
def putFree (c : Cfg) (d : Drv) (theta : List ℝ) : Except Err Drv :=
  match setFree c.sys c.children c.fuel c.free c.within c.modelParams c.accepts d.st d.model theta with
  | .ret _ st model => .ok { d with st := st, model := model }
  | .error _ _ => .error .setFree

/-- `set_fit_results(method)` (`driver.py:1232-1248`) -/
def setFit (S : Stats) (A : ArgMax) (c : Cfg) (d : Drv) (m : Method) : Except Err Drv :=
  match d.results with
  | none => .ok d
  | some r =>
    match bestFit S A m r with
    | .error e => .error e
    | .ok (theta, r) => putFree c { d with results := some r } theta

/-- The check of the bounds on values that may be missing (`theory/base.py:286`; `all` stops at the first `False`): `none` for the comparison of
`None` to a number, otherwise whether all are within bounds. -/
def checkBounds (within : String → ℝ → Bool) : List (String × Option ℝ) → Option Bool
  | [] => some true
  | (_, none) :: _ => none
  | (n, some v) :: l => if within n v then checkBounds within l else some false

/-- `set_fiducial` (`driver.py:1219-1230`) -/
def setFiducial (c : Cfg) (d : Drv) : Except Err Drv :=
  match checkBounds c.within (c.free.map fun n => (n, c.fiducial n)) with
  | none => .error .noneValue
  | some false => .ok d
  | some true => putFree c d (c.free.map fun n => (c.fiducial n).getD 0)

/-- `apply(func, pattern)` (`driver.py:428-453`): the files in the order of `glob`; `func` is a function of the state of the driver. -/
def applyAll {R : Type} (S : Stats) (A : ArgMax) (c : Cfg) (func : Drv → R) : List File → Drv → Except Err (List R × Drv)
  | [], d => .ok ([], d)
  | f :: fs, d =>
    match setResults c d f with
    | .error e => .error e
    | .ok d =>
      match setFit S A c d .median with
      | .error e => .error e
      | .ok d =>
        match applyAll S A c func fs d with
        | .error e => .error e
        | .ok (rs, d') => .ok (func d :: rs, d')

/-! ### Starting a run -/

/-- `solver_type` -/
inductive Solver where
  | mcmc
  | nlopt
  deriving DecidableEq

/-- `init_from` -/
inductive InitFrom where
  | nlopt
  | fiducial
  | result
  | prior
  | previousRun
  deriving DecidableEq

/-- What the solver starts from: nothing (its own default), values in the order of the free names (`none` for `nan`, which is what `None` becomes in an array of numbers), or a previous run. -/
inductive StartAt where
  | default
  | values (l : List (Option ℝ))
  | resume (r : Res)

/-- A call of a solver: which, the `analytic` flags of the parameters at that time, the start. -/
structure Call where
  solver : Solver
  analytic : String → Bool
  start : StartAt

/-- `parameter.analytic = val` for the free names (`driver.py:577-578`, `driver.py:589-590`, `driver.py:633-634`) -/
def setAnalytic (free : List String) (fl : String → Bool) (val : Bool) : String → Bool := fun n => if n ∈ free then val else fl n

/-- `theory.free_fiducial` (`theory/base.py:562-572`) -/
def freeFiducial (c : Cfg) : Except Err (List ℝ) :=
  if c.free.any (fun n => (c.fiducial n).isNone) then .error .fiducial else .ok (c.free.map fun n => (c.fiducial n).getD 0)

/-- Names and best values of a file (`driver.py:541-547`). -/
def bestOf (A : ArgMax) (f : File) : List (String × ℝ) :=
  match load f with
  | .emcee r => r.free.zip (maxRow A r)
  | .lbfgs r => r.free.zip r.values

/-- Starting values from a file (`driver.py:549-557`): `has_fiducial` is `True` or `False`, never `None`, so the `ValueError` of line 557 is not
raised and a parameter with neither a value in the file nor a fiducial one gets `nan`. -/
def fromResult (A : ArgMax) (c : Cfg) (f : File) : List (Option ℝ) :=
  c.free.map fun n => match (bestOf A f).reverse.lookup n with
    | some v => some v
    | none => c.fiducial n

/-- `run` (`driver.py:508-598`) up to and including the calls of the solvers, `find_peak_probability` (`driver.py:624-649`) included; `lbfgs` is the
minimiser as a function of its start. -/
def runCalls (A : ArgMax) (c : Cfg) (lbfgs : List ℝ → Lbfgs) (s : Solver) (init : Option InitFrom) (start : Option File) (results : Option Res)
    (fl : String → Bool) : Except Err (List Call) :=
  let final (fl : String → Bool) (x : StartAt) : Call := ⟨s, setAnalytic c.free fl (decide (s = .nlopt)), x⟩
  match init with
  | some .nlopt =>
    match freeFiducial c with
    | .error e => .error e
    | .ok x0 =>
      let fl := setAnalytic c.free fl true
      .ok [⟨.nlopt, fl, .values (x0.map some)⟩, final fl (.values ((lbfgs x0).values.map some))]
  | some .fiducial =>
    match freeFiducial c with
    | .error e => .error e
    | .ok x0 => .ok [final fl (.values (x0.map some))]
  | some .result =>
    match start with
    | none => .error .startFrom
    | some f => .ok [final fl (.values (fromResult A c f))]
  | some .prior => if s = .nlopt then .error .prior else .ok [final fl .default]
  | some .previousRun =>
    match results with
    | none => .error .noResults
    | some r => .ok [final fl (.resume r)]
  | none => .ok [final fl .default]

end

end Verif.Apply
