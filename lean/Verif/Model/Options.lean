/-
The options of a fit: `FittingDriverSchema` (`pyRSD/rsdfit/driver.py:31-191`), the part of `FittingDriver.__init__` that sets and checks them (`driver.py:209-261`), `default_params` (`driver.py:321-357`),
`set_restart` (`driver.py:455-494`), the properties made by `parameter` (`pyRSD/rsd/_cache.py:213-258`), what `RSDFitDriver.initialize_algorithm` adds for `nlopt` (`pyRSD/rsdfit/rsdfit.py:149-151`),
and what the solvers read (`pyRSD/rsdfit/solvers/lbfgs_solver.py:47-77, 150`, `lbfgs.py:186-256, 464`, `emcee_solver.py:263-270, 345`).

Dictionaries are objects with an identity: a default that is a dictionary is one object, made when the class is made (`@parameter(default={...})`), which all drivers see.
Simplifications: values are `None`, booleans, numbers, strings and dictionaries; a dictionary inside a dictionary is compared by identity (`obj_eq`). Where a process reads a file, the dictionaries of the file are objects of its own.
-/
import Mathlib.Data.Rat.Defs

namespace Verif.Opts

/-- values; a dictionary by its address -/
inductive Val where
  | none
  | bool (b : Bool)
  | num (q : ℚ)
  | str (s : String)
  | dict (r : ℕ)
  deriving DecidableEq

/-- the contents of the dictionaries -/
abbrev Heap := List (List (String × Val))

/-- `d[key] = v` for the items of a dictionary -/
def put (d : List (String × Val)) (key : String) (v : Val) : List (String × Val) :=
  match d with
  | [] => [(key, v)]
  | p :: rest => if p.1 = key then (key, v) :: rest else p :: put rest key v

/-- `d[key]` -/
def look (d : List (String × Val)) (key : String) : Option Val :=
  match d with
  | [] => Option.none
  | p :: rest => if p.1 = key then some p.2 else look rest key

/-- the items of the dictionary at an address -/
def cell (h : Heap) (r : ℕ) : List (String × Val) := h.getD r []

/-- `d[key] = v` for the dictionary at an address -/
def store (h : Heap) (r : ℕ) (key : String) (v : Val) : Heap := h.set r (put (cell h r) key v)

/-- the options (`driver.py:49-191`) -/
inductive Opt where
  | tracer_type | theory_decorator | burnin | epsilon | init_from | init_scatter | lbfgs_epsilon | lbfgs_options | lbfgs_use_priors | lbfgs_numerical
  | lbfgs_numerical_from_lnlike | start_from | test_convergence | stat_specific_params
  deriving DecidableEq, Repr

/-- `_param_names`; a set in the code, see `Driver.init` -/
def Opt.all : List Opt :=
  [.tracer_type, .theory_decorator, .burnin, .epsilon, .init_from, .init_scatter, .lbfgs_epsilon, .lbfgs_options, .lbfgs_use_priors, .lbfgs_numerical,
   .lbfgs_numerical_from_lnlike, .start_from, .test_convergence, .stat_specific_params]

/-- the name -/
def Opt.name : Opt → String
  | .tracer_type => "tracer_type" | .theory_decorator => "theory_decorator" | .burnin => "burnin" | .epsilon => "epsilon" | .init_from => "init_from" | .init_scatter => "init_scatter"
  | .lbfgs_epsilon => "lbfgs_epsilon" | .lbfgs_options => "lbfgs_options" | .lbfgs_use_priors => "lbfgs_use_priors" | .lbfgs_numerical => "lbfgs_numerical"
  | .lbfgs_numerical_from_lnlike => "lbfgs_numerical_from_lnlike" | .start_from => "start_from" | .test_convergence => "test_convergence" | .stat_specific_params => "stat_specific_params"

/-- `_default`: the arguments of the decorators (`driver.py:49-184`); the three dictionaries are the first three objects -/
def Opt.dflt : Opt → Val
  | .tracer_type => .str "galaxy"                -- line 49
  | .theory_decorator => .dict 0                 -- line 58
  | .burnin => .num 0                            -- line 80
  | .epsilon => .num (1/50)                      -- line 93
  | .init_from => .str "fiducial"                -- line 100
  | .init_scatter => .num 0                      -- line 119
  | .lbfgs_epsilon => .num (1/10000)             -- line 127
  | .lbfgs_options => .dict 1                    -- line 136
  | .lbfgs_use_priors => .bool true              -- line 143
  | .lbfgs_numerical => .bool false              -- line 151
  | .lbfgs_numerical_from_lnlike => .bool false  -- line 158
  | .start_from => .none                         -- line 166
  | .test_convergence => .bool false             -- line 173
  | .stat_specific_params => .dict 2             -- line 184

/-- the dictionaries when the class is made (`driver.py:58, 136, 184`) -/
def classHeap : Heap := [[], [("factr", .num 100000), ("gtol", .num (1/100000))], []]

/-- what is raised -/
inductive Err where
  | tracer      -- `ValueError`, line 55
  | decorator   -- `AssertionError` or `ValueError`, lines 69-74
  | initFrom    -- `ValueError`, lines 107-115
  | keys        -- `ValueError`, lines 256-259: a decorator of no statistic
  | key         -- `KeyError`
  | type        -- no dictionary where one is needed
  deriving DecidableEq, Repr

/-- the bodies of the options (`driver.py:50-191`) -/
def validate (h : Heap) (o : Opt) (v : Val) : Except Err (Val × Heap) :=
  match o with
  | .tracer_type => if v ∈ [Val.str "galaxy", .str "quasar"] then .ok (v, h) else .error .tracer
  | .theory_decorator =>
    match v with
    | .none => .ok (.dict h.length, h ++ [[]])       -- line 76: a new dictionary
    | .dict r => if (cell h r).all fun p => p.2 ∈ [Val.str "systematic_free_P0"] then .ok (v, h) else .error .decorator
    | _ => .error .decorator
  | .init_from =>
    if v = .str "max-like" ∨ v = .str "chain" then .error .initFrom
    else if v ≠ .none ∧ v ∉ [Val.str "nlopt", .str "fiducial", .str "prior", .str "result", .str "previous_run"] then .error .initFrom
    else .ok (v, h)
  | .stat_specific_params =>
    match v with
    | .none => .ok (.dict h.length, h ++ [[]])
    | _ => .ok (v, h)
  | _ => .ok (v, h)

/-- a driver: its attributes and its `params` -/
structure Driver where
  attrs : Opt → Option Val
  params : String → Option Val

/-- `driver.<option>` (`_cache.py:235-248`) -/
def Driver.get (h : Heap) (d : Driver) (o : Opt) : Except Err (Val × Heap) :=
  match d.attrs o with
  | some v => .ok (v, h)
  | none => validate h o o.dflt

/-- booleans are numbers -/
def Val.asNum : Val → Option ℚ
  | .bool b => some (if b then 1 else 0)
  | .num q => some q
  | _ => Option.none

/-- `obj_eq(new_val, old_val)` (`_cache.py:194-211`) -/
def objEq (h : Heap) (new old : Val) : Bool :=
  match new, old with
  | _, .none => false
  | .str s, .str t => s == t
  | .dict r, .dict s => r == s || decide (cell h r = cell h s)
  | a, b =>
    match a.asNum, b.asNum with
    | some x, some y => x == y
    | _, _ => false

/-- `driver.<option> = v` (`_cache.py:218-233`) -/
def Driver.set (h : Heap) (d : Driver) (o : Opt) (v : Val) : Except Err (Driver × Heap) :=
  match validate h o v with
  | .error e => .error e
  | .ok (w, h) =>
    match d.attrs o with
    | none => .ok ({ d with attrs := fun p => if p = o then some w else d.attrs p }, h)
    | some old => if objEq h w old then .ok (d, h) else .ok ({ d with attrs := fun p => if p = o then some w else d.attrs p }, h)

/-- one pass of the loop over the options (`driver.py:222-228`) -/
def Driver.load1 (h : Heap) (d : Driver) (o : Opt) : Except Err (Driver × Heap) :=
  match (match d.params o.name with | some v => d.set h o v | none => .ok (d, h)) with
  | .error e => .error e
  | .ok (d, h) =>
    match d.get h o with
    | .error e => .error e
    | .ok (_, h) => .ok (d, h)

/-- the loop -/
def Driver.load (h : Heap) (d : Driver) : List Opt → Except Err (Driver × Heap)
  | [] => .ok (d, h)
  | o :: rest =>
    match d.load1 h o with
    | .error e => .error e
    | .ok (d, h) => d.load h rest

/-- lines 217-219 -/
def fixStat (h : Heap) (file : String → Option Val) : (String → Option Val) × Heap :=
  if file "stat_specific_params" = some .none then (fun s => if s = "stat_specific_params" then some (.dict h.length) else file s, h ++ [[]])
  else (file, h)

/-- `FittingDriver(param_file)` as far as the options go (`driver.py:215-261`): `file` are the parameters in the file with the tag `driver`, `order` the order in which the set of names is gone through, `stats` the names of the statistics -/
def Driver.init (h : Heap) (file : String → Option Val) (order : List Opt) (stats : List String) : Except Err (Driver × Heap) :=
  match Driver.load (fixStat h file).2 ⟨fun _ => none, (fixStat h file).1⟩ order with
  | .error e => .error e
  | .ok (d, h) =>
    match d.get h .theory_decorator with
    | .error e => .error e
    | .ok (.dict r, h) => if ∀ p ∈ cell h r, p.1 ∈ stats then .ok (d, h) else .error .keys
    | .ok _ => .error .type

/-- `default_params(**given)` (`driver.py:340-357`): every option has a default, so that none is required -/
def defaultParams (given : String → Option Val) (s : String) : Option Val :=
  match given s with
  | some v => some v
  | none => (Opt.all.find? fun o => o.name == s).map Opt.dflt

/-- the restart of a run of `nlopt` with so many iterations in all (`driver.py:470-492`) -/
def Driver.restartNlopt (h : Heap) (d : Driver) (total : ℕ) : Except Err (Driver × Heap) :=
  match d.set h .init_from (.str "previous_run") with
  | .error e => .error e
  | .ok (d, h) =>
    match d.params "init_from" with
    | none => .error .key                                                            -- line 473
    | some _ =>
      match d.get h .init_from with
      | .error e => .error e
      | .ok (v, h) =>
        match d.get h .lbfgs_options with
        | .error e => .error e
        | .ok (.dict r, h) =>
          .ok ({ d with params := fun s => if s = "lbfgs_options" then some (.dict r) else if s = "init_from" then some v else d.params s }, store h r "max_iter" (.num total))
        | .ok _ => .error .type

/-- what the command line adds for `nlopt` (`rsdfit.py:149-151`) -/
def setupNlopt (h : Heap) (params : String → Option Val) (iterations : ℕ) : Except Err Heap :=
  match params "lbfgs_options" with
  | none => .error .key
  | some (.dict r) => .ok (store h r "max_iter" (.num iterations))
  | some _ => .error .type

/-- what a run of `nlopt` works with; the last four are `options` of the minimiser -/
structure Nlopt where
  initFrom : Val
  initScatter : Val
  epsilon : Val
  numerical : Val
  fromLnlike : Val
  usePriors : Val
  testConvergence : Val
  factr : Val
  gtol : Val
  maxIter : Val

/-- `lbfgs_solver.run` (`lbfgs_solver.py:51, 59, 68-74`); the options that are not given are those of `LBFGS.default_options` (`lbfgs.py:191-194, 253-255, 464`) -/
def nloptReads (h : Heap) (params : String → Option Val) : Except Err (Nlopt × Heap) :=
  match params "init_from" with
  | none => .error .key
  | some i =>
    let tc := (params "test_convergence").getD (.bool false)
    match (match params "lbfgs_options" with | some (.dict r) => some (r, h) | some _ => none | none => some (h.length, h ++ [[]])) with
    | none => .error .type
    | some (r, h) =>
      let h := store h r "test_convergence" tc
      .ok (⟨i, (params "init_scatter").getD (.num 0), (params "lbfgs_epsilon").getD (.num (1/10000)), (params "lbfgs_numerical").getD (.bool false), (params "lbfgs_numerical_from_lnlike").getD (.bool false),
        (params "lbfgs_use_priors").getD (.bool true), tc, (look (cell h r) "factr").getD (.num 100000), (look (cell h r) "gtol").getD (.num (1/100000)), (look (cell h r) "max_iter").getD (.num 500)⟩, h)

/-- what a run of `mcmc` works with -/
structure Mcmc where
  initFrom : Val
  epsilon : Val
  testConvergence : Val
  burnin : Val
  deriving DecidableEq

/-- `emcee_solver.run` (`emcee_solver.py:268-270, 345`), not a restart -/
def mcmcReads (params : String → Option Val) : Mcmc :=
  ⟨(params "init_from").getD (.str "prior"), (params "epsilon").getD (.num (1/50)), (params "test_convergence").getD (.bool false), (params "burnin").getD (.num 100)⟩

end Verif.Opts
