import Mathlib.Data.Fintype.Basic
import Mathlib.Logic.Relation
/-!
Model of how a run is set up from the command line: `verify_arguments` (`pyRSD/rsdfit/util/rsd_parser.py:345-405`),
`RSDFitDriver.initialize_algorithm` (`pyRSD/rsdfit/rsdfit.py:101-175`), `FittingDriver.from_directory`
(`pyRSD/rsdfit/driver.py:263-318`), the start of `FittingDriver.run` (`driver.py:529-575`), `FittingDriver.set_restart`
(`driver.py:460-494`) and `find_init_result` (`rsdfit.py:10-41`).

The files are a map from paths to what is there.  All ranks of a parallel run work on the same files; a step of a rank is one
opening of a file, and the ranks are interleaved in any order.
-/
namespace Verif.Setup

/-- Absolute paths, as the list of their components. -/
abbrev Path := List String

/-- The sections of a parameter file (`driver.py:205, 218`, `power_measurement.py:555`, `theory/base.py:396, 416, 423`). -/
inductive Sec where
  | driver | data | model | extra | theory
  deriving DecidableEq

/-- A parameter file, by its sections; what the text of a section is is the subject of C125. -/
abbrev Sections (σ : Type) := Sec → Option σ

/-- What can be at a path. -/
inductive Node (σ M : Type) where
  | dir
  | par (s : Sections σ)
  | mod (m : M)

/-- The files. -/
abbrev FS (σ M : Type) := Path → Option (Node σ M)

/-- `params_filename`, `model_filename` (`rsdfit/__init__.py:1-2`). -/
def paramsName : String := "params.dat"
def modelName : String := "model.npy"

/-- `os.path.join`. -/
def join (p : Path) (n : String) : Path := p ++ [n]

variable {σ M : Type}

/-- `os.path.isdir`, `os.path.isfile`. -/
def isDir (fs : FS σ M) (p : Path) : Bool := match fs p with | some .dir => true | _ => false
def isFile (fs : FS σ M) (p : Path) : Bool := match fs p with | some (.par _) => true | some (.mod _) => true | _ => false

/-- Something is written at a path. -/
def put (fs : FS σ M) (p : Path) (x : Node σ M) : FS σ M := fun q => if q = p then some x else fs q

/-- What can be raised. -/
inductive Err where
  | argument   -- `ArgumentTypeError` of `existing_file` (`rsd_parser.py:28-47`)
  | empty      -- `ConfigurationError`, the folder has no parameter file (`rsd_parser.py:381`)
  | absent     -- `ConfigurationError`, the folder does not exist (`rsd_parser.py:392`)
  | os         -- `OSError` of `os.makedirs`
  | model      -- the model file does not exist or is not a model
  deriving DecidableEq, Repr

/-- `os.makedirs`: nothing may be there, and no file above it. -/
def makedirs (fs : FS σ M) (p : Path) : Except Err (FS σ M) :=
  if (fs p).isSome then .error .os
  else if p.inits.any (fun q => isFile fs q) then .error .os
  else .ok (fun q => if q ∈ p.inits ∧ fs q = none then some .dir else fs q)

/-- The arguments of `mcmc` and `nlopt` that matter here. -/
structure Args where
  folder : Path
  params : Option Path
  model : Option Path
  noSave : Bool := false

/-- The types of the arguments (`rsd_parser.py:28-47, 79, 84`): files that are given exist. -/
def typed (fs : FS σ M) (a : Args) : Bool := a.params.all (isFile fs) && a.model.all (isFile fs)

/-- The directory for the logs (`rsd_parser.py:400-403`). -/
def withLogs (fs : FS σ M) (a : Args) : Except Err (Args × FS σ M) :=
  if (fs (join a.folder "logs")).isSome then .ok (a, fs)
  else
    match makedirs fs (join a.folder "logs") with
    | .error e => .error e
    | .ok fs' => .ok (a, fs')

/-- `verify_arguments` for `mcmc` and `nlopt` (`rsd_parser.py:365-405`). -/
def verify (fs : FS σ M) (a : Args) : Except Err (Args × FS σ M) :=
  if !typed fs a then .error .argument
  else if isDir fs a.folder then
    let dst := join a.folder paramsName
    let mdl := join a.folder modelName
    let model := if (fs mdl).isSome ∧ a.model = none then some mdl else a.model      -- lines 387-389
    if (fs dst).isSome then withLogs fs { a with params := some dst, model := model } -- lines 371-377
    else if a.params = none then .error .empty                                        -- lines 379-384
    else withLogs fs { a with model := model }
  else if a.params = none then .error .absent                                         -- lines 391-396
  else
    match makedirs fs a.folder with                                                   -- line 398
    | .error e => .error e
    | .ok fs' => withLogs fs' a

/-- What the set-up calls: the driver made of a parameter file (`none`: an exception), the sections it writes
(`driver.py:496-510`), its `model_dir`, the model it makes. -/
structure Job (σ M Cfg : Type) where
  load : Sections σ → Option Cfg
  save : Cfg → Sec → σ
  modelDir : Cfg → Option Path
  build : Cfg → M

variable {Cfg : Type}

/-- The model read from a file (`theory/base.py:460-484`). -/
def readModel (fs : FS σ M) (p : Path) : Except Err M := match fs p with | some (.mod m) => .ok m | _ => .error .model

/-- The model of a run and where it is saved (`rsdfit.py:114-135`, `driver.py:287-308`; `from_directory` with a model file
that exists, which `verify` guarantees, loads it).  Which of the two branches is taken is decided in the code before the
parameters are read; the condition does not change in between. -/
def chooseModel (j : Job σ M Cfg) (fs : FS σ M) (a : Args) (c : Cfg) : Except Err (M × Option (Path × M)) :=
  match a.model with
  | some p =>
    match readModel fs p with
    | .error e => .error e
    | .ok m => .ok (m, none)
  | none =>
    if isDir fs a.folder ∧ a.params = some (join a.folder paramsName) ∧ (fs (join a.folder paramsName)).isSome then
      .ok (j.build c, none)                                                            -- `from_directory`, init_model
    else .ok (j.build c, if a.noSave then none
                         else some (join ((j.modelDir c).getD a.folder) modelName, j.build c)) -- lines 131-134

/-- What rank 0 does to the files after it has a driver: the model (line 134), then `params.dat`: opening with mode `'w'`
empties it, and the sections are added one after the other (`driver.py:507-510`, `theory/base.py:494-514`).
Simplification: a section is added in one step. -/
inductive Op (σ M : Type) where
  | model (p : Path) (m : M)
  | clear (p : Path)
  | add (p : Path) (s : Sec) (x : σ)

/-- The effect of such a step; `none` is an exception. -/
def Op.apply (fs : FS σ M) : Op σ M → Option (FS σ M)
  | .model p m => if isDir fs p || !isDir fs p.dropLast then none else some (put fs p (.mod m))
  | .clear p => if isDir fs p then none else some (put fs p (.par fun _ => none))
  | .add p s x =>
    match fs p with
    | some (.par f) => some (put fs p (.par fun t => if t = s then some x else f t))
    | none => some (put fs p (.par fun t => if t = s then some x else none))
    | _ => none

/-- The sections in the order in which they are written (`driver.py:508-510`, `theory/base.py:499-514`). -/
def writeOrder : List Sec := [.driver, .data, .theory, .extra, .model]

/-- The steps of rank `r` after the driver is made. -/
def ops (j : Job σ M Cfg) (a : Args) (r : ℕ) (c : Cfg) (saved : Option (Path × M)) : List (Op σ M) :=
  let dst := join a.folder paramsName
  if r = 0 then
    (match saved with | some (p, m) => [.model p m] | none => []) ++
    .clear dst :: writeOrder.map fun s => .add dst s (j.save c s)
  else []

/-- The state of a rank. -/
inductive RState (σ M Cfg : Type) where
  | reading (todo : List Sec) (got : Sections σ)
  | doing (todo : List (Op σ M)) (c : Cfg) (m : M)
  | waiting (c : Cfg) (m : M)      -- at `self.comm.barrier()` (line 142)
  | running (c : Cfg) (m : M)
  | failed

/-- Is the rank at the barrier or past it? -/
def RState.arrived : RState σ M Cfg → Bool
  | .waiting _ _ => true
  | .running _ _ => true
  | _ => false

/-- The files and the ranks. -/
structure State (σ M Cfg : Type) (n : ℕ) where
  fs : FS σ M
  rank : Fin n → RState σ M Cfg

/-- The sections in the order in which they are read. -/
def readOrder : List Sec := [.driver, .data, .model, .extra, .theory]

/-- A rank goes to a new state. -/
def State.set {n : ℕ} (s : State σ M Cfg n) (r : Fin n) (x : RState σ M Cfg) : State σ M Cfg n :=
  { s with rank := fun q => if q = r then x else s.rank q }

/-- One step of rank `r`; `none` if it cannot go on.  Simplification: an exception while the driver is made is raised after the
file has been read. -/
def step (j : Job σ M Cfg) (a : Args) {n : ℕ} (s : State σ M Cfg n) (r : Fin n) : Option (State σ M Cfg n) :=
  match s.rank r with
  | .reading (t :: todo) got =>
    match a.params.bind s.fs with
    | some (.par f) => some (s.set r (.reading todo fun q => if q = t then f t else got q))
    | _ => some (s.set r .failed)
  | .reading [] got =>
    match j.load got with
    | none => some (s.set r .failed)
    | some c =>
      match chooseModel j s.fs a c with
      | .error _ => some (s.set r .failed)
      | .ok (m, saved) => some (s.set r (.doing (ops j a r.val c saved) c m))
  | .doing (o :: todo) c m =>
    match o.apply s.fs with
    | none => some (s.set r .failed)
    | some fs' => some ({ s with fs := fs' }.set r (.doing todo c m))
  | .doing [] c m => some (s.set r (.waiting c m))
  | .waiting c m => if ∀ q, (s.rank q).arrived = true then some (s.set r (.running c m)) else none
  | .running _ _ => none
  | .failed => none

/-- All ranks begin. -/
def begin_ (fs : FS σ M) (n : ℕ) : State σ M Cfg n := ⟨fs, fun _ => .reading readOrder fun _ => none⟩

/-- `k` steps, by any ranks in any order. -/
inductive Run (j : Job σ M Cfg) (a : Args) {n : ℕ} : ℕ → State σ M Cfg n → State σ M Cfg n → Prop where
  | refl (s) : Run j a 0 s s
  | next {k s t u} (r : Fin n) : Run j a k s t → step j a t r = some u → Run j a (k + 1) s u

end Verif.Setup
