/-
Model of the interpolation of simulation results (`pyRSD/rsd/simulation.py:15-270`: `GeorgeSimulationData`, `GeorgeSimulationDataSet`) and of
`align_input`, `unpacked` (`pyRSD/rsd/tools.py:98-129`).

Numbers are exact reals.  What is used of libraries outside the repository: pandas (a table with named columns), `StandardScaler` of sklearn (mean and population
standard deviation, 1 instead of 0), and of george the Gaussian process with a kernel, errors added to the diagonal, and the mean of the prediction; factorisation fails
if the matrix is not positive definite.  The `solver` (an approximation of the same algebra) is a word.  The dictionary of cached values (`_cache.py`, claims C01-C06)
is the structure `Cache` with one field for each of the cached properties; the parents are the declared ones.  An empty list of independent variables is not modelled.
-/
import Mathlib.LinearAlgebra.Matrix.PosDef
import Mathlib.LinearAlgebra.Matrix.NonsingularInverse
import Mathlib.Analysis.SpecialFunctions.Sqrt
import Mathlib.Analysis.SpecialFunctions.Exp

namespace Verif.SimFit

noncomputable section

open Classical

/-- A table: `n` rows, and columns with names. -/
structure Frame where
  n : ℕ
  col : String → Option (Fin n → ℝ)

/-- The independent variables of the rows: a matrix. -/
structure Rows where
  n : ℕ
  d : ℕ
  val : Fin n → Fin d → ℝ

/-- One number for each row. -/
structure Vec where
  n : ℕ
  val : Fin n → ℝ

/-- A kernel class of george, made with a metric. -/
abbrev Kern := (d : ℕ) → (Fin d → ℝ) → (Fin d → ℝ) → (Fin d → ℝ) → ℝ

/-- `george.kernels.ExpSquaredKernel(metric, ndim=d)` -/
def expSquared : Kern := fun _ l x y => Real.exp (-(1 / 2) * ∑ a, (x a - y a) ^ 2 / l a)

/-- The exceptions. -/
inductive Err where
  | keyError     -- a column that is not there
  | valueError
  | linAlg       -- a matrix that is not positive definite

/-- The parameters (`simulation.py:56-121`). -/
structure Params where
  useErrors : Bool
  data : Frame
  indep : List String
  dep : String
  solver : String
  kernel : Kern
  theta : List ℝ

/-- `StandardScaler().fit` of one column: the mean -/
def mean {n : ℕ} (v : Fin n → ℝ) : ℝ := (∑ i, v i) / n

/-- `StandardScaler().fit` of one column: the standard deviation, or 1 -/
def scale {n : ℕ} (v : Fin n → ℝ) : ℝ :=
  if Real.sqrt ((∑ i, (v i - mean v) ^ 2) / n) = 0 then 1 else Real.sqrt ((∑ i, (v i - mean v) ^ 2) / n)

/-- A scaler of one column -/
structure Scaler where
  mean : ℝ
  scale : ℝ

/-- The scalers of several columns -/
structure Scalers where
  d : ℕ
  val : Fin d → Scaler

/-- `scaler.transform` -/
def Scaler.transform (s : Scaler) (x : ℝ) : ℝ := (x - s.mean) / s.scale

/-- `scaler.inverse_transform` -/
def Scaler.inverse (s : Scaler) (x : ℝ) : ℝ := x * s.scale + s.mean

/-- `x_scaler` (`simulation.py:157-164`) -/
def fitRows (x : Rows) : Scalers := ⟨x.d, fun a => ⟨mean fun i => x.val i a, scale fun i => x.val i a⟩⟩

/-- `y_scaler` (`simulation.py:166-171`) -/
def fitVec (y : Vec) : Scaler := ⟨mean y.val, scale y.val⟩

/-- sklearn refuses a table without rows -/
def nonempty {α : Type} (n : ℕ) (v : α) : Except Err α := if n = 0 then .error .valueError else .ok v

/-- A Gaussian process of george after `compute`: kernel, points, errors. -/
structure GP where
  n : ℕ
  d : ℕ
  kern : (Fin d → ℝ) → (Fin d → ℝ) → ℝ
  x : Fin n → Fin d → ℝ
  err : Fin n → ℝ

/-- The matrix that is factorised: the kernel, and the squares of the errors on the diagonal -/
def GP.cov (g : GP) : Matrix (Fin g.n) (Fin g.n) ℝ := fun i j => g.kern (g.x i) (g.x j) + if i = j then g.err i ^ 2 else 0

/-- `gp.predict(y, t)`, the mean, at one point -/
def GP.predict (g : GP) (y : Fin g.n → ℝ) (t : Fin g.d → ℝ) : ℝ := ∑ i, g.kern t (g.x i) * (g.cov⁻¹.mulVec y) i

/-- The error that george assumes if there are none (`TINY`) -/
def tiny : ℝ := 1.25 / 10 ^ 12

/-- The values of the cached properties (`simulation.py:126-224`), as far as they have been computed. -/
structure Cache where
  xshape : Option ℕ := none
  ndim : Option ℕ := none
  x : Option Rows := none
  y : Option Vec := none
  yerr : Option Vec := none
  xScaler : Option Scalers := none
  yScaler : Option Scaler := none
  xScaled : Option Rows := none
  yScaled : Option Vec := none
  yerrScaled : Option Vec := none
  gp : Option GP := none

/-- The object -/
structure Fit where
  par : Params
  cache : Cache

/-- Computations that read and fill the cache; what was filled before an exception stays. -/
abbrev M (α : Type) := Fit → Except Err α × Fit

/-- no computation -/
def done {α : Type} (v : α) : M α := fun s => (.ok v, s)

/-- an exception -/
def fail {α : Type} (e : Err) : M α := fun s => (.error e, s)

/-- one after the other -/
def M.andThen {α β : Type} (m : M α) (f : α → M β) : M β := fun s =>
  match m s with
  | (.ok v, s') => f v s'
  | (.error e, s') => (.error e, s')

/-- A computation that depends on the parameters only -/
def ofPar {α : Type} (f : Params → Except Err α) : M α := fun s => (f s.par, s)

/-- A cached property: computed if it is not in the cache, and stored (`_cache.py:279-295`) -/
def memo {α : Type} (c : Cache → Option α) (set : α → Cache → Cache) (m : M α) : M α := fun s =>
  match c s.cache with
  | some v => (.ok v, s)
  | none => match m s with
    | (.ok v, s') => (.ok v, { s' with cache := set v s'.cache })
    | (.error e, s') => (.error e, s')

/-- `data.loc[:,names].values` -/
def Frame.rows (f : Frame) (names : List String) : Except Err Rows :=
  if ∃ c ∈ names, f.col c = none then .error .keyError
  else .ok ⟨f.n, names.length, fun i a => ((f.col (names.get a)).getD fun _ => 0) i⟩

/-- `data.loc[:,name].values` -/
def Frame.vec (f : Frame) (name : String) : Except Err Vec :=
  match f.col name with
  | some v => .ok ⟨f.n, v⟩
  | none => .error .keyError

/-- `self.data.loc[:,self.independent].values` (`simulation.py:141-146`) -/
def readX (p : Params) : Except Err Rows := p.data.rows p.indep

/-- `self.data.loc[:,name].values` (`simulation.py:148-160`) -/
def readCol (p : Params) (name : String) : Except Err Vec := p.data.vec name

/-- `x` -/
def getX : M Rows := memo (·.x) (fun v c => { c with x := some v }) (ofPar readX)

/-- `y` -/
def getY : M Vec := memo (·.y) (fun v c => { c with y := some v }) (ofPar fun p => readCol p p.dep)

/-- `yerr` -/
def getYerr : M Vec := memo (·.yerr) (fun v c => { c with yerr := some v }) (ofPar fun p => readCol p (p.dep ++ "_err"))

/-- `xshape` (`simulation.py:126-133`) -/
def getXshape : M ℕ := memo (·.xshape) (fun v c => { c with xshape := some v }) (getX.andThen fun x => done x.d)

/-- `ndim` (`simulation.py:135-140`) -/
def getNdim : M ℕ := memo (·.ndim) (fun v c => { c with ndim := some v }) (ofPar fun p => .ok p.theta.length)

/-- `x_scaler` -/
def getXScaler : M Scalers := memo (·.xScaler) (fun v c => { c with xScaler := some v }) (getX.andThen fun x => ofPar fun _ => nonempty x.n (fitRows x))

/-- `y_scaler` -/
def getYScaler : M Scaler := memo (·.yScaler) (fun v c => { c with yScaler := some v }) (getY.andThen fun y => ofPar fun _ => nonempty y.n (fitVec y))

/-- `x_scaler.transform(x)`: refused if the numbers of columns differ -/
def scaleRows (s : Scalers) (x : Rows) : Except Err Rows :=
  if h : s.d = x.d then .ok ⟨x.n, x.d, fun i a => (s.val (Fin.cast h.symm a)).transform (x.val i a)⟩ else .error .valueError

/-- `x_scaled` (`simulation.py:176-184`) -/
def getXScaled : M Rows :=
  memo (·.xScaled) (fun v c => { c with xScaled := some v }) (getX.andThen fun x => getXScaler.andThen fun s => ofPar fun _ => scaleRows s x)

/-- `y_scaled` (`simulation.py:186-191`) -/
def getYScaled : M Vec :=
  memo (·.yScaled) (fun v c => { c with yScaled := some v }) (getYScaler.andThen fun s => getY.andThen fun y => done ⟨y.n, fun i => s.transform (y.val i)⟩)

/-- `yerr_scaled` (`simulation.py:193-198`) -/
def getYerrScaled : M Vec :=
  memo (·.yerrScaled) (fun v c => { c with yerrScaled := some v }) (getYerr.andThen fun e => getYScaler.andThen fun s => done ⟨e.n, fun i => e.val i / s.scale⟩)

/-- The kernel (`simulation.py:205-210`): with as many numbers in `theta` as columns they are the metric, with one more the first is the amplitude. -/
def makeKernel (kernel : Kern) (theta : List ℝ) (ndim xshape : ℕ) (d : ℕ) : Except Err ((Fin d → ℝ) → (Fin d → ℝ) → ℝ) :=
  if ndim = xshape then .ok (kernel d fun a => theta.getD a 0)
  else if ndim = xshape + 1 then .ok fun x y => theta.getD 0 0 * kernel d (fun a => theta.getD (a + 1) 0) x y
  else .error .valueError

/-- `gp.compute(x, yerr=...)` -/
def compute {d : ℕ} (kern : (Fin d → ℝ) → (Fin d → ℝ) → ℝ) {n : ℕ} (x : Fin n → Fin d → ℝ) (err : Fin n → ℝ) : Except Err GP :=
  if (GP.cov ⟨n, d, kern, x, err⟩).PosDef then .ok ⟨n, d, kern, x, err⟩ else .error .linAlg

/-- `compute` with errors from a column -/
def computeWith {d : ℕ} (kern : (Fin d → ℝ) → (Fin d → ℝ) → ℝ) {n : ℕ} (x : Fin n → Fin d → ℝ) (e : Vec) : Except Err GP :=
  if h : e.n = n then compute kern x (fun i => e.val (Fin.cast h.symm i)) else .error .valueError

/-- `gp` (`simulation.py:200-224`) -/
def getGP : M GP :=
  memo (·.gp) (fun v c => { c with gp := some v })
    (getNdim.andThen fun ndim => getXshape.andThen fun xshape => (ofPar fun p => .ok (p.kernel, p.theta, p.useErrors)).andThen fun q =>
      if q.2.2 then
        getYerrScaled.andThen fun e => getXScaled.andThen fun x => ofPar fun _ => do
          let k ← makeKernel q.1 q.2.1 ndim xshape x.d
          computeWith k x.val e
      else
        getXScaled.andThen fun x => ofPar fun _ => do
          let k ← makeKernel q.1 q.2.1 ndim xshape x.d
          compute k x.val (fun _ => tiny))

/-! ### The call -/

/-- The arguments of a call -/
inductive Arg where
  | scalar (x : ℝ)
  | array (l : List ℝ)

/-- the length of an array -/
def Arg.len? : Arg → Option ℕ
  | .scalar _ => none
  | .array l => some l.length

/-- `np.repeat(kw[k], N)` for the scalars -/
def Arg.repeat (n : ℕ) : Arg → Arg
  | .scalar x => .array (List.replicate n x)
  | .array l => .array l

/-- `align_input` (`tools.py:112-129`) -/
def align (kw : List (String × Arg)) : Except Err (List (String × Arg)) :=
  match kw.filterMap fun e => e.2.len? with
  | [] => .ok kw
  | n :: ns => if ns.all (· = n) then .ok (kw.map fun e => (e.1, e.2.repeat n)) else .error .valueError

/-- the `i`-th element -/
def Arg.get (i : ℕ) : Arg → ℝ
  | .scalar x => x
  | .array l => l.getD i 0

/-- `np.asarray([...]).T` (`simulation.py:244-245`): one point for each element, or a single point -/
def points (vs : List Arg) : List (List ℝ) :=
  match vs.filterMap Arg.len? with
  | [] => [vs.map (Arg.get 0)]
  | n :: _ => (List.range n).map fun i => vs.map (Arg.get i)

/-- Positional arguments (`simulation.py:234-238`) -/
def positional (indep : List String) (args : List Arg) (kw : List (String × Arg)) : Except Err (List (String × Arg)) :=
  match args, indep with
  | [], _ => .ok kw
  | [a], [p] => .ok ((p, a) :: kw)
  | _, _ => .error .valueError

/-- The points asked for (`simulation.py:234-245`) -/
def asked (indep : List String) (args : List Arg) (kw : List (String × Arg)) : Except Err (List (List ℝ)) := do
  let kw ← align kw
  let kw ← positional indep args kw
  let vs ← indep.mapM fun p => match kw.lookup p with
    | some a => .ok a
    | none => .error .valueError
  return points vs

/-- `x_scaler.transform(pt)`: refused without points, or with another number of columns -/
def scalePoints (s : Scalers) (pts : List (List ℝ)) : Except Err (List (Fin s.d → ℝ)) :=
  if pts = [] ∨ ∃ t ∈ pts, t.length ≠ s.d then .error .valueError
  else .ok (pts.map fun t a => (s.val a).transform (t.getD a 0))

/-- `gp.predict(y_scaled, pt)` (`simulation.py:251`) -/
def predictAll (g : GP) (y : Vec) {d : ℕ} (pts : List (Fin d → ℝ)) : Except Err (List ℝ) :=
  if h : y.n = g.n ∧ d = g.d then .ok (pts.map fun t => g.predict (fun i => y.val (Fin.cast h.1.symm i)) (fun a => t (Fin.cast h.2.symm a))) else .error .valueError

/-- `__call__` (`simulation.py:226-251`), before `unpacked` -/
def Fit.evaluate (args : List Arg) (kw : List (String × Arg)) : M (List ℝ) :=
  (ofPar fun p => asked p.indep args kw).andThen fun pts => getXScaler.andThen fun s => (ofPar fun _ => scalePoints s pts).andThen fun t =>
    getYScaler.andThen fun sy => getGP.andThen fun g => getYScaled.andThen fun y => (ofPar fun _ => predictAll g y t).andThen fun r => done (r.map sy.inverse)

/-- What is returned: a number, or an array -/
inductive Out where
  | number (x : ℝ)
  | array (l : List ℝ)

/-- `unpacked` (`tools.py:98-109`) -/
def unpack : List ℝ → Out
  | [x] => .number x
  | l => .array l

/-- `__call__` -/
def Fit.call (args : List Arg) (kw : List (String × Arg)) : M Out := (Fit.evaluate args kw).andThen fun l => done (unpack l)

/-! ### Assigning parameters -/

/-- When a value that is assigned counts as the old one (`obj_eq`, `_cache.py:194-210`: tables and lists of numbers that are close) -/
structure Same where
  data : Frame → Frame → Bool
  theta : List ℝ → List ℝ → Bool

variable (eqv : Same)

/-- What depends on `data` is dropped: everything but `ndim`. -/
def setData (d : Frame) (s : Fit) : Except Err Unit × Fit :=
  if eqv.data d s.par.data then (.ok (), s) else (.ok (), { par := { s.par with data := d }, cache := { ndim := s.cache.ndim } })

/-- `theta`: only `ndim` depends on it (`simulation.py:135`). -/
def setTheta (t : List ℝ) (s : Fit) : Except Err Unit × Fit :=
  if eqv.theta t s.par.theta then (.ok (), s) else (.ok (), { par := { s.par with theta := t }, cache := { s.cache with ndim := none } })

/-- `kernel`: `gp` depends on it. -/
def setKernel (k : Kern) (s : Fit) : Except Err Unit × Fit :=
  if k = s.par.kernel then (.ok (), s) else (.ok (), { par := { s.par with kernel := k }, cache := { s.cache with gp := none } })

/-- `solver` (`simulation.py:72-80`): `gp` depends on it. -/
def setSolver (v : String) (s : Fit) : Except Err Unit × Fit :=
  if v ∉ ["BasicSolver", "HODLRSolver"] then (.error .valueError, s)
  else if v = s.par.solver then (.ok (), s) else (.ok (), { par := { s.par with solver := v }, cache := { s.cache with gp := none } })

/-- `independent` (`simulation.py:103-111`): nothing depends on it. -/
def setIndep (v : List String) (s : Fit) : Except Err Unit × Fit :=
  if ∃ c ∈ v, s.par.data.col c = none then (.error .valueError, s) else (.ok (), { s with par := { s.par with indep := v } })

/-- `dependent` (`simulation.py:113-122`): nothing depends on it. -/
def setDep (v : String) (s : Fit) : Except Err Unit × Fit :=
  if s.par.data.col v = none then (.error .valueError, s)
  else if s.par.useErrors = true ∧ s.par.data.col (v ++ "_err") = none then (.error .valueError, s)
  else (.ok (), { s with par := { s.par with dep := v } })

/-- `use_errors`: nothing depends on it. -/
def setUseErrors (b : Bool) (s : Fit) : Except Err Unit × Fit := (.ok (), { s with par := { s.par with useErrors := b } })

/-- `__init__` (`simulation.py:26-61`) -/
def init (p : Params) : Except Err Fit :=
  if ∃ c ∈ p.indep, p.data.col c = none then .error .valueError
  else if p.data.col p.dep = none then .error .valueError
  else if p.useErrors = true ∧ p.data.col (p.dep ++ "_err") = none then .error .valueError
  else if p.solver ∉ ["BasicSolver", "HODLRSolver"] then .error .valueError
  else .ok ⟨p, {}⟩

/-- What a user does with an object. -/
inductive Op where
  | data (d : Frame)
  | theta (t : List ℝ)
  | kernel (k : Kern)
  | solver (v : String)
  | indep (v : List String)
  | dep (v : String)
  | useErrors (b : Bool)
  | readX | readY | readYerr | readXshape | readNdim | readXScaler | readYScaler | readXScaled | readYScaled | readYerrScaled | readGP
  | call (args : List Arg) (kw : List (String × Arg))

/-- The object afterwards, whether or not there was an exception -/
def step (s : Fit) : Op → Fit
  | .data d => (setData eqv d s).2
  | .theta t => (setTheta eqv t s).2
  | .kernel k => (setKernel k s).2
  | .solver v => (setSolver v s).2
  | .indep v => (setIndep v s).2
  | .dep v => (setDep v s).2
  | .useErrors b => (setUseErrors b s).2
  | .readX => (getX s).2
  | .readY => (getY s).2
  | .readYerr => (getYerr s).2
  | .readXshape => (getXshape s).2
  | .readNdim => (getNdim s).2
  | .readXScaler => (getXScaler s).2
  | .readYScaler => (getYScaler s).2
  | .readXScaled => (getXScaled s).2
  | .readYScaled => (getYScaled s).2
  | .readYerrScaled => (getYerrScaled s).2
  | .readGP => (getGP s).2
  | .call args kw => (Fit.call args kw s).2

/-! ### Several dependent variables -/

/-- `GeorgeSimulationDataSet` (`simulation.py:254-286`): one object for each dependent variable -/
structure FitSet where
  names : List String
  fits : List (String × Fit)

/-- making the objects one after the other -/
def makeFits (p : Params) : List (String × List ℝ) → Except Err (List (String × Fit))
  | [] => .ok []
  | (dep, theta) :: rest => do
    let f ← init { p with dep := dep, theta := theta }
    let fs ← makeFits p rest
    return (dep, f) :: fs

/-- `__init__` (`simulation.py:259-268`); of two objects with the same name the last stays -/
def initSet (p : Params) (deps : List String) (thetas : List (List ℝ)) : Except Err FitSet :=
  if deps.length ≠ thetas.length then .error .valueError
  else do
    let fs ← makeFits p (deps.zip thetas)
    return ⟨deps, fs.reverse⟩

/-- the keyword `select` -/
inductive Select where
  | all
  | one (name : String)
  | other

/-- `__call__` (`simulation.py:270-286`): the results in the order of the names; the first exception ends it.  The state of the caches is not kept here. -/
def FitSet.call (s : FitSet) (select : Select) (args : List Arg) (kw : List (String × Arg)) : Except Err (List Out) :=
  let pick (name : String) : Except Err Out := match s.fits.lookup name with
    | some f => (Fit.call args kw f).1
    | none => .error .keyError
  match select with
  | .all => s.names.mapM pick
  | .one name => (pick name).map fun o => [o]
  | .other => .error .valueError

end

end Verif.SimFit
