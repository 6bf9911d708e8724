/-
Model of the files of measurements and of (k, mu) grids: `PowerMeasurements.to_plaintext`, `from_array`, `from_plaintext`, `PowerMeasurement.__init__`, `columns`
(`pyRSD/rsdfit/data/power_measurement.py:24-190, 252-262`) and `PkmuGrid.to_plaintext`, `from_plaintext` (`pyRSD/rsd/transfers/__init__.py:33-60`).

Numbers are exact reals.  A file of measurements is its header and its lines of numbers; `'%.5e'` writes a number rounded to six digits, `round6`, with the rounding of a
tie left open (`rnd` is any rounding to a nearest integer); nan and infinities are not modelled there.  The grids are written with 19 digits, which identify a double: this
rounding is left out.  Names of statistics are lists of characters; `float(...)` of the last part is the parameter `parse`.
-/
import Mathlib.Data.Real.Archimedean
import Mathlib.Data.Int.Log
import Mathlib.Data.List.SplitOn

namespace Verif.DataFile

noncomputable section

/-- The exceptions. -/
inductive Err where
  | valueError | typeError | keyError | indexError
  deriving DecidableEq, Repr

/-! ### Numbers -/

/-- `float('%.5e' % x)`: the decimal with six digits next to `x`. -/
def round6 (rnd : ℝ → ℤ) (x : ℝ) : ℝ :=
  if x = 0 then 0 else (rnd (x / 10 ^ (Int.log 10 |x| - 5)) : ℝ) * 10 ^ (Int.log 10 |x| - 5)

/-! ### Measurements -/

/-- The two kinds of measurements. -/
inductive Kind where
  | pkmu | pole
  deriving DecidableEq, Repr

/-- An input column: `None`, a number or an array. -/
inductive Col where
  | none
  | scalar (x : ℝ)
  | arr (l : List ℝ)

/-- `PowerMeasurement` (`power_measurement.py:149-190`): the input columns and the multipole number; `columns` is the value the cached property of that name has stored, if any. -/
structure Meas where
  kind : Kind
  k : List ℝ
  mu : Col
  power : List ℝ
  error : Col
  ell : Option ℝ
  columns : Option (List String)

/-- `getattr(m, '_'+col+'_input')` -/
def Meas.input (m : Meas) (f : String) : Col :=
  if f = "k" then .arr m.k else if f = "mu" then m.mu else if f = "power" then .arr m.power else if f = "error" then m.error else .none

/-- `... is not None` -/
def Col.present : Col → Bool
  | .none => false
  | _ => true

/-- The list computed by `columns` (`power_measurement.py:252-262`). -/
def Meas.columnsNow (m : Meas) : List String := ["k", "mu", "power", "error"].filter fun f => (m.input f).present

/-- `m.columns`: a cached property that depends on nothing, so a stored value stays. -/
def Meas.getColumns (m : Meas) : List String × Meas :=
  match m.columns with
  | some c => (c, m)
  | none => (m.columnsNow, { m with columns := some m.columnsNow })

/-- `m._error_input = ...` (as in `set_errors_from_cov`, `power_measurement.py:894-902`): what was stored for `columns` is not dropped. -/
def Meas.setError (m : Meas) (e : List ℝ) : Meas := { m with error := .arr e }

/-! ### Writing -/

/-- A file: the shape, the names of the columns, the lines of numbers. -/
structure File where
  shape : ℕ × ℕ
  columns : List String
  rows : List (List ℝ)

/-- `np.atleast_2d` of a column, as one row. -/
def Col.row : Col → List (Option ℝ)
  | .none => [Option.none]
  | .scalar x => [some x]
  | .arr l => l.map some

/-- `data[col] = np.vstack([...]).T` for an array of shape `(N, len(cols))` (`power_measurement.py:47-50`): the rows must be of one length, which must be `N` or one (and is then repeated). -/
def stack (N : ℕ) (cols : List Col) : Except Err (ℕ → ℕ → ℝ) :=
  let rows := cols.map Col.row
  let L := (rows.headD []).length
  if !(rows.all fun r => r.length == L) then .error .valueError
  else if L ≠ N ∧ L ≠ 1 then .error .valueError
  else if rows.any fun r => r.any Option.isNone then .error .typeError
  else .ok fun j i => ((rows.getD i []).getD (if L = 1 then 0 else j) Option.none).getD 0

/-- `data[columns].ravel(order='F')` (`power_measurement.py:56`): one statistic after the other. -/
def lines (rnd : ℝ → ℤ) (N n : ℕ) (datas : List (ℕ → ℕ → ℝ)) : List (List ℝ) :=
  (List.range n).flatMap fun i => (List.range N).map fun j => datas.map fun d => round6 rnd (d j i)

/-- `PowerMeasurements.to_plaintext` (`power_measurement.py:32-56`). -/
def write (rnd : ℝ → ℤ) (ms : List Meas) : Except Err File :=
  match ms with
  | [] => .error .valueError
  | m0 :: _ => do
    let cols := m0.getColumns.1
    let datas ← cols.mapM fun f => stack m0.power.length (ms.map fun m => m.input f)
    .ok { shape := (m0.power.length, ms.length), columns := cols, rows := lines rnd m0.power.length ms.length datas }

/-! ### Reading -/

/-- `PowerMeasurement(power_type, d)` (`power_measurement.py:149-190`) for a dictionary of arrays. -/
def construct (kind : Kind) (d : String → Option (List ℝ)) (value : ℝ) : Except Err Meas :=
  match d "k" with
  | none => .error .keyError
  | some k =>
    match d "power" with
    | none => .error .keyError
    | some p =>
      let e : Col := match d "error" with
        | none => .none
        | some e => .arr e
      match kind with
      | .pkmu =>
        match d "mu" with
        | none => .error .keyError
        | some mu => .ok { kind := .pkmu, k := k, mu := .arr mu, power := p, error := e, ell := none, columns := none }
      | .pole => .ok { kind := .pole, k := k, mu := .none, power := p, error := e, ell := some value, columns := none }

/-- `name.lower().split('_')` -/
def parts (name : List Char) : List (List Char) := (name.map Char.toLower).splitOn '_'

/-- The kind a name stands for (`power_measurement.py:83-85, 93`). -/
def kindOf (name : List Char) : Option Kind :=
  if (parts name).headD [] = ['p', 'k', 'm', 'u'] then some .pkmu else if (parts name).headD [] = ['p', 'o', 'l', 'e'] then some .pole else none

/-- One turn of the loop of `from_array` (`power_measurement.py:88-109`); `data` has shape `(N, _)`. -/
def fromColumn (parse : List Char → Option ℝ) (cols : List String) (data : String → ℕ → ℕ → ℝ) (N : ℕ) (name : List Char) (i : ℕ) : Except Err Meas :=
  match kindOf name with
  | none => .error .valueError
  | some kind =>
    match parse ((parts name).getLastD []) with
    | none => .error .valueError
    | some v => construct kind (fun f => if f ∈ cols then some ((List.range N).map fun j => data f j i) else none) v

/-- `from_array` (`power_measurement.py:59-112`). -/
def fromArray (parse : List Char → Option ℝ) (names : List (List Char)) (cols : List String) (data : String → ℕ → ℕ → ℝ) (N n : ℕ) : Except Err (List Meas) :=
  if names.length ≠ n then .error .valueError
  else if !(names.all fun name => (kindOf name).isSome) then .error .valueError
  else names.zipIdx.mapM fun p => fromColumn parse cols data N p.1 p.2

/-- `from_plaintext` (`power_measurement.py:114-145`): `np.loadtxt` needs lines of one length; the `i`-th column, in the order of Fortran, is the field of that position.  (For a file of one
column numpy raises another exception than the one given here: it lacks `k` or `power` in any case.) -/
def read (parse : List Char → Option ℝ) (names : List (List Char)) (f : File) : Except Err (List Meas) :=
  if f.rows = [] then .error .indexError
  else if !(f.rows.all fun r => r.length == (f.rows.headD []).length) then .error .valueError
  else if ¬ f.columns.Nodup then .error .valueError
  else if (f.rows.headD []).length < f.columns.length then .error .indexError
  else if f.rows.length ≠ f.shape.1 * f.shape.2 then .error .valueError
  else fromArray parse names f.columns (fun c j i => (f.rows.getD (i * f.shape.1 + j) []).getD (f.columns.idxOf c) 0) f.shape.1 f.shape.2

/-! ### Grids -/

/-- A number or nan. -/
abbrev Val := Option ℝ

/-- `PkmuGrid` (`transfers/__init__.py:5-31`): arrays of shape `(nk, nmu)`. -/
structure Grid where
  nk : ℕ
  nmu : ℕ
  kCen : List Val
  muCen : List Val
  k : Fin nk → Fin nmu → Val
  mu : Fin nk → Fin nmu → Val
  modes : Fin nk → Fin nmu → Val

/-- The file: the header and the lines of numbers. -/
structure GridFile where
  header : List ℕ
  body : List (List Val)

/-- `PkmuGrid.to_plaintext` (`transfers/__init__.py:33-43`). -/
def Grid.write (g : Grid) : GridFile :=
  { header := [g.nk, g.nmu]
    body := g.kCen.map (fun x => [x]) ++ g.muCen.map (fun x => [x]) ++
      (List.finRange g.nk).flatMap fun i => (List.finRange g.nmu).map fun j => [g.k i j, g.mu i j, g.modes i j] }

/-- `float(line)`: a line of one number. -/
def single : List Val → Except Err Val
  | [x] => .ok x
  | _ => .error .valueError

/-- `PkmuGrid.from_plaintext` (`transfers/__init__.py:45-60`). -/
def readGrid (f : GridFile) : Except Err Grid :=
  match f.header with
  | [nk, nmu] => do
    let kc ← (f.body.take nk).mapM single
    let mc ← ((f.body.drop nk).take nmu).mapM single
    let data := f.body.drop (nk + nmu)
    if !(data.all fun r => r.length == (data.headD []).length) then .error .valueError
    else if data.flatten.length ≠ nk * nmu * 3 then .error .valueError
    else .ok { nk := nk, nmu := nmu, kCen := kc, muCen := mc
               k := fun i j => data.flatten.getD ((i.val * nmu + j.val) * 3) none
               mu := fun i j => data.flatten.getD ((i.val * nmu + j.val) * 3 + 1) none
               modes := fun i j => data.flatten.getD ((i.val * nmu + j.val) * 3 + 2) none }
  | _ => .error .valueError

open Classical in
/-- `grid.modes[grid.k < kmin] = np.nan; grid.modes[grid.k > kmax] = np.nan` (`power_measurement.py:786-790`); a comparison with nan is false. -/
def Grid.restrict (g : Grid) (kmin kmax : ℝ) : Grid :=
  { g with modes := fun i j =>
      match g.k i j with
      | none => g.modes i j
      | some k => if k < kmin then none else if kmax < k then none else g.modes i j }

end

end Verif.DataFile
