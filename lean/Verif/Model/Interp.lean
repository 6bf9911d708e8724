/-
Model of `RegularGridInterpolator` (`pyRSD/rsd/_interpolate.py`) and of its fallback in the interpolation tables (`pyRSD/rsd/tools.py`).

Points and table values are real numbers; `none` stands for a result that is not a finite number (0/0).  Trailing dimensions of the table are independent of
each other: a table with one value per node is modelled.  Python's `values[tuple]` is the function `table`.
-/
import Mathlib.Data.Real.Basic
import Mathlib.Data.List.Basic

namespace Verif.Interp

noncomputable section

/-- `np.searchsorted(grid, x)` (side 'left', ascending `grid`): the number of nodes below `x` (`_interpolate.py:195`) -/
def searchsorted (g : List ℝ) (x : ℝ) : ℕ := (g.takeWhile fun a => decide (a < x)).length

/-- Indexing a sequence with a Python integer. -/
def pyGet (g : List ℝ) (i : ℤ) : ℝ := if i < 0 then g.getD (g.length + i).toNat 0 else g.getD i.toNat 0

/-- The cell of a coordinate (`_interpolate.py:195-197`) -/
def cellIndex (g : List ℝ) (x : ℝ) : ℤ :=
  let i : ℤ := searchsorted g x - 1
  let i := if i < 0 then 0 else i
  if i > (g.length : ℤ) - 2 then (g.length : ℤ) - 2 else i

/-- The distance to the lower node in units of the cell (`_interpolate.py:199-200`) -/
def normDistance (g : List ℝ) (x : ℝ) : ℝ :=
  (x - pyGet g (cellIndex g x)) / (pyGet g (cellIndex g x + 1) - pyGet g (cellIndex g x))

/-- `itertools.product(*lists)` -/
def product : List (List ℤ) → List (List ℤ)
  | [] => [[]]
  | l :: t => l.flatMap fun a => (product t).map (a :: ·)

/-- The weight of a corner (`_interpolate.py:174-176`) -/
def weight (edge indices : List ℤ) (ys : List ℝ) : ℝ :=
  (edge.zip (indices.zip ys)).foldl (fun w e => w * (if e.1 = e.2.1 then 1 - e.2.2 else e.2.2)) 1

/-- `_evaluate_linear` (`_interpolate.py:165-178`) for one point -/
def evaluateLinear (table : List ℤ → ℝ) (indices : List ℤ) (ys : List ℝ) : ℝ :=
  (product (indices.map fun i => [i, i + 1])).foldl (fun s e => s + table e * weight e indices ys) 0

/-- `_evaluate_nearest` (`_interpolate.py:180-184`) for one point.  The index is a list of arrays, which numpy before 1.23 treats as a tuple, as modelled here. -/
def evaluateNearest (table : List ℤ → ℝ) (indices : List ℤ) (ys : List ℝ) : ℝ :=
  table (List.zipWith (fun i y => if y ≤ 1 / 2 then i else i + 1) indices ys)

/-- interpolation methods -/
inductive Method where
  | linear
  | nearest
  deriving DecidableEq

/-- The interpolator object (`_interpolate.py:82-118`): node coordinates, table, default method, `bounds_error`, `fill_value` (a `fill_value` of
`some none` is `nan`, the default). -/
structure Interp where
  grid : List (List ℝ)
  table : List ℤ → ℝ
  method : Method
  boundsError : Bool
  fill : Option (Option ℝ)

/-- outcome of a call -/
inductive Out where
  | values (v : List (Option ℝ))
  | domainError
  | valueError
  | indexError

/-- The constructor with its checks (`_interpolate.py:82-118`); `shape` is the shape of the table. -/
def mkInterp (grid : List (List ℝ)) (shape : List ℕ) (table : List ℤ → ℝ) (method : Method) (boundsError : Bool) (fill : Option (Option ℝ)) : Option Interp :=
  if shape.length < grid.length then none
  else if (grid.zip shape).all fun gs => decide (gs.1.IsChain (· < ·)) && decide (gs.2 = gs.1.length) then some ⟨grid, table, method, boundsError, fill⟩
  else none

/-- `(grid[0] <= p) and (p <= grid[-1])` (`_interpolate.py:150-151`) -/
def inside (g : List ℝ) (x : ℝ) : Bool := decide (g.headD 0 ≤ x) && decide (x ≤ g.getLastD 0)

/-- The evaluation of one point before the fill value is inserted (`_interpolate.py:155-159`): not a finite number if a dimension has one node. -/
def evalPoint (I : Interp) (method : Method) (x : List ℝ) : Option ℝ :=
  if I.grid.any (fun g => g.length < 2) then none
  else
    let indices := List.zipWith cellIndex I.grid x
    let ys := List.zipWith normDistance I.grid x
    match method with
    | .linear => some (evaluateLinear I.table indices ys)
    | .nearest => some (evaluateNearest I.table indices ys)

/-- out-of-bounds mask (`_interpolate.py:201-203`) and fill value (`_interpolate.py:160-161`) -/
def fillPoint (I : Interp) (x : List ℝ) (v : Option ℝ) : Option ℝ :=
  match I.boundsError, I.fill with
  | false, some f => if (I.grid.zip x).any (fun gx => decide (gx.2 < gx.1.headD 0) || decide (gx.2 > gx.1.getLastD 0)) then f else v
  | _, _ => v

/-- `__call__` (`_interpolate.py:120-163`) for an array of points -/
def call (I : Interp) (xi : List (List ℝ)) (method : Option Method) : Out :=
  let m := method.getD I.method
  if xi.any (fun x => decide (x.length ≠ I.grid.length)) then .valueError
  else if I.grid.any (fun g => g.isEmpty) then .indexError
  else if I.boundsError && !(xi.all fun x => (I.grid.zip x).all fun gx => inside gx.1 gx.2) then .domainError
  else .values (xi.map fun x => fillPoint I x (evalPoint I m x))

/-- `BiasToMassRelation.__call__` (`tools.py:530-536`) and `zeldovich_from_table` (`hzpt/interpolated.py:8-19`): the table if the points are inside, otherwise computed
afresh.  `fresh` is the computation (a root finder, the Zel'dovich integral). -/
def fromTable (I : Interp) (interpolate : Bool) (fresh : List (List ℝ) → Out) (xi : List (List ℝ)) : Out :=
  if interpolate then
    match call I xi none with
    | .domainError => fresh xi
    | r => r
  else fresh xi

end

end Verif.Interp
