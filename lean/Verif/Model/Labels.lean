/-
Model of selection by label in covariance matrices of wedges and multipoles (`pyRSD/rsdfit/data/indexing.py:67-95`, `183-209`, `279-314`;
`pyRSD/rsdfit/data/covariance_matrix.py:463-504`, `780-800`, `1400-1420`), of the iteration over blocks and of the correlation matrix (`578-590`).

Selection by position is the model of C14 (`Cov.isel`).  Labels are exact rationals; elements too, and reals in the correlation matrix.  pandas (`get_indexer` with
`method='nearest'`, `MultiIndex.get_locs`, `lexsort_depth`) is modelled by what its documentation and source say.  Label slices have no step.  Matrices with one label per axis
(the base class) are not modelled.
-/
import Verif.Model.Cov
import Mathlib.Algebra.Order.Group.Abs
import Mathlib.Data.Rat.Cast.Order
import Mathlib.Analysis.Real.Sqrt

namespace Verif.Labels

open Verif.Cov

/-- strictly increasing -/
def inc : List Rat → Bool
  | a :: b :: l => decide (a < b) && inc (b :: l)
  | _ => true

/-- strictly decreasing -/
def dec : List Rat → Bool
  | a :: b :: l => decide (b < a) && dec (b :: l)
  | _ => true

/-- pandas `_get_nearest_indexer`: the candidates are the last position `left` not after `v` and the first position `right` not before it (`none` is -1, which reads the last
element); `strict` compares with `<` (increasing labels), otherwise with `<=` -/
def pick (u : List Rat) (v : Rat) (left right : Option Nat) (strict : Bool) : Nat :=
  let n := u.length
  let dl := |u.getD (left.getD (n - 1)) 0 - v|
  let dr := |u.getD (right.getD (n - 1)) 0 - v|
  if (if strict then decide (dl < dr) else decide (dl ≤ dr)) || right.isNone then left.getD (n - 1) else right.getD (n - 1)

/-- position before, if there is one -/
def before (c : Nat) : Option Nat := if c = 0 then none else some (c - 1)

/-- the position, if there is one -/
def within (c n : Nat) : Option Nat := if c < n then some c else none

/-- `index.get_indexer([v], method='nearest')` (`indexing.py:208`), on unique labels -/
def nearestIdx (u : List Rat) (v : Rat) : Except Err Nat :=
  if u = [] then .error .indexError
  else if inc u then .ok (pick u v (before (u.countP fun x => decide (x ≤ v))) (within (u.countP fun x => decide (x < v)) u.length) true)
  else if dec u then .ok (pick u v (before (u.countP fun x => decide (v ≤ x))) (within (u.countP fun x => decide (v < x)) u.length) false)
  else .error .valueError

/-- `get_nearest` (`indexing.py:183-209`): the nearest labels among the unique labels -/
def getNearest (labels : List Rat) (vs : List Rat) : Except Err (List Rat) :=
  vs.mapM fun v => match nearestIdx (uniq labels) v with
    | .error e => .error e
    | .ok i => .ok ((uniq labels).getD i 0)

/-- what can be asked for along a dimension: values, or a slice of labels (`none`: open) -/
inductive Label where
  | near (vs : List Rat)
  | slice (lo hi : Option Rat)

/-- the labels of a dimension that are asked for, with values replaced by the nearest labels (`indexing.py:75-80`); `none`: all -/
inductive Chosen where
  | all
  | these (ls : List Rat)
  | slice (lo hi : Option Rat)

def choose (labels : List Rat) : Option Label → Except Err Chosen
  | none => .ok .all
  | some (.near vs) => match getNearest labels vs with
    | .error e => .error e
    | .ok ls => .ok (.these ls)
  | some (.slice lo hi) => .ok (.slice lo hi)

/-- is the label asked for? (`MultiIndex.get_locs`, label slices include both ends) -/
def Chosen.has : Chosen → Rat → Bool
  | .all, _ => true
  | .these ls, x => ls.contains x
  | .slice lo hi, x => inside lo hi x

/-- `remap_label_indexers` for one axis (`indexing.py:67-86`) -/
def locate (cs : List Coord) (stat k : Option Label) : Except Err (List Nat) :=
  match choose (cs.map (·.1)) stat, choose (cs.map (·.2)) k with
  | .error e, _ => .error e
  | _, .error e => .error e
  | .ok s, .ok q =>
    if lexsorted cs then .ok ((List.range cs.length).filter fun i => s.has (cs.getD i (0, 0)).1 && q.has (cs.getD i (0, 0)).2)
    else .error .valueError

/-- `sel` (`covariance_matrix.py:484-504`, `indexing.py:279-288`): what is asked for along the statistic and the wavenumber of both axes -/
def sel (c : Cov) (s1 k1 s2 k2 : Option Label) : Except Err Selected :=
  match locate c.coords1 s1 k1, locate c.coords2 s2 k2 with
  | .error e, _ => .error e
  | _, .error e => .error e
  | .ok l1, .ok l2 => c.isel (some [l1.map Int.ofNat]) (some [l2.map Int.ofNat])

/-- `for block in C` (`covariance_matrix.py:780-788`, `1400-1408`) -/
def blocks (c : Cov) : Except Err (List Selected) :=
  ((uniq (c.coords1.map (·.1))).flatMap fun a => (uniq (c.coords2.map (·.1))).map fun b => (a, b)).mapM fun p => sel c (some (.near [p.1])) none (some (.near [p.2])) none

/-- `C.enumerate(upper)` (`covariance_matrix.py:790-800`, `1410-1420`): the block number is unravelled to its row and column -/
def enumerate (c : Cov) (upper : Bool) : Except Err (List (Rat × Rat × Selected)) :=
  let e1 := uniq (c.coords1.map (·.1))
  let e2 := uniq (c.coords2.map (·.1))
  match blocks c with
  | .error e => .error e
  | .ok bs => .ok ((bs.zipIdx.filter fun b => !(upper && decide (b.2 / e2.length > b.2 % e2.length))).map fun b =>
      (e1.getD (b.2 / e2.length) 0, e2.getD (b.2 % e2.length) 0, b.1))

noncomputable section

/-- `numpy.allclose(new, old)` for one element (`_cache.py:194-210`) -/
def close (new old : ℝ) : Prop := |new - old| ≤ 1 / 100000000 + 1 / 100000 * |old|

open Classical in
/-- `normalized` (`covariance_matrix.py:578-590`): the packed elements of the new object.  The assignment is skipped if the new elements are `allclose` to the old ones
(`_cache.py:211-236`).  Variances are positive; otherwise numpy gives infinities or `nan`. -/
def normalized (N : Nat) (data : List ℝ) : Except Err (List ℝ) :=
  match diag N data with
  | .error e => .error e
  | .ok d =>
    let norm := (triu N).map fun p => Real.sqrt (d.getD p.1 0 * d.getD p.2 0)
    let new := List.zipWith (fun a b => a / b) data norm
    if ∀ n < data.length, close (new.getD n 0) (data.getD n 0) then .ok data else .ok new

end

end Verif.Labels
