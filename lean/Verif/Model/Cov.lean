import Verif.Model.Packed
import Verif.Model.ObjEq
/-
Model of `CovarianceMatrix` objects (`pyRSD/rsdfit/data/covariance_matrix.py`) with coordinates: construction,
arithmetic, selection and k-trimming.  Elements and coordinates are exact rationals.
-/
namespace Verif.Cov
open Verif.Cache (Val objEq)

/-- A coordinate of a row or column: the statistic's label (`mu1`/`ell1`) and the wavenumber (`k1`). -/
abbrev Coord := Rat × Rat

/-- The attributes of a covariance object that matter here: `N`, `_data`, the coordinates of the two axes, and
`inverse_rescaling` (`covariance_matrix.py:87-109`, `217-233`). -/
structure Cov where
  N : Nat
  data : List Rat
  coords1 : List Coord
  coords2 : List Coord
  resc : Rat
  deriving DecidableEq, Repr

/-- `_setup` + `inverse_rescaling = 1.0` (`__construct_direct__`, `covariance_matrix.py:115-127`; `__init__` does the
same at `77-78`). -/
def construct (N : Nat) (m : Nat → Nat → Rat) (c1 c2 : List Coord) : Cov := ⟨N, pack N m, c1, c2, 1⟩

/-- `values` (`covariance_matrix.py:571-576`).  The defaults stand for a crash resp. an uninitialised cell and are never
reached for an object whose storage has the right length (`full_pack`). -/
def Cov.values (c : Cov) : Nat → Nat → Rat := fun i j =>
  match condensedToFull c.data c.N with
  | .ok g => (g i j).getD 0
  | .error _ => 0

/-- `self._data = new` through the `parameter` descriptor (`_cache.py:211-236`): the assignment is skipped when
`obj_eq(new, old)`. -/
def Cov.setData (c : Cov) (new : List Rat) : Cov :=
  if objEq (.array new) (.array c.data) then c else { c with data := new }

/-- The other operand of an arithmetic operation. -/
inductive Operand where
  | scalar (q : Rat)
  | cov (c : Cov)

/-- `__add__`, `__radd__` (`covariance_matrix.py:239-248`). -/
def Cov.add (c : Cov) : Operand → Except Err Cov
  | .scalar q => .ok (c.setData (c.data.map (· + q)))
  | .cov d => if c.N = d.N then .ok (c.setData (List.zipWith (· + ·) c.data d.data)) else .error .assertionError

/-- `__sub__` (`covariance_matrix.py:250-256`); `__rsub__` (`258-259`) calls it unchanged. -/
def Cov.sub (c : Cov) : Operand → Except Err Cov
  | .scalar q => .ok (c.setData (c.data.map (· - q)))
  | .cov d => if c.N = d.N then .ok (c.setData (List.zipWith (· - ·) c.data d.data)) else .error .assertionError

/-- `__mul__`, `__rmul__` (`covariance_matrix.py:261-270`); line 265 reads the non-existent attribute `_datas`. -/
def Cov.mul (c : Cov) : Operand → Except Err Cov
  | .scalar q => .ok (c.setData (c.data.map (· * q)))
  | .cov d => if c.N = d.N then .error .attributeError else .error .assertionError

/-- `__div__`/`__truediv__` (`covariance_matrix.py:272-281`).  Division by zero (numpy: inf/nan) is outside the model. -/
def Cov.div (c : Cov) : Operand → Except Err Cov
  | .scalar q => .ok (c.setData (c.data.map (· / q)))
  | .cov d => if c.N = d.N then .ok (c.setData (List.zipWith (· / ·) c.data d.data)) else .error .assertionError

/-- The operators of the Python expression `x op y`. -/
inductive BinOp where
  | add | sub | mul | div
  deriving DecidableEq, Repr

/-- The expression `x op y` with a covariance matrix on at least one side: Python calls `x.__op__(y)` if `x` is a
covariance matrix and `y.__rop__(x)` otherwise; there is no `__rtruediv__`, so a scalar divided by a covariance matrix is
a `TypeError` in Python 3 (`__rdiv__` at `283-284` is Python 2 only). -/
def pyBin : BinOp → Operand → Operand → Except Err Cov
  | .add, .cov c, y => c.add y
  | .sub, .cov c, y => c.sub y
  | .mul, .cov c, y => c.mul y
  | .div, .cov c, y => c.div y
  | .add, .scalar q, .cov c => c.add (.scalar q)
  | .sub, .scalar q, .cov c => c.sub (.scalar q)
  | .mul, .scalar q, .cov c => c.mul (.scalar q)
  | .div, .scalar _, .cov _ => .error .typeError
  | _, .scalar _, .scalar _ => .error .typeError

/-- `sorted(set(inds[0]).intersection(*inds))` (`indexing.py:53`). -/
def insertSorted (a : Int) : List Int → List Int
  | [] => [a]
  | b :: l => if a < b then a :: b :: l else if a = b then b :: l else b :: insertSorted a l
def sortedSet (l : List Int) : List Int := l.foldr insertSorted []
def axisKey (inds : List (List Int)) : Except Err (List Int) :=
  match inds with
  | [] => .ok []
  | first :: rest =>
    let valid := sortedSet (first.filter fun x => rest.all fun l => l.contains x)
    if rest ≠ [] ∧ valid = [] then .error .nameError   -- the error message itself reads the undefined name `i`
    else .ok valid

/-- `np.take(data, idx, axis)`: indices from `-n` to `n-1`, otherwise `IndexError`; an empty Python list is a float
array, which `np.take` refuses with a `TypeError`. -/
def takeIdx (n : Nat) (idx : List Int) : Except Err (List Nat) :=
  if idx = [] then .error .typeError
  else idx.mapM fun i =>
    if -(n : Int) ≤ i ∧ i < n then .ok (if i < 0 then (i + n).toNat else i.toNat) else .error .indexError

/-- What `sel`/`isel` return: a covariance object or a plain array (shape and content). -/
inductive Selected where
  | cov (c : Cov)
  | array (rows cols : Nat) (m : Nat → Nat → Rat)

/-- The coordinates of the taken rows. -/
def takeCoords (cs : List Coord) (idx : List Nat) : List Coord := idx.map fun i => cs.getD i (0, 0)

/-- `isel` (`covariance_matrix.py:506-526`, `indexing.py:6-65`): per axis the index lists given for its dimensions
(`none` = axis not indexed); then `__finalize__` if the result is square (`129-136`).
Simplification: slices and boolean masks are expanded by the caller, scalars (which drop an axis) are not modelled. -/
def Cov.isel (c : Cov) (a1 a2 : Option (List (List Int))) : Except Err Selected :=
  let key (a : Option (List (List Int))) : Except Err (List Nat) :=
    match a with
    | none => .ok (List.range c.N)
    | some inds => match axisKey inds with
      | .error e => .error e
      | .ok k => takeIdx c.N k
  match key a1, key a2 with
  | .error e, _ => .error e
  | _, .error e => .error e
  | .ok i1, .ok i2 =>
    let m := fun a b => c.values (i1.getD a 0) (i2.getD b 0)
    if i1.length = i2.length then
      .ok (.cov (construct i1.length m (takeCoords c.coords1 i1) (takeCoords c.coords2 i2)))
    else .ok (.array i1.length i2.length m)

/-- Lexicographic order of coordinates, as required by `lexsort_depth` (`indexing.py:83-84`). -/
def coordLe (a b : Coord) : Bool := decide (a.1 < b.1) || (decide (a.1 = b.1) && decide (a.2 ≤ b.2))
def lexsorted : List Coord → Bool
  | a :: b :: l => coordLe a b && lexsorted (b :: l)
  | _ => true

/-- pandas `unique()`: first occurrences in order. -/
def uniq : List Rat → List Rat
  | [] => []
  | a :: l => a :: (uniq l).filter (fun b => decide (b ≠ a))

/-- `ells()` / `mus()` (`covariance_matrix.py:841-851`, `1461-1471`). -/
def Cov.stats (c : Cov) : List Rat := uniq (c.coords1.map (·.1))

/-- A k-limit: `none` is an infinite one. -/
def inside (lo hi : Option Rat) (k : Rat) : Bool :=
  (match lo with | none => true | some l => decide (l ≤ k)) && (match hi with | none => true | some h => decide (k ≤ h))

/-- `mi.get_locs((stat, slice(lo, hi)))` on a lexsorted MultiIndex: positions with that label and `k` within the
inclusive slice (pandas label slices include both ends). -/
def locs (cs : List Coord) (s : Rat) (lo hi : Option Rat) : List Nat :=
  (List.range cs.length).filter fun i => match cs[i]? with
    | some x => decide (x.1 = s) && inside lo hi x.2
    | none => false

/-- numpy broadcasting in `kmin_[:] = kmin`. -/
def broadcast {β : Type} (n : Nat) (l : List β) : Except Err (List β) :=
  match l with
  | [x] => .ok (List.replicate n x)
  | _ => if l.length = n then .ok l else .error .valueError

/-- `trim_k(kmin, kmax)` (`covariance_matrix.py:802-839`, `1422-1459`).  A statistic with no bin inside its limits makes
`np.take` fail with a `TypeError` (see `takeIdx`); differing counts on the two axes make `np.concatenate` fail. -/
def Cov.trimK (c : Cov) (kmin kmax : List (Option Rat)) : Except Err Cov :=
  match broadcast c.stats.length kmin, broadcast c.stats.length kmax with
  | .error e, _ => .error e
  | _, .error e => .error e
  | .ok lo, .ok hi =>
    if c.stats = [] then .error .valueError            -- np.concatenate of nothing
    else if !(lexsorted c.coords1 && lexsorted c.coords2) then .error .valueError
    else
      let pieces1 := (c.stats.zip (lo.zip hi)).map fun e => locs c.coords1 e.1 e.2.1 e.2.2
      let pieces2 := (c.stats.zip (lo.zip hi)).map fun e => locs c.coords2 e.1 e.2.1 e.2.2
      if (pieces1 ++ pieces2).any (·.isEmpty) then .error .typeError
      else if pieces1.map (·.length) ≠ pieces2.map (·.length) then .error .valueError
      else
        let i1 := pieces1.flatten
        let i2 := pieces2.flatten
        .ok (construct i1.length (fun a b => c.values (i1.getD a 0) (i2.getD b 0))
          (takeCoords c.coords1 i1) (takeCoords c.coords2 i2))

end Verif.Cov
