/-
Model of the packed storage of `CovarianceMatrix` (`pyRSD/rsdfit/data/covariance_matrix.py`).
A two-dimensional numpy array of shape (N, N) is a function `Nat → Nat → α` read at indices below `N`; a one-dimensional
array is a list.
-/
namespace Verif

/-- Equality of outcomes is decidable (used for concrete examples only). -/
instance instDecidableEqExcept {ε α : Type} [DecidableEq ε] [DecidableEq α] : DecidableEq (Except ε α)
  | .ok a, .ok b => if h : a = b then isTrue (h ▸ rfl) else isFalse (fun e => h (by cases e; rfl))
  | .error a, .error b => if h : a = b then isTrue (h ▸ rfl) else isFalse (fun e => h (by cases e; rfl))
  | .ok _, .error _ => isFalse (fun e => by cases e)
  | .error _, .ok _ => isFalse (fun e => by cases e)

end Verif
namespace Verif.Cov

/-- Exceptions raised by the code of this area. -/
inductive Err where
  | indexError | valueError | typeError | keyError | assertionError | attributeError | nameError
  deriving DecidableEq, Repr

/-- `np.triu_indices(N)`: the positions with `i ≤ j`, row by row (used at `covariance_matrix.py:20`, `232`). -/
def triu (N : Nat) : List (Nat × Nat) :=
  (List.range N).flatMap fun i => (List.range' i (N - i)).map fun j => (i, j)

/-- `self._data = data[np.triu_indices(N)]` (`covariance_matrix.py:231-233`). -/
def pack {α : Type} (N : Nat) (m : Nat → Nat → α) : List α := (triu N).map fun p => m p.1 p.2

/-- `_get_contracted_index(i, j)` (`covariance_matrix.py:196-208`). -/
def contracted (N : Nat) (i j : Int) : Except Err Nat :=
  let i := if i < 0 then i + N else i
  let j := if j < 0 then j + N else j
  if ¬ (0 ≤ i ∧ i < N) then .error .indexError
  else if ¬ (0 ≤ j ∧ j < N) then .error .indexError
  else
    let (i, j) := if i > j then (j, i) else (i, j)
    .ok (i * ((N : Int) - 1) - ((List.range i.toNat).sum : Nat) + j).toNat

/-- `self._data[self._get_contracted_index(i, j)]`, the element access inside `__getitem__`
(`covariance_matrix.py:427`); a position beyond the end of the array is numpy's `IndexError`. -/
def elem {α : Type} (N : Nat) (data : List α) (i j : Int) : Except Err α :=
  match contracted N i j with
  | .error e => .error e
  | .ok n => match data[n]? with
    | some v => .ok v
    | none => .error .indexError

/-- `__getitem__` with a row key and a column key expanded to index lists (`covariance_matrix.py:408-429`):
`for i, j in itertools.product(*key)`, in row-major order.  Simplification: the expansion of slices
(`range(*k.indices(N))`), boolean masks (`nonzero`) and single integers to lists is done by the caller; the final
`reshape` keeps row-major order and is left out. -/
def getBlock {α : Type} (N : Nat) (data : List α) (rows cols : List Int) : Except Err (List α) :=
  (rows.flatMap fun i => cols.map fun j => (i, j)).mapM fun p => elem N data p.1 p.2

/-- One write `toret[p] = v`. -/
def write {α : Type} (g : Nat → Nat → Option α) (p : Nat × Nat) (v : α) : Nat → Nat → Option α :=
  fun i j => if (i, j) = p then some v else g i j

/-- `condensed_to_full(data, N)` (`covariance_matrix.py:16-26`): `np.empty` (no cell defined), `toret[upper_inds] =
data[:]` (numpy requires equal lengths; broadcasting of a length-1 array is left out), then `toret[i, j] = toret[j, i]`
over `np.tril_indices(N)` with the right-hand side read first.  A cell is `none` if never written. -/
def condensedToFull {α : Type} (data : List α) (N : Nat) : Except Err (Nat → Nat → Option α) :=
  if data.length = (triu N).length then
    let upper := ((triu N).zip data).foldl (fun g e => write g e.1 e.2) (fun _ _ => none)
    .ok fun i j => if j ≤ i ∧ i < N then upper j i else upper i j
  else .error .valueError

/-- `np.diag(data)` for one-dimensional input (`covariance_matrix.py:68`). -/
def npDiag {α : Type} [Zero α] (d : List α) : Nat → Nat → α := fun i j => if i = j then d.getD i 0 else 0

/-- `diag` (`covariance_matrix.py:556-562`). -/
def diag {α : Type} (N : Nat) (data : List α) : Except Err (List α) :=
  (List.range N).mapM fun (i : Nat) => elem N data (i : Int) (i : Int)

end Verif.Cov
