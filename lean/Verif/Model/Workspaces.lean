/-
Model of `WorkspaceManager` (`pyRSD/_gcl/cpp/Quadrature.cpp:243-317`, `pyRSD/_gcl/include/Quadrature.inl:190-232, 245-252`): the table of quadrature workspaces that `Integrate` takes one from and gives
it back to.

Simplifications.  A workspace is its address; `new` returns any address that is not in the table (workspaces are only freed when the program ends).  The one-dimensional and the n-dimensional tables are
the same code up to the test of the dimension: an entry carries its dimension, and the one-dimensional table is the one in which all dimensions are 1.
-/
import Mathlib.Data.List.Sort
import Mathlib.Data.List.Nodup

namespace Verif.Workspaces

/-- An entry of the map: the address of the workspace, its dimension, whether it is in use -/
structure Entry where
  addr : ℕ
  dim : ℕ
  used : Bool
deriving DecidableEq

/-- The map from addresses to flags, in the order of its iteration (that of the addresses) -/
abbrev Table := List Entry

/-- The loop that looks for a free workspace of the dimension and marks it (`Quadrature.cpp:255-261, 290-296`) -/
def take (n : ℕ) : Table → Option (ℕ × Table)
  | [] => none
  | e :: t => if e.dim = n ∧ e.used = false then some (e.addr, { e with used := true } :: t) else (take n t).map fun p => (p.1, e :: p.2)

/-- Insertion of a new entry into the map, by address -/
def insert (e : Entry) : Table → Table
  | [] => [e]
  | d :: t => if e.addr < d.addr then e :: d :: t else d :: insert e t

/-- `get_gk_workspace`, `get_gm_workspace` (`Quadrature.cpp:247-273, 281-307`); `fresh` is the address that `new` returns if it is called -/
def get (n fresh : ℕ) (t : Table) : ℕ × Table :=
  match take n t with
  | some p => p
  | none => (fresh, insert ⟨fresh, n, true⟩ t)

/-- `release_gk_workspace`, `release_gm_workspace` (`Quadrature.cpp:275-278, 309-312`): nothing if the address is not in the map -/
def release (a : ℕ) (t : Table) : Table := t.map fun e => if e.addr = a then { e with used := false } else e

/-- What the callers do, in any order and from any threads: `start n fresh` is the beginning of an integral over `n` dimensions, `finish i` the end of the `i`-th of the integrals under way (they nest,
and run in several threads) (`Quadrature.inl:226-232, 245-252, 341, 475`), `fail i` its end by an exception, which releases nothing -/
inductive Ev
  | start (n fresh : ℕ)
  | finish (i : ℕ)
  | fail (i : ℕ)

/-- The table, the workspaces of the integrals under way, and those that failed integrals have left marked -/
structure St where
  table : Table
  active : List (ℕ × ℕ)
  lost : List (ℕ × ℕ)

/-- The program starts with an empty table (`Quadrature.cpp:314-315`) -/
def St.init : St := ⟨[], [], []⟩

/-- One event -/
def step (s : St) : Ev → St
  | .start n fresh =>
    let p := get n fresh s.table
    ⟨p.2, s.active ++ [(p.1, n)], s.lost⟩
  | .finish i =>
    match s.active[i]? with
    | some p => ⟨release p.1 s.table, s.active.eraseIdx i, s.lost⟩
    | none => s
  | .fail i =>
    match s.active[i]? with
    | some p => ⟨s.table, s.active.eraseIdx i, s.lost ++ [p]⟩
    | none => s

/-- A sequence of events in which `new` returns addresses that are not in use -/
def Ok : St → List Ev → Prop
  | _, [] => True
  | s, .start n fresh :: es => (∀ e ∈ s.table, e.addr ≠ fresh) ∧ Ok (step s (.start n fresh)) es
  | s, e :: es => Ok (step s e) es

/-- The accesses of several threads to the map: `enter` and `leave` bracket the `critical` section of `get_..._workspace` (`Quadrature.cpp:252, 286`), `release` is the access of `release_..._workspace`, which is
in no critical section (`Quadrature.cpp:275-278, 309-312`) -/
inductive Access
  | enter (thread : ℕ)
  | leave (thread : ℕ)
  | release (thread : ℕ)

/-- The thread inside of the critical section after an access, `none` if the access is not possible; the flag says whether the map was accessed by two threads at once -/
def access : Option ℕ × Bool → Access → Option (Option ℕ × Bool)
  | (none, r), .enter t => some (some t, r)
  | (some _, _), .enter _ => none
  | (some u, r), .leave t => if u = t then some (none, r) else none
  | (none, _), .leave _ => none
  | (none, r), .release _ => some (none, r)
  | (some u, r), .release t => if u = t then none else some (some u, true)

/-- A schedule of accesses -/
def accesses : Option ℕ × Bool → List Access → Option (Option ℕ × Bool)
  | s, [] => some s
  | s, a :: as => (access s a).bind fun s' => accesses s' as

end Verif.Workspaces
