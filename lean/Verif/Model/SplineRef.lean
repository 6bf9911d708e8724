/-
The reference counts of `Spline` (`pyRSD/_gcl/cpp/Spline.cpp:306-366`, `pyRSD/_gcl/include/Spline.h:32-70`).

A `SplineImpl` is an address and its count; a `Spline` is a variable that holds an address or `NULL`.  What the implementation computes is in `Model/Spline.lean`.  One thread.
-/
import Mathlib.Data.Finset.Basic
import Mathlib.Logic.Function.Basic

namespace Verif.SplineRef

/-- `heap p` is the count of the implementation at `p`, `none` if there is nothing there; `live` are the `Spline` variables that exist, `ptr` is their member `impl` -/
structure State where
  heap : ℕ → Option ℤ
  next : ℕ
  live : Finset ℕ
  ptr : ℕ → Option ℕ

def start : State := { heap := fun _ => none, next := 0, live := ∅, ptr := fun _ => none }

/-- `if(impl) impl->refcount++` (`Spline.cpp:327-329,336-338,350-351`); `none` if there is nothing at the address -/
def retain (p : Option ℕ) (σ : State) : Option State :=
  match p with
  | none => some σ
  | some p => (σ.heap p).map fun n => { σ with heap := Function.update σ.heap p (some (n+1)) }

/-- `if(impl && --impl->refcount <= 0) delete impl` (`Spline.cpp:347-348,360-363`) -/
def release (p : Option ℕ) (σ : State) : Option State :=
  match p with
  | none => some σ
  | some p => (σ.heap p).map fun n => { σ with heap := Function.update σ.heap p (if n - 1 ≤ 0 then none else some (n-1)) }

/-- what a program does with splines -/
inductive Op where
  /-- `Spline v = CubicSpline(...)`: a new implementation, with `refcount = 0` (`Spline.h:62`), and `Spline(SplineImpl*)` -/
  | make (v : ℕ)
  /-- `Spline v;` -/
  | null (v : ℕ)
  /-- `Spline v(w);` -/
  | copy (v w : ℕ)
  /-- `v = w;` -/
  | assign (v w : ℕ)
  /-- the end of the life of `v` -/
  | destroy (v : ℕ)
  /-- `v.Evaluate(x)` (`Spline.cpp:368-373`): looks at the implementation unless it is `NULL` -/
  | evaluate (v : ℕ)

/-- one step; `none` if memory is used that is not there -/
def step (σ : State) : Op → Option State
  | .make v =>
    let σ := { σ with heap := Function.update σ.heap σ.next (some 0), next := σ.next + 1, live := insert v σ.live, ptr := Function.update σ.ptr v (some σ.next) }
    retain (σ.ptr v) σ
  | .null v => some { σ with live := insert v σ.live, ptr := Function.update σ.ptr v none }
  | .copy v w =>
    let σ := { σ with live := insert v σ.live, ptr := Function.update σ.ptr v (σ.ptr w) }
    retain (σ.ptr v) σ
  | .assign v w =>
    if σ.ptr v ≠ σ.ptr w then (release (σ.ptr v) σ).bind fun σ => retain (σ.ptr w) { σ with ptr := Function.update σ.ptr v (σ.ptr w) } else some σ
  | .destroy v => (release (σ.ptr v) σ).map fun σ => { σ with live := σ.live.erase v }
  | .evaluate v =>
    match σ.ptr v with
    | none => some σ
    | some p => (σ.heap p).map fun _ => σ

/-- a run -/
def run (σ : State) : List Op → Option State
  | [] => some σ
  | o :: os => (step σ o).bind fun σ => run σ os

end Verif.SplineRef
