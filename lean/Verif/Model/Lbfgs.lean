/-
Model of the limited-memory BFGS minimiser `pyRSD/rsdfit/solvers/lbfgs.py`.

Parameter vectors are `Fin n → ℝ` (exact arithmetic).  A vector that numpy would fill with nan is `none`; nan enters only through the two
divisions by the norm of the gradient (lines 399 and 500/521) and the quotient at line 486.  Logging, `record_progress` and `display` are left out
(they only read the state).
-/
import Mathlib.Data.Matrix.Mul
import Mathlib.Data.Real.Sqrt
import Mathlib.Data.Fintype.BigOperators

namespace Verif.Lbfgs

noncomputable section

/-- A parameter or gradient vector. -/
abbrev Vec (n : ℕ) := Fin n → ℝ

/-- `np.linalg.norm` of a vector -/
def vnorm {n : ℕ} (v : Vec n) : ℝ := Real.sqrt (v ⬝ᵥ v)

/-- `State` (`lbfgs.py:22-92`): `X, F, G, Gnorm`; `Gnorm` defaults to the norm of `G` and is never passed otherwise. -/
structure State (n : ℕ) where
  X : Vec n
  F : ℝ
  G : Vec n

/-- `State.Gnorm` (`lbfgs.py:49-51`) -/
def State.gnorm {n : ℕ} (s : State n) : ℝ := vnorm s.G

/-- One row of the three arrays `s`, `y`, `rho` (`lbfgs.py:101-103`); they are always rolled and overwritten together. -/
structure Slot (n : ℕ) where
  s : Vec n
  y : Vec n
  rho : ℝ

/-- `LimitedMemoryInverseHessian` (`lbfgs.py:94-103`): `H0k` and `M` rows. -/
structure Hess (n : ℕ) where
  h0 : ℝ
  slots : List (Slot n)

/-- `LimitedMemoryInverseHessian(1., (M, N))` (`lbfgs.py:98-103`) -/
def Hess.fresh (n M : ℕ) : Hess n := ⟨1, List.replicate M ⟨0, 0, 0⟩⟩

/-- `np.roll(a, 1, axis=0)`: the last row comes first. -/
def roll {α : Type} (l : List α) : List α := l.getLast?.toList ++ l.dropLast

/-- `self.s[0] = ...` -/
def setFirst {α : Type} (a : α) : List α → List α
  | [] => []
  | _ :: t => a :: t

/-- `rhok` of `update` (`lbfgs.py:130-139`); numpy returns inf for a division by zero, replaced by 1000. -/
def rhoOf {n : ℕ} (sk yk : Vec n) : ℝ := if yk ⬝ᵥ sk = 0 then 1000 else 1 / (yk ⬝ᵥ sk)

/-- `LimitedMemoryInverseHessian.update` (`lbfgs.py:116-149`): the new object and whether `LBFGSStepError` was raised (the rows are already rolled then). -/
def Hess.update {n : ℕ} (H : Hess n) (sk yk : Vec n) : Hess n × Bool :=
  let rolled := roll H.slots
  let yy := vnorm yk * vnorm yk
  let rhok := rhoOf sk yk
  if yy = 0 then (⟨H.h0, rolled⟩, true)
  else (⟨1 / (rhok * yy), setFirst ⟨sk, yk, rhok⟩ rolled⟩, false)

/-- The first loop of `compute_LBFGS_step` (`lbfgs.py:389-391`) over rows `0, 1, ..`: the array `a` and the final `q`. -/
def loop1 {n : ℕ} : List (Slot n) → Vec n → List ℝ × Vec n
  | [], q => ([], q)
  | p :: t, q =>
    let a := p.rho * (p.s ⬝ᵥ q)
    let r := loop1 t (q - a • p.y)
    (a :: r.1, r.2)

/-- The second loop (`lbfgs.py:401-403`), rows in the order given. -/
def loop2 {n : ℕ} : List (Slot n × ℝ) → Vec n → Vec n
  | [], z => z
  | (p, a) :: t, z =>
    let beta := p.rho * (p.y ⬝ᵥ z)
    loop2 t (z + (a - beta) • p.s)

/-- `compute_LBFGS_step(it, a)` (`lbfgs.py:365-405`); `none` for a vector of nan (division by a zero norm at the first iteration). -/
def lbfgsStep {n : ℕ} (M : ℕ) (H : Hess n) (st : State n) (it : ℕ) : Option (Vec n) :=
  let k := min M it
  let rows := H.slots.take k
  let r := loop1 rows st.G
  let z := H.h0 • r.2
  let z : Option (Vec n) := if it = 0 then (if st.gnorm = 0 then none else some ((1 / st.gnorm) • z)) else some z
  z.map (loop2 (rows.zip r.1).reverse)

/-- `costheta < 0.01` (`lbfgs.py:486-488`); comparisons with nan are false. -/
def angleBad {n : ℕ} (z : Option (Vec n)) (st : State n) : Bool :=
  match z with
  | none => false
  | some z => if vnorm z = 0 ∨ st.gnorm = 0 then false else decide ((z ⬝ᵥ st.G) / vnorm z / st.gnorm < 1 / 100)

/-- `state['G'] / state['Gnorm']` (`lbfgs.py:500`, `lbfgs.py:521`) -/
def steepest {n : ℕ} (st : State n) : Option (Vec n) := if st.gnorm = 0 then none else some ((1 / st.gnorm) • st.G)

/-- The outcome of `scipy.optimize.linesearch.line_search_armijo` called by `do_linesearch` (`lbfgs.py:445-446`): a step length and the value of
`f` there, `None`, or an exception raised by `f`. -/
inductive Ls where
  | step (alpha newF : ℝ)
  | fail
  | raised

/-- What the minimiser calls: the line search (which evaluates `f`) and the gradient (`none`: it raised). The search direction may be nan. -/
structure Oracle (n : ℕ) where
  search : State n → Option (Vec n) → Ls
  fprime : Vec n → Option (Vec n)

/-- `options` (`lbfgs.py:236-243`): `None` tolerances are not tested; `eps` is the machine precision. -/
structure Options where
  factr : Option ℝ
  gtol : Option ℝ
  maxIter : ℕ
  test : Bool
  eps : ℝ

/-- `self.data` (`lbfgs.py:201-216`) with `M` -/
structure Opt (n : ℕ) where
  M : ℕ
  it : ℕ
  status : ℤ
  H : Hess n
  curr : State n
  prev : State n

/-- `LBFGS.__init__` (`lbfgs.py:158-216`) given `F = f(p0)` and `G = fprime(p0)`; the restart of `lbfgs_solver.py:147-151` replaces `it`. -/
def Opt.init {n : ℕ} (M : ℕ) (it : ℕ) (st : State n) : Opt n := ⟨M, it, 0, Hess.fresh n M, st, st⟩

open Classical in
/-- `check_convergence` (`lbfgs.py:281-324`): the status it stores. -/
def statusOf {n : ℕ} (o : Options) (d : Opt n) : ℤ :=
  if d.it = 0 then 0
  else if o.maxIter ≤ d.it then -1
  else if o.test = false then 0
  else if ∃ factr, o.factr = some factr ∧ |d.curr.F - d.prev.F| / max (max d.curr.F d.prev.F) 1 ≤ factr * o.eps then 2
  else if ∃ gtol, o.gtol = some gtol ∧ ∀ i, |d.curr.G i| ≤ gtol then 3
  else 0

/-- How one pass of the loop ends: another pass, `break`/end of the loop, or an exception that leaves `minimize`. -/
inductive Pass (n : ℕ) where
  | again (d : Opt n)
  | stop (d : Opt n)
  | raised (d : Opt n)

/-- `newX = state['X'] + alpha * pk` with `pk = -z` (`lbfgs.py:452`) -/
def newX {n : ℕ} (st : State n) (alpha : ℝ) (z : Vec n) : Vec n := st.X + alpha • (-z)

/-- The end of a pass (`lbfgs.py:529-546`): the new point is `newX` with value `newF`. -/
def accept {n : ℕ} (O : Oracle n) (d : Opt n) (x : Vec n) (newF : ℝ) : Pass n :=
  match O.fprime x with
  | none => .raised { d with prev := d.curr }
  | some g =>
    let curr : State n := ⟨x, newF, g⟩
    let sk := curr.X - d.curr.X
    let yk := curr.G - d.curr.G
    let u := d.H.update sk yk
    if u.2 then .stop { d with prev := d.curr, curr := curr, H := u.1, status := -5 }
    else .again { d with prev := d.curr, curr := curr, H := u.1, it := d.it + 1 }

/-- The line search with the fall-back to the gradient direction (`lbfgs.py:506-527`); `z` the direction, `steep` whether it already is the
gradient. The bare `except` of line 525 turns any exception of the second search into status -4. -/
def searchFrom {n : ℕ} (O : Oracle n) (d : Opt n) (z : Option (Vec n)) (steep : Bool) : Pass n :=
  match O.search d.curr (z.map (- ·)) with
  | .raised => .raised d
  | .step alpha newF =>
    match z with
    | some z => accept O d (newX d.curr alpha z) newF
    | none => .stop { d with status := -4 }    -- unreachable: `line_search_armijo` fails on nan (see `Contract`)
  | .fail =>
    if steep then .stop { d with status := -4 }
    else
      match steepest d.curr with
      | none => .stop { d with status := -4 }
      | some g =>
        match O.search d.curr (some (-g)) with
        | .step alpha newF => accept O { d with H := Hess.fresh n d.M } (newX d.curr alpha g) newF
        | _ => .stop { d with status := -4 }

/-- One pass of the `while` loop of `minimize` (`lbfgs.py:471-548`). -/
def pass {n : ℕ} (O : Oracle n) (o : Options) (d : Opt n) : Pass n :=
  let d := { d with status := statusOf o d }
  if d.status ≠ 0 then .stop d
  else
    let z := lbfgsStep d.M d.H d.curr d.it
    if angleBad z d.curr then searchFrom O { d with H := Hess.fresh n d.M } (steepest d.curr) true
    else searchFrom O d z false

/-- The outcome of `run_nlopt`/`minimize` within `fuel` passes: the states after each completed iteration (in order) and the last data with
how it ended (`none`: more passes are needed). -/
def minimize {n : ℕ} (O : Oracle n) (o : Options) : ℕ → Opt n → List (Opt n) × Option (Opt n × Bool)
  | 0, _ => ([], none)
  | fuel + 1, d =>
    match pass O o d with
    | .again d' => let r := minimize O o fuel d'; (d' :: r.1, r.2)
    | .stop d' => ([], some (d', false))
    | .raised d' => ([], some (d', true))

end

end Verif.Lbfgs
