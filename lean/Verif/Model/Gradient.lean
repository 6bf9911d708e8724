/-
Model of the gradient of the model power: `pyRSD/rsd/power/gradient.py` and `ParameterSet.constraint_derivative`
(`pyRSD/rsdfit/parameters/parameterset.py:495-564`).

Arrays over the evaluation points `(k, mu)` are functions of an index type `ι`; numbers are exact reals.
-/
import Mathlib.Data.Real.Basic
import Mathlib.Data.Fintype.Pi

namespace Verif.Grad

noncomputable section

variable {N ι : Type} [DecidableEq N]

/-- The ways `compute` fails. -/
inductive GErr where
  | unregistered        -- `ValueError` of `gradient.py:61`
  | notFree             -- `ValueError` of `parameterset.py:538, 541`
  | recursion           -- the recursion limit of the interpreter
  deriving DecidableEq

/-- What `compute` consults: the `children` sets, `pars.valid_model_params`, `pars.free_names`, `constrained`, the registered
derivatives evaluated at the current state of the model and at all points (`dclass.eval(m, pars, k, mu)`), and
`autograd c x`, the derivative of the value of the constrained parameter `c` by the free parameter `x`
(`parameterset.py:547-559`; automatic differentiation is trusted). -/
structure Env (N ι : Type) where
  children : N → List N
  valid : N → Bool
  free : N → Bool
  constrained : N → Bool
  registry : N → Option (ι → ℝ)
  autograd : N → N → ℝ

/-- `constraint_derivative(name, wrt)` (`parameterset.py:521-564`) on names of parameters.  The recursive call of line 533 is
unfolded (its `wrt` is free). -/
def constraintDerivative (g : Env N ι) (name wrt : N) : Except GErr ℝ :=
  if name = wrt then .ok 1                                                  -- lines 521-522
  else if !g.free wrt && g.free name then                                   -- lines 531-533
    if !g.constrained wrt then .error .notFree else .ok (g.autograd wrt name)⁻¹
  else if !g.free wrt then .error .notFree                                  -- lines 536-538
  else if !g.constrained name then .error .notFree                          -- lines 539-541
  else .ok (g.autograd name wrt)

open Classical in
/-- The loop over the children (`gradient.py:67-77`); `rec` is `compute`. -/
def addChildren (g : Env N ι) (rec : N → Except GErr (ι → ℝ)) (name : N) : List N → (ι → ℝ) → Except GErr (ι → ℝ)
  | [], acc => .ok acc
  | c :: cs, acc =>
    match rec c with
    | .error e => .error e
    | .ok a =>
      if a ≠ 0 then                                                         -- line 72, `numpy.count_nonzero(a)`
        match constraintDerivative g c name with
        | .error e => .error e
        | .ok b => addChildren g rec name cs (fun i => acc i + a i * b)     -- line 77
      else addChildren g rec name cs acc

/-- `compute(registry, name, m, pars, k, mu)` (`gradient.py:28-79`).  `fuel` is the recursion limit. -/
def compute (g : Env N ι) : Nat → N → Except GErr (ι → ℝ)
  | 0, _ => .error .recursion
  | fuel + 1, name =>
    if !(g.valid name || g.free name) then .ok 0                            -- lines 48-53
    else
      match g.registry name with
      | none => .error .unregistered                                        -- lines 60-61
      | some d => addChildren g (compute g fuel) name (g.children name) d   -- lines 62-79

/-! ### `PkmuGradient.__call__` -/

variable {n : ℕ} {E : Type}

/-- `results = [self._call_power(k, mu, t) for t in tasks]` (`gradient.py:190`): each call moves parameters and model to `t`
(`_call_power`, lines 212-217), the first exception ends the loop. -/
def callAll (power : (Fin n → ℝ) → Except E (ι → ℝ)) : List (Fin n → ℝ) → Except E (List (ι → ℝ))
  | [] => .ok []
  | t :: ts =>
    match power t with
    | .error e => .error e
    | .ok p =>
      match callAll power ts with
      | .error e => .error e
      | .ok ps => .ok (p :: ps)

/-- `for i, name in enumerate(free_names): toret[i] = compute(...)` (`gradient.py:170-176`). -/
def analyticRows (analytic : Fin n → Except E (ι → ℝ)) (skip : Fin n → Bool) : List (Fin n) → (Fin n → ι → ℝ) → Except E (Fin n → ι → ℝ)
  | [], toret => .ok toret
  | i :: is, toret =>
    if skip i then analyticRows analytic skip is toret
    else
      match analytic i with
      | .error e => .error e
      | .ok row => analyticRows analytic skip is (fun j => if j = i then row else toret j)

/-- `toret[ii] = rows` (`gradient.py:199`): assignment with an index list. -/
def assignRows : List (Fin n) → List (ι → ℝ) → (Fin n → ι → ℝ) → (Fin n → ι → ℝ)
  | i :: ii, r :: rs, toret => assignRows ii rs (fun j => if j = i then r else toret j)
  | _, _, toret => toret

/-- `PkmuGradient.__call__(k, mu, theta, epsilon, numerical=...)` with arrays `k`, `mu` (`gradient.py:131-207`).
* `power t`: `self._call_power(k, mu, t)`: the power after moving parameters and model to `t`;
* `analytic s i`: what `compute` returns for the `i`-th free parameter when parameters and model are at `s`;
* `numIdx`: `self.numerical_indices`;  `eps`: `epsilon`, one step per parameter (a scalar is the constant function);
* `s`: the values of the free parameters before the call.
Returns the result and the values of the free parameters afterwards.  (`use_cache` is C08, `pool.map` is `map`.) -/
def gradCall (power : (Fin n → ℝ) → Except E (ι → ℝ)) (analytic : (Fin n → ℝ) → Fin n → Except E (ι → ℝ)) (numIdx : List (Fin n))
    (numerical : Bool) (eps theta s : Fin n → ℝ) : Except E (Fin n → ι → ℝ) × (Fin n → ℝ) :=
  match analyticRows (analytic s) (fun i => numerical || decide (i ∈ numIdx)) (List.finRange n) (fun _ _ => 0) with
  | .error e => (.error e, s)
  | .ok toret =>
    let ii := if !numerical then numIdx else List.finRange n                                        -- lines 182-185
    let plus : List (Fin n → ℝ) := ii.map (fun i => fun j => theta j + (if i = j then eps j else 0))
    let minus : List (Fin n → ℝ) := ii.map (fun i => fun j => theta j - (if i = j then eps j else 0))
    match callAll power (plus ++ minus) with                                                        -- lines 186-190
    | .error e => (.error e, theta)                                                                 -- `finally`, line 203
    | .ok results =>
      let r0 := results.take ii.length                                                              -- line 193, `reshape`
      let r1 := results.drop ii.length
      let rows := List.zipWith (fun (i : Fin n) (p : (ι → ℝ) × (ι → ℝ)) => fun x => (p.1 x - p.2 x) / (2 * eps i)) ii (r0.zip r1)
      (.ok (assignRows ii rows toret), theta)

/-- The same with scalar `k` or `mu` (`gradient.py:155-161, 205`): arrays of length one, and `toret = toret[0]`. -/
def gradCallScalar [NeZero n] (power : (Fin n → ℝ) → Except E (Fin 1 → ℝ)) (analytic : (Fin n → ℝ) → Fin n → Except E (Fin 1 → ℝ))
    (numIdx : List (Fin n)) (numerical : Bool) (eps theta s : Fin n → ℝ) : Except E (List ℝ) × (Fin n → ℝ) :=
  let r := gradCall power analytic numIdx numerical eps theta s
  (r.1.map (fun toret => (List.finRange 1).map (toret 0)), r.2)

end

end Verif.Grad
