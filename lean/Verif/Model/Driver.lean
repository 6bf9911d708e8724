/-
Model of the probability functions of the fitting driver: `pyRSD/rsdfit/driver.py:722-990`, with the parts of
`pyRSD/rsdfit/theory/base.py` they use (`set_free_parameters` 269-308, `preserve` 436-452, `lnprior`, `dlnprior` 527-549,
`get_model_callable`, `get_grad_model_callable` 630-712).

The model object is represented by the values of the free parameters it was last updated with and by its other settings
(the constrained parameters are functions of the free ones: C23).  That its predictions depend on nothing else is C01, C61, C65.
-/
import Verif.Model.Prior
import Mathlib.Data.Matrix.Mul
import Mathlib.Algebra.BigOperators.Fin

namespace Verif.Driver

open Verif.Priors Verif.Priors.Flt

noncomputable section

/-- The exceptions. -/
inductive DErr (E : Type) where
  | model (e : E)        -- raised by the model or the transfer functions
  | shape                -- numpy: operands of different lengths
  | runtime              -- `RuntimeError` of `driver.py:861` and `theory/base.py:297, 306`
  | value                -- `ValueError` of `driver.py:978, 984`

/-- A group of statistics evaluated together (`driver.py:366-375, 386-411`): the values it gives to the statistic-specific settings
(`model_params`), the predictions and the gradient rows, as functions of what the model was updated with.  `none` stands for predictions containing
`nan` or infinities. -/
structure Group (n : ℕ) (K E : Type) where
  params : K → ℝ
  eval : (Fin n → ℝ) → (K → ℝ) → Except E (Option (List ℝ))
  grad : (Fin n → ℝ) → (K → ℝ) → Except E (Option (Fin n → List ℝ))

/-- What does not change during a fit. -/
structure Drv (n : ℕ) (K E : Type) where
  /-- `Parameter.within_bounds(x)` of the free parameters -/
  within : Fin n → ℝ → Bool
  /-- the effect of reading `.value` (`parameter.py:191-199`) -/
  clamp : Fin n → ℝ → ℝ
  /-- `Parameter.lnprior`, `Parameter.dlnprior` at `user_value` -/
  lnp : Fin n → ℝ → Flt
  dlnp : Fin n → ℝ → ℝ
  /-- whether `model.update` goes through -/
  accepts : (Fin n → ℝ) → Bool
  /-- number of data points, data vector, inverse covariance -/
  m : ℕ
  d : Fin m → ℝ
  cinv : Matrix (Fin m) (Fin m) ℝ
  /-- the settings given by some statistic-specific parameters (`driver.py:377-383`) -/
  changed : K → Bool
  groups : List (Group n K E)

/-- What changes: the values of the free parameters, those the model was last updated with, the other settings of the model. -/
structure DSt (n : ℕ) (K : Type) where
  vals : Fin n → ℝ
  mdl : Fin n → ℝ
  cfg : K → ℝ

variable {n : ℕ} {K E : Type}

/-- `self.model.update(**model_params)` of a group (`theory/base.py:693-694`, `642-643`). -/
def Drv.enter (D : Drv n K E) (g : Group n K E) (st : DSt n K) : DSt n K :=
  { st with cfg := fun k => if D.changed k then g.params k else st.cfg k }

/-- `np.concatenate([c() for c in callables])` (`driver.py:413-414`). -/
def Drv.combined (D : Drv n K E) : List (Group n K E) → DSt n K → Except (DErr E) (Option (List ℝ)) × DSt n K
  | [], st => (.ok (some []), st)
  | g :: gs, st =>
    let st := D.enter g st
    match g.eval st.mdl st.cfg with
    | .error e => (.error (.model e), st)
    | .ok v =>
      match D.combined gs st with
      | (.error e, st) => (.error e, st)
      | (.ok vs, st) => (.ok (match v, vs with | some v, some vs => some (v ++ vs) | _, _ => none), st)

/-- A list of the right length as a vector. -/
def asVec (m : ℕ) (l : List ℝ) (h : l.length = m) : Fin m → ℝ := fun i => l[i.val]'(by omega)

/-- `np.dot(x, np.dot(C_inv, x))`. -/
def Drv.quad (D : Drv n K E) (x : Fin D.m → ℝ) : ℝ := dotProduct x (D.cinv.mulVec x)

/-- `set_free_parameters(theta)` (`theory/base.py:269-308`).  Simplification: when `model.update` raises the model keeps its old values. -/
def Drv.setFree (D : Drv n K E) (theta : Fin n → ℝ) (st : DSt n K) : Except (DErr E) Bool × DSt n K :=
  if (List.finRange n).any (fun i => !D.within i (theta i)) then (.ok false, st)
  else if D.accepts theta then (.ok true, { st with vals := theta, mdl := theta })
  else (.error .runtime, { st with vals := theta })

/-- The body of `chi2` after the free parameters have been set (`driver.py:800-802`). -/
def Drv.chi2Now (D : Drv n K E) (st : DSt n K) : Except (DErr E) Flt × DSt n K :=
  match D.combined D.groups st with
  | (.error e, st) => (.error e, st)
  | (.ok none, st) => (.ok nan, st)
  | (.ok (some v), st) =>
    if h : v.length = D.m then (.ok (fin (D.quad (asVec D.m v h - D.d))), st) else (.error .shape, st)

/-- `chi2(theta)` (`driver.py:780-802`): the return value of `set_free_parameters` is not looked at. -/
def Drv.chi2 (D : Drv n K E) (theta : Option (Fin n → ℝ)) (st : DSt n K) : Except (DErr E) Flt × DSt n K :=
  match theta with
  | none => D.chi2Now st
  | some θ =>
    match D.setFree θ st with
    | (.error e, st) => (.error e, st)
    | (.ok _, st) => D.chi2Now st

/-- `-0.5 * x`. -/
def negHalf : Flt → Flt
  | nan => nan
  | ninf => pinf
  | pinf => ninf
  | fin x => fin (-0.5 * x)

/-- `lnlike(theta)` (`driver.py:810-821`). -/
def Drv.lnlike (D : Drv n K E) (theta : Option (Fin n → ℝ)) (st : DSt n K) : Except (DErr E) Flt × DSt n K :=
  match D.chi2 theta st with
  | (.error e, st) => (.error e, st)
  | (.ok c, st) => (.ok (negHalf c), st)

/-- `theory.lnprior` (`theory/base.py:527-549`): `sum` starts from 0. -/
def Drv.lnprior (D : Drv n K E) (v : Fin n → ℝ) : Flt :=
  (List.finRange n).foldl (fun acc i => add acc (D.lnp i (v i))) (fin 0)

/-- `lnprob(theta)` (`driver.py:823-863`). -/
def Drv.lnprob (D : Drv n K E) (theta : Option (Fin n → ℝ)) (st : DSt n K) : Except (DErr E) Flt × DSt n K :=
  let r : Except (DErr E) Bool × DSt n K := match theta with
    | none => (.ok ((List.finRange n).all (fun i => D.within i (st.vals i))), st)
    | some θ => D.setFree θ st
  match r with
  | (.error e, st) => (.error e, st)
  | (.ok false, st) => (.ok ninf, st)
  | (.ok true, st) =>
    match D.lnprior st.vals with
    | fin lp =>
      match D.lnlike none st with
      | (.ok (fin l), st) => (.ok (fin (lp + l)), st)
      | (.ok nan, st) => (.error .runtime, st)
      | (.ok ninf, st) => (.ok ninf, st)
      | (.ok pinf, st) => (.ok pinf, st)
      | (.error _, st) => (.error .runtime, st)
    | _ => (.ok ninf, st)

/-- `null_lnlike` (`driver.py:736-746`). -/
def Drv.nullLnlike (D : Drv n K E) : ℝ := -0.5 * D.quad D.d

/-- The end of `with self.theory.preserve(theta)` (`theory/base.py:436-452`): the values read before the block are put back.
(Inside the block `lnprior` and `dlnprior` look at `theta`; they do not raise.) -/
def Drv.preserved (D : Drv n K E) (st : DSt n K) : DSt n K := { st with vals := fun i => D.clamp i (st.vals i) }

/-- The part of `minus_lnlike` after the parameters are set (`driver.py:890-895`). -/
def Drv.minusNow (D : Drv n K E) (usePriors : Bool) (st : DSt n K) : Except (DErr E) Flt × DSt n K :=
  match D.lnlike none st with
  | (.error e, st) => (.error e, st)
  | (.ok l, st) => (.ok (if usePriors then add (neg l) (neg (D.lnprior st.vals)) else neg l), st)

/-- `minus_lnlike(theta, use_priors)` (`driver.py:865-895`). -/
def Drv.minusLnlike (D : Drv n K E) (theta : Option (Fin n → ℝ)) (usePriors : Bool) (st : DSt n K) :
    Except (DErr E) Flt × DSt n K :=
  match theta with
  | none => D.minusNow usePriors st
  | some θ =>
    match D.setFree θ st with
    | (.error e, st) => (.error e, st)
    | (.ok false, st) => (.ok (sub (fin (-D.nullLnlike)) (D.lnprior θ)), D.preserved st)
    | (.ok true, st) => D.minusNow usePriors st

/-- `[self.minus_lnlike(t) for t in tasks]` (`driver.py:953`). -/
def Drv.evalTasks (D : Drv n K E) : List (Fin n → ℝ) → DSt n K → Except (DErr E) (List Flt) × DSt n K
  | [], st => (.ok [], st)
  | t :: ts, st =>
    match D.minusLnlike (some t) false st with
    | (.error e, st) => (.error e, st)
    | (.ok v, st) =>
      match D.evalTasks ts st with
      | (.error e, st) => (.error e, st)
      | (.ok vs, st) => (.ok (v :: vs), st)

/-- `np.concatenate([c(**kwargs) for c in grad_callables], axis=-1)` (`driver.py:416-417`).  Each callable leaves parameters and model at
`theta` (`gradient.py:203`, C68), where they already are. -/
def Drv.gradCombined (D : Drv n K E) : List (Group n K E) → DSt n K → Except (DErr E) (Option (Fin n → List ℝ)) × DSt n K
  | [], st => (.ok (some (fun _ => [])), st)
  | g :: gs, st =>
    let st := D.enter g st
    match g.grad st.mdl st.cfg with
    | .error e => (.error (.model e), st)
    | .ok v =>
      match D.gradCombined gs st with
      | (.error e, st) => (.error e, st)
      | (.ok vs, st) => (.ok (match v, vs with | some v, some vs => some (fun i => v i ++ vs i) | _, _ => none), st)

/-- the numbers of a list without `nan` and infinities (`driver.py:975-985` raises if there is one) -/
def allFin : List Flt → Option (List ℝ)
  | [] => some []
  | fin x :: l => (allFin l).map (x :: ·)
  | _ :: _ => none

/-- `theta + increments`, `theta - increments` (`driver.py:951-952`). -/
def step (theta eps : Fin n → ℝ) (sgn : ℝ) (i : Fin n) : Fin n → ℝ := fun j => theta j + sgn * (if i = j then eps j else 0)

/-- `grad_minus_lnlike` with `numerical_from_lnlike=True` after the parameters have been set (`driver.py:949-956, 975-990`). -/
def Drv.gradNumNow (D : Drv n K E) (theta eps : Fin n → ℝ) (usePriors : Bool) (st : DSt n K) :
    Except (DErr E) (List ℝ) × DSt n K :=
  match D.evalTasks ((List.finRange n).map (step theta eps 1) ++ (List.finRange n).map (step theta eps (-1))) st with
  | (.error e, st) => (.error e, st)
  | (.ok rs, st) =>
    match allFin rs with
    | none => (.error .value, st)
    | some rs =>
      let g := List.zipWith (fun (i : Fin n) (p : ℝ × ℝ) => (p.1 - p.2) / (2 * eps i)) (List.finRange n) ((rs.take n).zip (rs.drop n))
      if usePriors then (.ok (List.zipWith (fun (i : Fin n) x => x + -1 * D.dlnp i (st.vals i)) (List.finRange n) g), st) else (.ok g, st)

/-- `grad_minus_lnlike` with `numerical_from_lnlike=False` after the parameters have been set (`driver.py:958-990`). -/
def Drv.gradNow (D : Drv n K E) (usePriors : Bool) (st : DSt n K) : Except (DErr E) (List ℝ) × DSt n K :=
  match D.gradCombined D.groups st with
  | (.error e, st) => (.error e, st)
  | (.ok g, st) =>
    match D.combined D.groups st with
    | (.error e, st) => (.error e, st)
    | (.ok v, st) =>
      match g, v with
      | some g, some v =>
        if h : v.length = D.m ∧ ∀ i, (g i).length = D.m then
          let diff := D.d - asVec D.m v h.1
          let grad := (List.finRange n).map (fun i => -1 * dotProduct (D.cinv.mulVec diff) (asVec D.m (g i) (h.2 i)))
          if usePriors then (.ok (List.zipWith (fun (i : Fin n) x => x + -1 * D.dlnp i (st.vals i)) (List.finRange n) grad), st)
          else (.ok grad, st)
        else (.error .shape, st)
      | _, _ => (.error .value, st)

/-- `grad_minus_lnlike(theta, epsilon, use_priors, numerical_from_lnlike)` (`driver.py:900-990`); `eps` has one step per parameter (a scalar
`epsilon` is constant).  Without `theta` the current values are read (which clamps them). -/
def Drv.grad (D : Drv n K E) (theta : Option (Fin n → ℝ)) (eps : Fin n → ℝ) (usePriors fromLnlike : Bool) (st : DSt n K) :
    Except (DErr E) (List ℝ) × DSt n K :=
  let go := fun θ st => if fromLnlike then D.gradNumNow θ eps usePriors st else D.gradNow usePriors st
  match theta with
  | none => go (fun i => D.clamp i (st.vals i)) { st with vals := fun i => D.clamp i (st.vals i) }
  | some θ =>
    match D.setFree θ st with
    | (.error e, st) => (.error e, st)
    | (.ok false, st) => (.ok ((List.finRange n).map (fun i => -1 * D.dlnp i (θ i))), D.preserved st)
    | (.ok true, st) => go θ st

/-- What a user or a solver can do with the driver. -/
inductive Op (n : ℕ) where
  | setFree (theta : Fin n → ℝ)
  | chi2 (theta : Option (Fin n → ℝ))
  | lnlike (theta : Option (Fin n → ℝ))
  | lnprob (theta : Option (Fin n → ℝ))
  | minusLnlike (theta : Option (Fin n → ℝ)) (usePriors : Bool)
  | grad (theta : Option (Fin n → ℝ)) (eps : Fin n → ℝ) (usePriors fromLnlike : Bool)

/-- The state after an operation, whether it returned or raised. -/
def Drv.run1 (D : Drv n K E) (st : DSt n K) : Op n → DSt n K
  | .setFree t => (D.setFree t st).2
  | .chi2 t => (D.chi2 t st).2
  | .lnlike t => (D.lnlike t st).2
  | .lnprob t => (D.lnprob t st).2
  | .minusLnlike t u => (D.minusLnlike t u st).2
  | .grad t e u f => (D.grad t e u f st).2

/-- The state after a history. -/
def Drv.run (D : Drv n K E) (st : DSt n K) (ops : List (Op n)) : DSt n K := ops.foldl D.run1 st

end

end Verif.Driver
