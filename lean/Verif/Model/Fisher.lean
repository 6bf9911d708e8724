/-
Model of the Fisher matrix and of the errors computed from it: `pyRSD/rsdfit/driver.py:992-1212`.
Exact reals; `np.linalg.inv` by its contract (the inverse, or `LinAlgError`).
-/
import Verif.Model.Prior
import Mathlib.LinearAlgebra.Matrix.NonsingularInverse

namespace Verif.Fisher

open Verif.Priors Verif.Priors.Flt

noncomputable section

variable {n m q : ℕ} {N E : Type} [DecidableEq N]

/-- The exceptions. -/
inductive FErr (E : Type) where
  | outOfBounds          -- `ValueError` of `driver.py:1035, 1135`
  | attribute            -- `AttributeError`
  | notCallable          -- `raise NotImplemented(...)` (`driver.py:1101`) is a `TypeError`
  | notFree              -- `ValueError` of `driver.py:1201`
  | linAlg               -- `LinAlgError`
  | other (e : E)        -- raised by the gradient, the transfer function, the constraint derivatives

/-- The prior of a free parameter, as far as `driver.py:1095-1102` tells them apart; `absent` is `par.prior is None`. -/
inductive PriorKind where
  | normal (scale : ℝ)
  | uniform
  | otherKind
  | absent

/-- `F[i,j] = v`. -/
def setEntry (F : Matrix (Fin n) (Fin n) ℝ) (i j : Fin n) (v : ℝ) : Matrix (Fin n) (Fin n) ℝ :=
  fun a b => if a = i ∧ b = j then v else F a b

/-- The double loop (`driver.py:1086-1090`). -/
def assemble (g : Fin n → Fin m → ℝ) (cinv : Matrix (Fin m) (Fin m) ℝ) : Matrix (Fin n) (Fin n) ℝ :=
  (List.finRange n).foldl (fun F i =>
    ((List.finRange n).filter (fun j => decide (i ≤ j))).foldl (fun F j =>
      let F := setEntry F i j (dotProduct (g i) (cinv.mulVec (g j)))
      setEntry F j i (F i j)) F) 0

/-- One prior (`driver.py:1096-1101`). -/
def priorInfo : PriorKind → Except (FErr E) ℝ
  | .normal s => .ok (s ^ (-2 : ℤ))
  | .uniform => .ok 0
  | .otherKind => .error .notCallable
  | .absent => .error .attribute

/-- The loop over the free parameters (`driver.py:1095-1102`). -/
def priorLoop (pr : Fin n → PriorKind) : List (Fin n) → (Fin n → ℝ) → Except (FErr E) (Fin n → ℝ)
  | [], p => .ok p
  | i :: is, p =>
    match priorInfo (pr i) with
    | .error e => .error e
    | .ok v => priorLoop pr is (fun j => if j = i then v else p j)

/-- `fisher(theta, use_priors, numerical_from_lnlike)` (`driver.py:992-1108`) once the free parameters are set.
* `pkmuGradient`: the attribute `self.pkmu_gradient` followed by the transfer function (`driver.py:1057-1083`); `none` if the driver has no such
  attribute;
* `hess`: `-1.0 * numdifftools.Hessian(f, step=epsilon)(theta)` (`driver.py:1047-1052`), trusted. -/
def fisher (inBounds : Bool) (pkmuGradient : Option (Except E (Fin n → Fin m → ℝ))) (hess : Bool → Except E (Matrix (Fin n) (Fin n) ℝ))
    (cinv : Matrix (Fin m) (Fin m) ℝ) (pr : Fin n → PriorKind) (usePriors fromLnlike : Bool) : Except (FErr E) (Matrix (Fin n) (Fin n) ℝ) :=
  if !inBounds then .error .outOfBounds
  else if fromLnlike then
    match hess usePriors with
    | .error e => .error (.other e)
    | .ok H => .ok H
  else
    match pkmuGradient with
    | none => .error .attribute
    | some (.error e) => .error (.other e)
    | some (.ok g) =>
      let F := assemble g cinv
      if usePriors then
        match priorLoop pr (List.finRange n) (fun _ => 0) with
        | .error e => .error e
        | .ok p => .ok (F + Matrix.diagonal p)
      else .ok (F + Matrix.diagonal 0)

/-- The attribute looked up in `driver.py:1057`: the class has none (it is defined on the theory, `theory/base.py:599`). -/
def shippedGradient : Option (Except E (Fin n → Fin m → ℝ)) := none

/-- One entry of `jacobian` (`driver.py:1143-1151`); `deriv new old` is `constraint_derivative(new, old, theta=theta)`. -/
def jacEntry (free : Fin n → N) (deriv : N → N → Except E ℝ) (i : Fin n) (p : N) : Except E ℝ :=
  if (List.finRange n).any (fun j => decide (free j = p)) then
    if free i = p then .ok 1 else .ok 0
  else deriv p (free i)

/-- A row of `jacobian`. -/
def jacRow (free : Fin n → N) (deriv : N → N → Except E ℝ) (i : Fin n) : List N → Except E (List ℝ)
  | [] => .ok []
  | p :: ps =>
    match jacEntry free deriv i p with
    | .error e => .error e
    | .ok v =>
      match jacRow free deriv i ps with
      | .error e => .error e
      | .ok vs => .ok (v :: vs)

/-- `jacobian(params)` (`driver.py:1110-1154`): the rows, in the order of the free parameters. -/
def jacRows (free : Fin n → N) (deriv : N → N → Except E ℝ) (params : List N) : List (Fin n) → Except E (List (List ℝ))
  | [] => .ok []
  | i :: is =>
    match jacRow free deriv i params with
    | .error e => .error e
    | .ok r =>
      match jacRows free deriv params is with
      | .error e => .error e
      | .ok rs => .ok (r :: rs)

/-- `self.theory.free_names.index(name)`. -/
def indexOf (free : Fin n → N) (name : N) : Option (Fin n) := (List.finRange n).find? (fun i => decide (free i = name))

/-- `np.delete(A, indices, axis=0)` on a list of rows. -/
def deleteRows {α : Type} (idx : List ℕ) (l : List α) : List α := (l.zipIdx.filter (fun p => decide (p.2 ∉ idx))).map Prod.fst

/-- A square matrix from its rows. -/
def ofRows (k : ℕ) (l : List (List ℝ)) : Matrix (Fin k) (Fin k) ℝ := fun i j => (l.getD i []).getD j 0

/-- A Jacobian from its rows. -/
def ofRows' (k q : ℕ) (l : List (List ℝ)) : Matrix (Fin k) (Fin q) ℝ := fun i j => (l.getD i []).getD j 0

/-- `np.delete(np.delete(F, indices, axis=0), indices, axis=1)`. -/
def deleteBoth (idx : List ℕ) (l : List (List ℝ)) : List (List ℝ) := (deleteRows idx l).map (deleteRows idx)

/-- `x ** 0.5` of a real number. -/
def sqrtF (x : ℝ) : Flt := if x < 0 then nan else fin (Real.sqrt x)

/-- `np.dot(J.T, np.dot(C, J))**0.5` with `C = np.linalg.inv(F)` (`driver.py:1193, 1206, 1210`). -/
def errorsOf (k q : ℕ) (F : Matrix (Fin k) (Fin k) ℝ) (J : Matrix (Fin k) (Fin q) ℝ) : Except (FErr E) (Matrix (Fin q) (Fin q) Flt) :=
  if F.det = 0 then .error .linAlg
  else .ok (fun a b => sqrtF ((J.transpose * (F⁻¹ * J)) a b))

/-- The rows of a matrix. -/
def rowsOf {k q : ℕ} (F : Matrix (Fin k) (Fin q) ℝ) : List (List ℝ) := (List.finRange k).map fun i => (List.finRange q).map fun j => F i j

/-- `marginalized_errors(params, fixed)` (`driver.py:1156-1210`), given the result `F` of `fisher`. -/
def marginalizedErrors (free : Fin n → N) (deriv : N → N → Except E ℝ) (F : Matrix (Fin n) (Fin n) ℝ) (params fixed : List N) :
    Except (FErr E) (Matrix (Fin params.length) (Fin params.length) Flt) :=
  match jacRows free deriv params (List.finRange n) with
  | .error e => .error (.other e)
  | .ok J =>
    if fixed.isEmpty then errorsOf n params.length F (ofRows' n params.length J)
    else
      let indices := fixed.filterMap (fun p => (indexOf free p).map Fin.val)
      if fixed.any (fun p => !(List.finRange n).any (fun i => decide (free i = p))) then .error .notFree
      else
        let F' := deleteBoth indices (rowsOf F)
        let J' := deleteRows indices J
        errorsOf F'.length params.length (ofRows F'.length F') (ofRows' F'.length params.length J')

end

end Verif.Fisher
