/-
Model of how the starting points of the solvers are chosen: `pyRSD/rsdfit/solvers/lbfgs_solver.py`, `pyRSD/rsdfit/solvers/tools.py`, `emcee_solver.run` and
`BasePowerParameters.check` (`pyRSD/rsdfit/theory/base.py`).

The random numbers are arbitrary streams.  Caches filled while evaluating bounds and priors are left out (they do not change what is read).
-/
import Verif.Model.Prior

namespace Verif.Init

open Verif.Priors Verif.Priors.Flt

noncomputable section

/-- `for i, value in enumerate(p0): params[i].value = value` (`lbfgs_solver.py:18-19`, `lbfgs_solver.py:35-36`, `tools.py:61-62`) -/
def setAll (pars : List Par) (v : List ℝ) : List Par := List.zipWith (fun p x => p.setValue (fin x)) pars v

/-- `all(p.within_bounds() for p in params)` (`lbfgs_solver.py:21`, `lbfgs_solver.py:38`) -/
def allWithin (pars : List Par) : Bool := pars.all fun p => p.withinBounds p.userValue

/-- The loop of `InitializeFromPrior` (`lbfgs_solver.py:16-24`) and of `InitializeWithScatter` (`lbfgs_solver.py:33-41`), at most `fuel` passes, the first being number `t`:
the point returned and the parameters afterwards. -/
def drawLoop (draw : ℕ → List ℝ) : ℕ → ℕ → List Par → Option (List ℝ × List Par)
  | 0, _, _ => none
  | fuel + 1, t, pars =>
    let pars := setAll pars (draw t)
    if allWithin pars then some (draw t, pars) else drawLoop draw fuel (t + 1) pars

/-- `x + np.random.normal(scale=scatter*x)` (`lbfgs_solver.py:31-34`) from standard normal numbers `z` -/
def scattered (x : List ℝ) (scatter : ℝ) (z : List ℝ) : List ℝ := List.zipWith (fun x z => x + scatter * x * z) x z

/-- How an initialisation ends: a point with the parameters, an error, or still drawing. -/
inductive Out where
  | done (p0 : List ℝ) (pars : List Par)
  | error
  | running

open Classical in
/-- The starting point of `lbfgs_solver.run` for `init_from` = 'fiducial' or 'result' (`lbfgs_solver.py:56-61`); numpy raises `ValueError` for a
negative scale. -/
def lbfgsInit (x : List ℝ) (scatter : ℝ) (z : ℕ → List ℝ) (fuel : ℕ) (pars : List Par) : Out :=
  if 0 < scatter then
    if ∃ xi ∈ x, scatter * xi < 0 then .error
    else
      match drawLoop (fun t => scattered x scatter (z t)) fuel 0 pars with
      | some (p0, pars) => .done p0 pars
      | none => .running
  else .done x pars

/-- `np.isinf` -/
def isInf : Flt → Bool
  | .ninf => true
  | .pinf => true
  | _ => false

/-- The test of one parameter in `check` (`theory/base.py:320-338`).  (The text of the message reads `par.value`, which may clamp it; not modelled, the value
is overwritten before it is used again.) -/
def checkPar (k : ℝ) (p : Par) : Bool :=
  if (p.min.isSome || p.max.isSome) && !p.withinBounds p.userValue then false
  else if p.readDist.isSome && isInf (p.lnprior k) then false
  else true

/-- `fit_params.check()` (`theory/base.py:310-343`) -/
def check (k : ℝ) (pars : List Par) : Bool := pars.all (checkPar k)

/-- The loop over the attempts for one walker (`tools.py:55-81`): `rem = 101 - current_try`, `w` the current attempt, `redraw j` what is drawn when
`current_try` becomes `j`. -/
def walkerLoop (k : ℝ) (redraw : ℕ → List ℝ) : ℕ → ℕ → List ℝ → List Par → List ℝ × List Par
  | 0, _, w, pars => (w, setAll pars w)
  | rem + 1, j, w, pars =>
    let pars := setAll pars w
    if check k pars then (w, pars) else walkerLoop k redraw rem (j + 1) (redraw (j + 1)) pars

/-- `univariate_init` (`tools.py:16-100`) for `draw_from='prior'`: `first` the initial draws (one list per walker), `redraw i j` the further attempts. -/
def univariateInit (k : ℝ) (redraw : ℕ → ℕ → List ℝ) : ℕ → List (List ℝ) → List Par → List (List ℝ)
  | _, [], _ => []
  | i, w :: t, pars =>
    let r := walkerLoop k (redraw i) 101 0 w pars
    r.1 :: univariateInit k redraw (i + 1) t r.2

/-- The random ball of `emcee_solver.run` (`emcee_solver.py:305`) -/
def ballInit (x : List ℝ) (z : ℕ → List ℝ) (nwalkers : ℕ) : List (List ℝ) :=
  (List.range nwalkers).map fun i => List.zipWith (fun x z => x + 1 / 1000 * z) x (z i)

end

end Verif.Init
