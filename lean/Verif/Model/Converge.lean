/-
Model of the Gelman-Rubin convergence test of chains: `gelman_rubin_convergence` (`pyRSD/rsdfit/analysis/stats.py:8-27`), `test_convergence`,
`ChainManager.do_convergence` and `ChainManager.check_convergence` (`pyRSD/rsdfit/solvers/emcee_solver.py:71-88, 190-228`).

Numbers are exact reals; `none` stands for a result that is not a finite number.  The parameters are independent of each other, so that the formula is
written for one parameter.
-/
import Verif.Model.Results
import Mathlib.Data.Real.Sqrt

namespace Verif.Converge

open Verif.Results

noncomputable section

/-- `np.mean` of a non-empty array. -/
def mean (l : List ℝ) : ℝ := l.sum / l.length

/-- `np.var` of a non-empty array: divided by the number of values. -/
def var (l : List ℝ) : ℝ := mean (l.map fun x => (x - mean l) ^ 2)

/-- `stats.py:14-27`, the same as `emcee_solver.py:211-223`, for one parameter: the samples of each chain and the number `n`.  A mean of nothing, a division
by zero (one chain, no variance within the chains) give NaN or infinity. -/
def scaleReduction (n : ℝ) (chains : List (List ℝ)) : Option ℝ :=
  open Classical in
  let meanchain := chains.map mean
  let meanall := mean meanchain
  let W := mean (chains.map var)
  let B := (meanchain.map fun m => n * (meanall - m) ^ 2 / ((chains.length : ℝ) - 1)).sum
  let estvar := (1 - 1 / n) * W + B / n
  if chains.length = 1 ∨ (∃ c ∈ chains, c = []) ∨ W = 0 then none else some (Real.sqrt (estvar / W))

/-- Exceptions: `IndexError`, `ValueError`, `TypeError`. -/
inductive Err where
  | index
  | value
  | type
deriving DecidableEq

/-- `gelman_rubin_convergence(chains)` (`stats.py:8-27`) for one parameter: the number of samples is that of the first chain (line 13). -/
def gelmanRubin (chains : List (List ℝ)) : Except Err (Option ℝ) :=
  match chains with
  | [] => .error .index
  | c :: _ => .ok (scaleReduction c.length chains)

/-- The samples of one chain used by `test_convergence` (`emcee_solver.py:206-209`), as rows.  `n` is an integer with Python 2; with Python 3 `niter/2` is a float, which
cannot be used in a slice.  (All chains have as many walkers as the first.) -/
def secondHalf (py3 : Bool) (n ndim : ℕ) (c : Chain) : Except Err (List (List ℝ)) :=
  match nonzeroChain ndim c with
  | none => .error .value
  | some c => if py3 then .error .type else .ok (c.map (List.drop n)).flatten

/-- `abs(1.-scalereduction) <= epsilon` (`emcee_solver.py:225`), false if it is not a number. -/
def within (eps : ℝ) : Option ℝ → Prop
  | some R => |1 - R| ≤ eps
  | none => False

/-- `test_convergence(chains0, niter, epsilon)` (`emcee_solver.py:190-229`) for chains of `ndim` parameters. -/
def testConvergence (py3 : Bool) (ndim : ℕ) (chains0 : List Chain) (niter : ℕ) (eps : ℝ) : Except Err Bool :=
  open Classical in
  if chains0 = [] then .error .index
  else
    let n := max (niter / 2) 1
    match chains0.mapM (secondHalf py3 n ndim) with
    | .error e => .error e
    | .ok cs => .ok (decide (∀ d < ndim, within eps (scaleReduction n (cs.map fun rows => rows.map fun row => row.getD d 0))))

/-- `do_convergence` (`emcee_solver.py:71-78`). -/
def doConvergence (niter : ℕ) : Bool :=
  if niter < 500 then false
  else if niter < 1500 ∧ niter % 200 = 0 then true
  else if 1500 ≤ niter ∧ niter % 100 = 0 then true
  else false

/-- The chain a rank sends (`emcee_solver.py:82`): that of the run it continues, then the array of the sampler. -/
def gathered (start : Option Chain) (sampler : Chain) : Chain :=
  match start with
  | none => sampler
  | some s => List.zipWith (· ++ ·) s sampler

/-- `check_convergence` (`emcee_solver.py:80-88`) on the first rank, after iteration number `niter` (from zero) of all ranks: whether the chains are declared converged. -/
def checkConvergence (py3 : Bool) (ndim : ℕ) (ranks : List (Option Chain × Chain)) (niter startIter : ℕ) (eps : ℝ) : Except Err Bool :=
  if doConvergence (startIter + niter + 1) then
    testConvergence py3 ndim (ranks.map fun r => gathered r.1 r.2) (startIter + niter + 1) eps
  else .ok false

end

end Verif.Converge
