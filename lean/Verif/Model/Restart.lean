/-
Model of a restarted MCMC run: `FittingDriver.set_restart`, the `results` setter and `FittingDriver.run` (`pyRSD/rsdfit/driver.py`), the part of
`emcee_solver.run` that prepares the sampler and assembles the results, and `EmceeResults.__init__`.  The sampler itself (package emcee) is a
parameter: it returns its arrays `chain` and `lnprobability`, whose unsampled part is zero.
-/
import Verif.Model.Results
import Verif.Model.Solvers

namespace Verif.Restart

open Verif.Results Verif.Solvers

noncomputable section

open Classical in
/-- `sampler.lnprobability[np.nonzero(..)].reshape((walkers, -1))` (`emcee_results.py:233-234`) -/
def nonzeroRows (l : List (List ℝ)) : Option (List (List ℝ)) :=
  let flat := l.flatten.filter (· ≠ 0)
  if l.length = 0 ∨ flat.length % l.length ≠ 0 then none
  else some (chunks l.length (flat.length / l.length) flat)

/-- `EmceeResults(sampler, fit_params, burnin)` (`emcee_results.py:219-258`, `_make_constrained_chain` 417-441).  `derive row name` is the value of the
constrained parameter `name` at the free values `row` (that the code computes it right is the subject of C23). -/
def newResults (free cons : List String) (derive : List ℝ → String → ℝ) (arrays : Chain × List (List ℝ)) (burnin : ℕ) : Option Emcee :=
  match nonzeroChain free.length arrays.1, nonzeroRows arrays.2 with
  | some c, some l =>
    let cc := if cons = [] then none else some (cons.map fun name => (name, c.map (List.map fun row => derive row name)))
    some ((saveResults ⟨free, cons, c, cc, l, 0, []⟩).setBurnin burnin)
  | _, _ => none

/-- The sampler: initial positions, initial log-probabilities and number of iterations to the arrays. -/
abbrev Sampler := List (List ℝ) → List ℝ → ℤ → Chain × List (List ℝ)

/-- Why a restart fails. -/
inductive Err where
  | names          -- `ValueError` of `verify_param_ordering`
  | walkers        -- the sampler refuses positions for another number of walkers
  | reshape        -- `ValueError` of `reshape`
  | add (e : AddErr)
  deriving DecidableEq

/-- A restart with `further` iterations (`driver.py:455-494`, `driver.py:571`, `driver.py:680-693`, `emcee_solver.py:278-286` and `emcee_solver.py:310-368`); `free`, `cons` are the
names of the parameters of the theory. -/
def restart (S : Sampler) (derive : List ℝ → String → ℝ) (free cons : List String) (old : Emcee) (further : ℕ) : Except Err Emcee :=
  match old.verify free cons with
  | none => .error .names
  | some old =>
    if nWalkers old.chain.length free.length ≠ old.chain.length then .error .walkers
    else
      let req := restartRequest old further
      match newResults free cons derive (S req.1 req.2.1 req.2.2) 0 with
      | none => .error .reshape
      | some new =>
        match old.add new with
        | .error e => .error (.add e)
        | .ok r => .ok r

end

end Verif.Restart
