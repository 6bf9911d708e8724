/-
Specification of the analysis of chains (C116): which samples count and what they are.  It uses only the data of the loaded chains.
-/
import Verif.Model.Results
import Mathlib.Algebra.BigOperators.Intervals

namespace Verif.Analysis.Spec

open Verif.Results

noncomputable section

/-- Number of iterations of a chain: those of its first walker. -/
def iters (r : Emcee) : ℕ := (r.chain.head?.getD []).length

/-- A chain as the solver writes it: `W` walkers with the same number of iterations, a value for every free parameter, a log-probability and a value of every constrained
parameter for every sample; names are distinct. -/
structure Shape (W : ℕ) (r : Emcee) : Prop where
  walkers : r.chain.length = W
  iterations : ∀ w ∈ r.chain, w.length = iters r
  row : ∀ w ∈ r.chain, ∀ x ∈ w, x.length = r.free.length
  lnWalkers : r.lnprobs.length = W
  lnIterations : ∀ w ∈ r.lnprobs, w.length = iters r
  cons : ∃ c, r.consChain = some c ∧ ∀ name ∈ r.cons, ∃ tr, c.lookup name = some tr ∧ tr.length = W ∧ ∀ w ∈ tr, w.length = iters r
  distinct : (r.free ++ r.cons).Nodup

/-- The log-probability of walker `w` at iteration `t`. -/
def lnprob (r : Emcee) (w t : ℕ) : ℝ := (r.lnprobs.getD w []).getD t 0

/-- The value of a parameter, by name, of walker `w` at iteration `t`. -/
def value (r : Emcee) (w t : ℕ) (name : String) : ℝ :=
  if name ∈ r.free then ((r.chain.getD w []).getD t []).getD (r.free.idxOf name) 0
  else ((((r.consChain.getD []).lookup name).getD []).getD w []).getD t 0

/-- The log-probability at iteration `t`, averaged over the walkers. -/
def average (W : ℕ) (r : Emcee) (t : ℕ) : ℝ := (∑ w ∈ Finset.range W, lnprob r w t) / W

/-- Whether iteration `t` of `r` counts: its average log-probability is less than three below that of any iteration of any chain, and it is not among the fraction of burn-in. -/
def Counts (W : ℕ) (chains : List Emcee) (burnin : Option ℝ) (r : Emcee) (t : ℕ) : Prop :=
  (∀ r' ∈ chains, ∀ t' < iters r', average W r' t' < average W r t + 3) ∧ ∀ b, burnin = some b → b * iters r < t + 1

open Classical in
/-- The samples of one chain (with its number) that count, as (chain, walker, iteration). -/
def countedOf (W : ℕ) (chains : List Emcee) (burnin : Option ℝ) (rc : Emcee × ℕ) : List (ℕ × ℕ × ℕ) :=
  (List.range W).flatMap fun w => ((List.range (iters rc.1)).filter fun t => decide (Counts W chains burnin rc.1 t)).map fun t => (rc.2, w, t)

/-- The samples that count. -/
def counted (W : ℕ) (chains : List Emcee) (burnin : Option ℝ) : List (ℕ × ℕ × ℕ) := chains.zipIdx.flatMap (countedOf W chains burnin)

/-- The value of a parameter, by name, of a sample. -/
def sampleValue (chains : List Emcee) (s : ℕ × ℕ × ℕ) (name : String) : ℝ :=
  match chains[s.1]? with
  | none => 0
  | some r => value r s.2.1 s.2.2 name

/-- The log-probability of a sample. -/
def sampleLnprob (chains : List Emcee) (s : ℕ × ℕ × ℕ) : ℝ :=
  match chains[s.1]? with
  | none => 0
  | some r => lnprob r s.2.1 s.2.2

end

end Verif.Analysis.Spec
