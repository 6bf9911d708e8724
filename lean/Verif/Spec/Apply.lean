/-
Specification for C134: the value a results file gives to a parameter, by name, and the parameter sets considered.
-/
import Verif.Model.Apply
import Verif.Lemmas.Params
import Verif.Props.Params

namespace Verif.Apply

open Params Results

noncomputable section

/-- the free parameters of a file, in its own order -/
def File.free : File → List String
  | .emcee free _ _ _ _ _ => free
  | .lbfgs r => r.free

/-- the constrained parameters of a file, in its own order -/
def File.cons : File → List String
  | .emcee _ cons _ _ _ _ => cons
  | .lbfgs r => r.cons

/-- the burn-in of a file; one longer than the chain counts as none -/
def File.burnin : File → ℕ
  | .emcee _ _ chain _ _ b => if b > (chain.head?.getD []).length then 0 else b
  | .lbfgs _ => 0

/-- the samples of a parameter, all walkers one after the other, without the first `b` iterations -/
def samplesOf (free : List String) (chain : Chain) (b : ℕ) (name : String) : List ℝ :=
  (chain.map fun walker => (walker.drop b).map fun row => row.getD (free.idxOf name) 0).flatten

/-- The value of the parameter `name` according to a file: its entry in the minimum found, or the median of its samples, the peak of their density, its entry in the
sample of highest probability. -/
def File.best (S : Stats) (A : ArgMax) (b : ℕ) (m : Method) (name : String) : File → ℝ
  | .lbfgs r => r.values.getD (r.free.idxOf name) 0
  | .emcee free _ chain _ lnprobs _ =>
    match m with
    | .median => S.percentile (samplesOf free chain b name) 50
    | .peak => S.peak (samplesOf free chain b name) (S.percentile (samplesOf free chain b name) 50)
    | .maxLnprob => ((chain.getD (A.pos lnprobs).1 []).getD (A.pos lnprobs).2 []).getD (free.idxOf name) 0
    | .other => 0

/-- A file as the solvers write them: distinct names, one number per free parameter and sample, and the most probable sample is one of the chain. -/
def File.WF (A : ArgMax) : File → Prop
  | .emcee free _ chain _ lnprobs _ => free.Nodup ∧ (∀ w ∈ chain, ∀ row ∈ w, row.length = free.length) ∧
      ∃ w row, chain[(A.pos lnprobs).1]? = some w ∧ w[(A.pos lnprobs).2]? = some row
  | .lbfgs r => r.free.Nodup ∧ r.values.length = r.free.length

/-- A parameter set as the theory prepares it: distinct names, every parameter mentioned is in the set, no cycle of constraints, `prepare_params` done; the free parameters are
distinct and exactly the unconstrained ones that vary; a value within the bounds is left alone by them; what the model is given mentions only unconstrained and flat constrained
parameters (as in the galaxy model, `C23_gal_model_parameters`). -/
structure CfgOK (c : Cfg) : Prop where
  nodup : c.sys.names.Nodup
  complete : Complete c.sys
  acyclic : Acyclic c.sys
  prepared : ∃ pf p, prepare c.sys pf = some p ∧ c.children = p.children
  freeNodup : c.free.Nodup
  free : ∀ n, n ∈ c.free ↔ c.sys.expr n = none ∧ c.sys.vary n = true
  within : ∀ n v, c.within n v = true → c.sys.clamp n v = v
  flat : ∀ n ∈ c.modelParams, ∀ e, c.sys.expr n = some e → ∀ d ∈ e.deps, c.sys.expr d = none ∨ Flat c.sys d

/-- A driver at `v`: every free parameter has its value of `v`, every other unconstrained parameter that of `base`, and the model holds the value of every model parameter, constrained ones
at their meaning. -/
def At (c : Cfg) (base : String → ℝ) (v : String → ℝ) (d : Drv) : Prop :=
  (∀ n ∈ c.free, d.st.val n = v n) ∧ (∀ n, c.sys.expr n = none → n ∉ c.free → d.st.val n = base n) ∧
  (∀ w, Solves c.sys d.st.val w → ∀ m ∈ c.modelParams, d.model m = some (w m))

/-- the values are all within the bounds of their parameters -/
def AllWithin (c : Cfg) (v : String → ℝ) : Prop := ∀ n ∈ c.free, c.within n (v n) = true

/-- A good state of the parameters: one reachable from a good start by assignments within bounds and reads (`Verif.Params.Inv`). -/
def Sane (c : Cfg) (d : Drv) : Prop := ∃ w, Solves c.sys d.st.val w ∧ Inv c.sys w (Flat c.sys) d.st

/-- What a user does with a driver between loading results and reading it: setting the fit results by some method, or the fiducial values. -/
inductive Op where
  | fit (m : Method)
  | fiducial

/-- One after the other. -/
def runOps (S : Stats) (A : ArgMax) (c : Cfg) : List Op → Drv → Except Err Drv
  | [], d => .ok d
  | .fit m :: ops, d =>
    match setFit S A c d m with
    | .error e => .error e
    | .ok d => runOps S A c ops d
  | .fiducial :: ops, d =>
    match setFiducial c d with
    | .error e => .error e
    | .ok d => runOps S A c ops d

/-- the burn-in that the values set on the driver follow: that of the file if its names are in the order of the theory, else none -/
def effBurnin (c : Cfg) (f : File) : ℕ := if f.free = c.free ∧ f.cons = c.cons then f.burnin else 0

end

end Verif.Apply
