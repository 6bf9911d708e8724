/-
Model of the result containers `pyRSD/rsdfit/results/emcee_results.py` and `pyRSD/rsdfit/results/lbfgs_results.py`, and of the assembly of
the results of a (re)started chain in `pyRSD/rsdfit/solvers/emcee_solver.py`.

A chain (array of shape walkers × iterations × parameters) is a list of walkers, each a list of rows.  Names are strings.
-/
import Mathlib.Data.Real.Basic
import Mathlib.Data.List.Basic

namespace Verif.Results

noncomputable section

/-! ### `EmceeParameter` -/

/-- What numpy/scipy compute from the flattened trace: `np.percentile` and the peak of the kernel density started at the median. -/
structure Stats where
  percentile : List ℝ → ℝ → ℝ
  peak : List ℝ → ℝ → ℝ

/-- The trace of one parameter (walkers × iterations) with the cached statistics (`emcee_results.py:10-211`). -/
structure Param where
  trace : List (List ℝ)
  burnin : ℕ
  rescale : ℝ
  median : Option ℝ
  peak : Option ℝ
  sigma1 : Option (ℝ × ℝ)
  sigma2 : Option (ℝ × ℝ)
  sigma3 : Option (ℝ × ℝ)

/-- `EmceeParameter(name, trace)` (`emcee_results.py:14-18`) -/
def Param.new (trace : List (List ℝ)) : Param := ⟨trace, 0, 1, none, none, none, none, none⟩

/-- `flat_trace` (`emcee_results.py:73-79`) -/
def Param.flat (p : Param) : List ℝ := (p.trace.map (List.drop p.burnin)).flatten

/-- The `burnin` setter (`emcee_results.py:54-57`) -/
def Param.setBurnin (p : Param) (b : ℕ) : Param := { p with burnin := b, median := none, sigma1 := none, sigma2 := none, sigma3 := none }

/-- The `error_rescaling` setter (`emcee_results.py:68-71`) -/
def Param.setRescale (p : Param) (r : ℝ) : Param := { p with rescale := r, sigma1 := none, sigma2 := none, sigma3 := none }

/-- Reading `median` (`emcee_results.py:81-90`) -/
def Param.readMedian (S : Stats) (p : Param) : ℝ × Param :=
  match p.median with
  | some m => (m, p)
  | none => let m := S.percentile p.flat 50; (m, { p with median := some m })

/-- Reading `peak` (`emcee_results.py:103-114`); it reads `median` (and so caches it). -/
def Param.readPeak (S : Stats) (p : Param) : ℝ × Param :=
  match p.peak with
  | some v => (v, p)
  | none =>
    let r := p.readMedian S
    let v := S.peak p.flat r.1
    (v, { r.2 with peak := some v })

/-- The interval computed from the percentiles `50, lo, hi` (`emcee_results.py:135-137`, and the same for two and three sigma) -/
def interval (S : Stats) (p : Param) (lo hi : ℝ) : ℝ × ℝ :=
  let v0 := S.percentile p.flat 50 * p.rescale
  let v1 := S.percentile p.flat lo * p.rescale
  let v2 := S.percentile p.flat hi * p.rescale
  (-(v0 - v1), v2 - v0)

/-- Reading `one_sigma` (`emcee_results.py:120-138`) -/
def Param.readSigma1 (S : Stats) (p : Param) : (ℝ × ℝ) × Param :=
  match p.sigma1 with
  | some v => (v, p)
  | none => let v := interval S p (15.86555 : ℝ) (84.13445 : ℝ); (v, { p with sigma1 := some v })

/-- Reading `two_sigma` (`emcee_results.py:144-162`) -/
def Param.readSigma2 (S : Stats) (p : Param) : (ℝ × ℝ) × Param :=
  match p.sigma2 with
  | some v => (v, p)
  | none => let v := interval S p (2.2775 : ℝ) (97.7225 : ℝ); (v, { p with sigma2 := some v })

/-- Reading `three_sigma` (`emcee_results.py:168-186`) -/
def Param.readSigma3 (S : Stats) (p : Param) : (ℝ × ℝ) × Param :=
  match p.sigma3 with
  | some v => (v, p)
  | none => let v := interval S p (0.135 : ℝ) (99.865 : ℝ); (v, { p with sigma3 := some v })

/-- `del param.peak` (`emcee_results.py:116-118`) -/
def Param.delPeak (p : Param) : Param := { p with peak := none }

/-- Operations of a user on a parameter. -/
inductive POp where
  | burnin (b : ℕ)
  | rescale (r : ℝ)
  | median
  | peak
  | sigma1
  | sigma2
  | sigma3
  | delPeak

/-- One operation. -/
def Param.op (S : Stats) (p : Param) : POp → Param
  | .burnin b => p.setBurnin b
  | .rescale r => p.setRescale r
  | .median => (p.readMedian S).2
  | .peak => (p.readPeak S).2
  | .sigma1 => (p.readSigma1 S).2
  | .sigma2 => (p.readSigma2 S).2
  | .sigma3 => (p.readSigma3 S).2
  | .delPeak => p.delPeak

/-! ### `EmceeResults` -/

/-- walkers × iterations × parameters -/
abbrev Chain := List (List (List ℝ))

/-- `EmceeResults`: names, chain, constrained chain (a structured array: fields in the order of its dtype, each walkers × iterations), log-probabilities,
`_burnin` and the dictionary `_results`. -/
structure Emcee where
  free : List String
  cons : List String
  chain : Chain
  consChain : Option (List (String × List (List ℝ)))
  lnprobs : List (List ℝ)
  burnin : ℕ
  results : List (String × Param)

/-- `self.chain[..., i]` -/
def column (c : Chain) (i : ℕ) : List (List ℝ) := c.map fun w => w.map fun row => row.getD i 0

/-- `self.constrained_chain[name]` -/
def field (c : List (String × List (List ℝ))) (name : String) : List (List ℝ) := (c.lookup name).getD []

/-- `_save_results` (`emcee_results.py:456-470`) -/
def saveResults (r : Emcee) : Emcee :=
  { r with results := (r.free.mapIdx fun i name => (name, Param.new (column r.chain i))) ++
      match r.consChain with
      | none => []
      | some c => r.cons.map fun name => (name, Param.new (field c name)) }

/-- `__getitem__` for the name of a parameter (`emcee_results.py:341-347`): the trace -/
def Emcee.get (r : Emcee) (name : String) : Option Param := r.results.lookup name

/-- The `burnin` setter (`emcee_results.py:503-509`); the number of iterations is that of the first walker. -/
def Emcee.setBurnin (r : Emcee) (b : ℕ) : Emcee :=
  let b := if b > (r.chain.head?.getD []).length then 0 else b
  { r with burnin := b, results := r.results.map fun p => (p.1, p.2.setBurnin b) }

/-- `verify_param_ordering` (`emcee_results.py:349-374`); `none` for the `ValueError`. Equality of the sorted lists is being a permutation. -/
def Emcee.verify (r : Emcee) (free cons : List String) : Option Emcee :=
  if ¬ r.free.Perm free then none
  else if ¬ r.cons.Perm cons then none
  else
    let chain := if r.free ≠ free then r.chain.map (List.map fun row => free.map fun k => row.getD (r.free.idxOf k) 0) else r.chain
    if r.free ≠ free ∨ r.cons ≠ cons then some (saveResults { r with chain := chain, free := free, cons := cons })
    else some r

/-- Position of the first maximum of `lnprobs` (`np.unravel_index(lnprobs.argmax(), shape)`); contract: numpy's `argmax`. -/
structure ArgMax where
  pos : List (List ℝ) → ℕ × ℕ

/-- `max_lnprob_constrained_values` (`emcee_results.py:544-550`): the values in the order of the fields of the structured array. -/
def Emcee.maxCons (A : ArgMax) (r : Emcee) : List ℝ :=
  let (w, i) := A.pos r.lnprobs
  (r.consChain.getD []).map fun f => (f.2.getD w []).getD i 0

/-- `as_dict('max_lnprob')` on constrained parameters (`emcee_results.py:840-846`) -/
def Emcee.maxConsDict (A : ArgMax) (r : Emcee) : List (String × ℝ) := r.cons.zip (r.maxCons A)

/-- `max_lnprob_values` (`emcee_results.py:536-542`) and `as_dict('max_lnprob')` on free parameters -/
def Emcee.maxFreeDict (A : ArgMax) (r : Emcee) : List (String × ℝ) :=
  let (w, i) := A.pos r.lnprobs
  r.free.zip ((r.chain.getD w []).getD i [])

/-- Why `__add__` fails (`emcee_results.py:376-405`) -/
inductive AddErr where
  | walkers
  | names
  | noConstrained      -- `None` has no `dtype` (or an object array no fields)
  deriving DecidableEq

/-- `__add__` (`emcee_results.py:376-405`); `self` is copied, so `_burnin` is that of `self`. -/
def Emcee.add (a b : Emcee) : Except AddErr Emcee :=
  if a.chain.length ≠ b.chain.length then .error .walkers
  else
    match b.verify a.free a.cons with
    | none => .error .names
    | some b =>
      match a.consChain, b.consChain with
      | some ca, some cb =>
        .ok (saveResults { a with
          chain := List.zipWith (· ++ ·) a.chain b.chain,
          consChain := some (ca.map fun f => (f.1, List.zipWith (· ++ ·) f.2 (field cb f.1))),
          lnprobs := List.zipWith (· ++ ·) a.lnprobs b.lnprobs })
      | _, _ => .error .noConstrained

/-! ### Recovering the sampled part of the sampler's arrays -/

/-- `a.reshape((n, k))` of a flat list: `n` chunks of length `k` -/
def chunks {α : Type} (n k : ℕ) (l : List α) : List (List α) := (List.range n).map fun i => (l.drop (i * k)).take k

open Classical in
/-- `sampler.chain[np.nonzero(sampler.chain)].reshape((walkers, -1, ndim))` (`emcee_results.py:228-230`); `none` for the `ValueError` of
`reshape` when the number of values does not fit. -/
def nonzeroChain (ndim : ℕ) (c : Chain) : Option Chain :=
  let flat := c.flatten.flatten.filter (· ≠ 0)
  if c.length * ndim = 0 ∨ flat.length % (c.length * ndim) ≠ 0 then none
  else
    let iters := flat.length / (c.length * ndim)
    some ((chunks c.length (iters * ndim) flat).map (chunks iters ndim))

/-! ### A restarted run -/

/-- What the sampler is asked for on a restart (`emcee_solver.py:310-322` and `emcee_solver.py:343-344`) after `set_restart` (`driver.py:455-494`) has set
`iterations` to `old + further`: initial positions, initial log-probabilities, number of iterations. -/
def restartRequest (old : Emcee) (further : ℕ) : List (List ℝ) × List ℝ × ℤ :=
  let startIter := (old.chain.head?.getD []).length
  let iterations : ℤ := (further : ℤ) + startIter
  (old.chain.map fun w => w.getLast?.getD [], old.lnprobs.map fun l => l.getLast?.getD 0, iterations - startIter)

/-! ### `LBFGSResults` -/

/-- names, values and constrained values (`lbfgs_results.py:14-31`) -/
structure Lbfgs where
  free : List String
  cons : List String
  values : List ℝ
  consValues : List ℝ

/-- `__getitem__` (`lbfgs_results.py:129-139`) -/
def Lbfgs.get (r : Lbfgs) (name : String) : Option ℝ :=
  if name ∈ r.free then r.values[r.free.idxOf name]?
  else if name ∈ r.cons then r.consValues[r.cons.idxOf name]?
  else none

/-- `verify_param_ordering` (`lbfgs_results.py:40-63`) -/
def Lbfgs.verify (r : Lbfgs) (free cons : List String) : Option Lbfgs :=
  if ¬ r.free.Perm free then none
  else if ¬ r.cons.Perm cons then none
  else
    let values := if r.free ≠ free then free.map fun k => r.values.getD (r.free.idxOf k) 0 else r.values
    some { r with values := values, free := free, cons := cons }

end

end Verif.Results
