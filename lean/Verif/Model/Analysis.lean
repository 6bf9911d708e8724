/-
Model of the analysis of finished chains: `recover_folder_and_files` (the part after the files are loaded), `extract_parameter_names`, `thin_chains`,
`remove_burnin` (`pyRSD/rsdfit/analysis/tools.py`), `convergence` (`pyRSD/rsdfit/analysis/stats.py:28-84`), `error_rescaling`, `min_minus_lkl`, `covar`, `bounds`
and `bestfit_params` (`pyRSD/rsdfit/analysis/driver.py:196-296`) and `BestfitParameterSet.from_mcmc` (`pyRSD/rsdfit/analysis/bestfit.py:344-401`).

Numbers are exact reals.  Plots, log messages and files are left out.
-/
import Verif.Model.Converge
import Mathlib.Algebra.Order.Floor.Semiring
import Mathlib.Analysis.SpecialFunctions.Pow.Real

namespace Verif.Analysis

open Verif.Results Verif.Converge

noncomputable section

/-- What an analysis can raise: `ValueError`, `IndexError`, `TypeError`, `rsd_io.AnalyzeError`. -/
inductive Err where
  | value
  | index
  | type
  | analyze
deriving DecidableEq

/-- `sorted(names)` (`tools.py:263, 268`); strings are compared by code point. -/
def sortNames (l : List String) : List String := l.mergeSort fun a b => decide (a ≤ b)

/-- The end of `recover_folder_and_files` (`tools.py:246-248`): every chain takes the order of the first.  `verify_param_ordering` raises `ValueError`. -/
def recover : List Emcee → Except Err (List Emcee)
  | [] => .ok []
  | c :: cs =>
    match cs.mapM fun r => r.verify c.free c.cons with
    | none => .error .value
    | some cs => .ok (c :: cs)

/-- `extract_parameter_names` (`tools.py:250-366`): the names of the free and of the constrained parameters.  No chain: `free_names[0]` raises `IndexError` (line 284).
`constrained_chain[...]` of no constrained chain (line 275) raises `TypeError`.  A name without a latex name raises `ValueError` (line 350).  The loop over vector
parameters (lines 274-281) removes nothing: it runs over lists of names. -/
def extract (tex : List String) (chains : List Emcee) : Except Err (List String × List String) :=
  match chains with
  | [] => .error .index
  | c :: cs =>
    if ∃ r ∈ c :: cs, sortNames r.free ≠ sortNames c.free then .error .analyze
    else if ∃ r ∈ c :: cs, sortNames r.cons ≠ sortNames c.cons then .error .analyze
    else if c.consChain = none then .error .type
    else if ∃ name ∈ sortNames c.free ++ sortNames c.cons, name ∉ tex then .error .value
    else .ok (sortNames c.free, sortNames c.cons)

/-- `info.param_indices[name]` (`tools.py:352-355`). -/
def paramIndex (free cons : List String) (name : String) : ℕ :=
  if name ∈ free then free.idxOf name else free.length + cons.idxOf name

/-- `result.iterations` (`emcee_results.py:475-480`). -/
def iterations (r : Emcee) : ℕ := (r.chain.head?.getD []).length

/-- `result.lnprobs.mean(axis=0)`: the mean over the walkers, for every iteration. -/
def iterMean (r : Emcee) : List ℝ :=
  (List.range (r.lnprobs.head?.getD []).length).map fun t => mean (r.lnprobs.map fun w => w.getD t 0)

/-- `.max()`; of an empty array it raises `ValueError`. -/
def maxOf : List ℝ → Option ℝ
  | [] => none
  | x :: xs => some (xs.foldl max x)

/-- `min(...)` of a list. -/
def minOf : List ℝ → Option ℝ
  | [] => none
  | x :: xs => some (xs.foldl min x)

/-- `min_minus_lkl` (`driver.py:213-224`); `none` for the `ValueError`. -/
def minMinusLkl (chains : List Emcee) : Option ℝ :=
  match chains.mapM fun r => (maxOf (iterMean r)).map (- ·) with
  | none => none
  | some l => minOf l

/-- `LOG_LKL_CUTOFF` (`tools.py:9`) -/
def cutoff : ℝ := 3

open Classical in
/-- The iterations kept of a chain (`tools.py:95-99`); a burn-in fraction is not negative. -/
def mask (mn : ℝ) (burnin : Option ℝ) (r : Emcee) : List Bool :=
  let inds := (iterMean r).map fun m => decide (-m < mn + cutoff)
  match burnin with
  | none => inds
  | some b => inds.mapIdx fun t k => if t < ⌊b * iterations r⌋₊ then false else k

/-- `a[inds]` for an array of booleans. -/
def select (m : List Bool) {α : Type} (l : List α) : List α := ((l.zip m).filter (·.2)).map (·.1)

/-- `a[i::3]` for `i` below three. -/
def every3 (i : ℕ) {α : Type} (l : List α) : List α := (l.zipIdx.filter fun p => p.2 % 3 = i).map (·.1)

/-- Indexing the second axis (iterations) of `chain`, `constrained_chain` and `lnprobs` (`tools.py:114-117` and `tools.py:122-124`); the traces in `_results` stay as they were. -/
def onIterations (f : {α : Type} → List α → List α) (r : Emcee) : Emcee :=
  { r with chain := r.chain.map f, consChain := r.consChain.map fun c => c.map fun p => (p.1, p.2.map f), lnprobs := r.lnprobs.map f }

/-- The chains without burn-in (`tools.py:78-125`): chains of which nothing is left are dropped, a single chain is cut into three. -/
def newResults (mn : ℝ) (burnin : Option ℝ) (chains : List Emcee) : List Emcee :=
  chains.flatMap fun r =>
    let m := mask mn burnin r
    if true ∉ m then []
    else if chains.length = 1 then
      (List.range 3).map fun i => onIterations (fun l => every3 i l) (onIterations (fun l => select m l) r)
    else [onIterations (fun l => select m l) r]

/-- The rows of one chain (`tools.py:131-140`): the free parameters in the order of the chain, then the constrained parameters of the analysis.  `np.vstack` of nothing
raises `ValueError`. -/
def rows (cons : List String) (r : Emcee) : Except Err (List (List ℝ)) :=
  match r.consChain with
  | none => .error .type
  | some c =>
    if cons = [] then .error .value
    else .ok (r.chain.flatten.mapIdx fun k x => x ++ cons.map fun name => (field c name).flatten.getD k 0)

/-- `spam[i][..., num] *= 1./scale` (`tools.py:144-148`), one name after the other. -/
def scaleRows (free cons : List String) (scale : String → ℝ) (rs : List (List ℝ)) : List (List ℝ) :=
  (free ++ cons).foldl (fun rs name => rs.map fun row => row.modify (paramIndex free cons name) fun x => x * (1 / scale name)) rs

/-- `info.combined_result` (`tools.py:152-155`); the burn-in is then set to zero. -/
def combine : List Emcee → Except Err Emcee
  | [] => .error .analyze
  | r :: rs =>
    match rs.foldlM (fun a b => a.add b) r with
    | .error _ => .error .value
    | .ok r => .ok (r.setBurnin 0)

/-- The options of an analysis: `burnin`, `thin`, `scales` (one by default), latex names. -/
structure Options where
  burnin : Option ℝ
  thin : ℤ
  scale : String → ℝ
  tex : List String

/-- What an analysis leaves in the driver. -/
structure Info where
  free : List String
  cons : List String
  minMinus : ℝ
  steps : ℕ
  accepted : ℕ
  combined : Emcee
  R : List (Option ℝ)
  chain : List (List ℝ)

/-- `info.ref_names` -/
def Info.names (i : Info) : List String := i.free ++ i.cons

/-- `prepare` and `convergence` for chains loaded from files (`tools.py:166-366`, `stats.py:28-84`).  Thinning indexes the constrained chain, an array with two axes, with three
indices (`tools.py:20`), which raises `IndexError`. -/
def analyse (o : Options) (loaded : List Emcee) : Except Err Info := do
  let chains ← recover loaded
  let (free, cons) ← extract o.tex chains
  if o.thin ≠ 1 then .error .index
  else
    match minMinusLkl chains with
    | none => .error .value
    | some mn =>
      let new := newResults mn o.burnin chains
      if new = [] then .error .analyze
      else
        let raw ← new.mapM (rows cons)
        let spam := raw.map (scaleRows free cons o.scale)
        let combined ← combine new
        let idx := (free ++ cons).map (paramIndex free cons)
        .ok {
          free := free, cons := cons, minMinus := mn
          steps := (chains.map fun r => (mask mn o.burnin r).length).sum
          accepted := (chains.map fun r => ((mask mn o.burnin r).filter (·)).length).sum
          combined := combined
          R := (List.range (free ++ cons).length).map fun d =>
            match gelmanRubin (spam.map fun rs => rs.map fun row => row.getD d 0) with
            | .ok v => v
            | .error _ => none
          chain := (spam.map fun rs => rs.map fun row => idx.map fun i => row.getD i 0).flatten }

/-! ### What is reported -/

/-- Covariance of two columns as `np.cov` computes it (`driver.py:226-238`): divided by one less than the number of samples. -/
def cov (xs ys : List ℝ) : ℝ := (List.zipWith (fun x y => (x - mean xs) * (y - mean ys)) xs ys).sum / (xs.length - 1)

/-- `covar`: the entry of row `i` and column `j`, labelled by `ref_names` in the file written by `write_covariance` (`driver.py:353-359`). -/
def Info.covar (i : Info) (a b : ℕ) : ℝ := cov (i.chain.map fun row => row.getD a 0) (i.chain.map fun row => row.getD b 0)

open Classical in
/-- `a.argmax()` of a flattened array: the first position of the largest value. -/
def argmax (l : List ℝ) : ℕ := l.findIdx fun x => decide (∀ y ∈ l, y ≤ x)

/-- The best fit of a parameter (`driver.py:275-278`); `none` for an `IndexError` or a name that is not there. -/
def Info.bestFit (o : Options) (i : Info) (name : String) : Option ℝ :=
  match i.combined.get name with
  | none => none
  | some p => (p.flat[argmax i.combined.lnprobs.flatten]?).map (· / o.scale name)

/-- A line of the table `bestfit_params` (`driver.py:279-297`): the columns and the values, from the median and the one and two sigma bounds (`bounds`) of a parameter. -/
def tableRow (scale R best median : ℝ) (b1 b2 : ℝ × ℝ) : List (String × ℝ) :=
  ["scale", "R", "best_fit", "median", "sigma", "lower_1sigma", "upper_1sigma", "lower_2sigma", "upper_2sigma", "gt_1sigma", "lt_1sigma", "lt_2sigma", "gt_2sigma"].zip
    [scale, R, best, median, 1 / 2 * (b1.2 - b1.1), b1.1, b1.2, b2.1, b2.2, median + b1.1, median + b1.2, median + b2.1, median + b2.2]

/-- A line of the table of `BestfitParameterSet.from_mcmc` (`bestfit.py:366-398`). -/
def mcmcRow (best median : ℝ) (s1 s2 : ℝ × ℝ) : List (String × ℝ) :=
  [("best_fit", best), ("median", median), ("lower_1sigma", s1.1), ("upper_1sigma", s1.2), ("lower_2sigma", s2.1), ("upper_2sigma", s2.2), ("scale", 1),
    ("sigma", 1 / 2 * (|s1.1| + s1.2)), ("gt_1sigma", median + s1.1), ("lt_1sigma", median + s1.2), ("gt_2sigma", median + s2.1), ("lt_2sigma", median + s2.1)]

/-- `error_rescaling` (`driver.py:196-211`) from the numbers of bins, mocks and parameters.  (`(...)**0.5` of a negative number is a complex number with Python 3, NaN for numpy numbers; `Real.sqrt`
gives zero.) -/
def errorRescaling (Nb Ns Np : ℝ) : ℝ :=
  let A := 2 / (Ns - Nb - 1) / (Ns - Nb - 4)
  let B := (Ns - Nb - 2) / (Ns - Nb - 1) / (Ns - Nb - 4)
  Real.sqrt ((1 + B * (Nb - Np)) / (1 + A + B * (Np + 1)))

end

end Verif.Analysis
