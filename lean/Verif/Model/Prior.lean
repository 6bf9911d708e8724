/-
Model of the prior and bound distributions, `pyRSD/rsdfit/parameters/distributions.py`, and of the prior-related part
of `pyRSD/rsdfit/parameters/parameter.py`.

Numbers: floating point values are `nan`, `-inf`, `+inf` or an exact real (no rounding, no overflow, no signed zero).
-/
import Mathlib.Analysis.SpecialFunctions.Log.Basic
import Mathlib.Analysis.SpecialFunctions.Trigonometric.Basic

namespace Verif.Priors

open Classical

noncomputable section

/-- A Python float: not-a-number, the two infinities, or an (exact) real. -/
inductive Flt where
  | nan
  | ninf
  | pinf
  | fin (r : ℝ)

namespace Flt

/-- IEEE addition (contract of `+` on floats, used in `parameter.py:419,423,437,441`). -/
def add : Flt → Flt → Flt
  | nan, _ => nan
  | _, nan => nan
  | fin a, fin b => fin (a + b)
  | fin _, y => y
  | x, fin _ => x
  | pinf, pinf => pinf
  | ninf, ninf => ninf
  | pinf, ninf => nan
  | ninf, pinf => nan

/-- IEEE negation. -/
def neg : Flt → Flt
  | nan => nan
  | ninf => pinf
  | pinf => ninf
  | fin a => fin (-a)

/-- IEEE subtraction. -/
def sub (x y : Flt) : Flt := add x (neg y)

/-- IEEE `<`: false as soon as one side is `nan`. -/
def lt : Flt → Flt → Bool
  | fin a, fin b => decide (a < b)
  | ninf, fin _ => true
  | ninf, pinf => true
  | fin _, pinf => true
  | _, _ => false

/-- IEEE `<=`: false as soon as one side is `nan`. -/
def le : Flt → Flt → Bool
  | fin a, fin b => decide (a ≤ b)
  | ninf, nan => false
  | ninf, _ => true
  | nan, pinf => false
  | _, pinf => true
  | _, _ => false

end Flt

open Flt

/-- `BoundDistribution` (`distributions.py:24-31`).  `upper = false` is `MinimumBound` (sign `1.`, lines 52-55),
`upper = true` is `MaximumBound` (sign `-1.`, lines 57-60). -/
structure Bound where
  upper : Bool
  value : Flt
  analytic : Bool

/-- `x = self.sign * (x-self.value)` (`distributions.py:34, 41, 48`). -/
def Bound.signed (b : Bound) (x : Flt) : Flt :=
  if b.upper then neg (sub x b.value) else sub x b.value

/-- `-np.logaddexp(0, -2*k*x)` (`distributions.py:45`), with `logaddexp(0, y) = log(1 + exp y)`; for `k > 0`. -/
def negLogAddExp (k : ℝ) : Flt → Flt
  | nan => nan
  | ninf => ninf
  | pinf => fin 0
  | fin x => fin (-Real.log (1 + Real.exp (-2 * k * x)))

/-- `BoundDistribution.log_pdf` (`distributions.py:40-45`); the default is `k = 1000`. -/
def Bound.logPdf (b : Bound) (k : ℝ) (x : Flt) : Flt :=
  let y := b.signed x
  if !b.analytic then (if lt y (fin 0) then ninf else fin 0) else negLogAddExp k y

/-- `BoundDistribution.deriv_log_pdf` (`distributions.py:47-50`).  The flag `analytic` is not consulted.
At `y = +inf` the ratio is `exp(-inf) = 0`; at `y = -inf` it is `exp(inf - inf) = nan`. -/
def Bound.derivLogPdf (b : Bound) (k : ℝ) (x : Flt) : Flt :=
  match b.signed x with
  | nan => nan
  | ninf => nan
  | pinf => fin 0
  | fin y =>
    fin (2 * k * (if b.upper then -1 else 1) *
      Real.exp (-2 * k * y - Real.log (1 + Real.exp (-2 * k * y))))

/-- A prior distribution object: `Normal` (`distributions.py:108-291`) or `Uniform` (`distributions.py:294-523`).
Simplification: `lower`/`upper` are numbers, not callables. -/
inductive Dist where
  | normal (mu sigma : ℝ)
  | uniform (lower upper : ℝ) (analytic : Bool)

/-- Contract of `scipy.stats.uniform.logpdf(x, loc, scale)`: `nan` unless `scale > 0`; `nan` at `nan`; `-inf` outside
the closed interval `[loc, loc+scale]`; `-log(scale)` inside. -/
def scipyUniformLogPdf (x : Flt) (loc scale : ℝ) : Flt :=
  if 0 < scale then
    match x with
    | nan => nan
    | ninf => ninf
    | pinf => ninf
    | fin a => if 0 ≤ (a - loc) / scale ∧ (a - loc) / scale ≤ 1 then fin (-Real.log scale) else ninf
  else nan

/-- `Uniform._analytic_log_pdf` (`distributions.py:365-371`), with `_center`, `_width` of lines 315-316.  For `k > 0` and
non-zero width: at `x = ±inf`, `y_ = -inf` and the result is `-inf`. -/
def uniformAnalyticLogPdf (k lower upper : ℝ) : Flt → Flt
  | nan => nan
  | ninf => ninf
  | pinf => ninf
  | fin x =>
    let y := (x - 0.5 * (lower + upper)) / (upper - lower)
    let y_ := 0.25 - y ^ 2
    fin (-Real.log (upper - lower) - Real.log (1 + Real.exp (-2 * k * y_)))

/-- `Uniform._analytic_deriv_log_pdf` (`distributions.py:373-381`). -/
def uniformAnalyticDerivLogPdf (k lower upper : ℝ) : Flt → Flt
  | fin x =>
    let y := (x - 0.5 * (lower + upper)) / (upper - lower)
    let y_ := 0.25 - y ^ 2
    let ratio := Real.exp (-2 * k * y_ - Real.log (1 + Real.exp (-2 * k * y_)))
    fin ((1 / (upper - lower)) * -4 * y * k * ratio)
  | _ => nan

/-- `Normal.log_pdf` (`distributions.py:231-237`) and `Uniform.log_pdf` (`distributions.py:440-450`). -/
def Dist.logPdf (k : ℝ) : Dist → Flt → Flt
  | .normal mu sigma, x =>
    match x with
    | nan => nan
    | ninf => ninf
    | pinf => ninf
    | fin a =>
      let y := (a - mu) / sigma
      fin (-0.5 * Real.log (2 * Real.pi * sigma ^ 2) - 0.5 * y ^ 2)
  | .uniform lower upper analytic, x =>
    if !analytic then scipyUniformLogPdf x lower (upper - lower)
    else uniformAnalyticLogPdf k lower upper x

/-- `Normal.deriv_log_pdf` (`distributions.py:239-244`) and `Uniform.deriv_log_pdf` (`distributions.py:452-457`; the flag
`analytic` is not consulted). -/
def Dist.derivLogPdf (k : ℝ) : Dist → Flt → Flt
  | .normal mu sigma, x =>
    match x with
    | nan => nan
    | ninf => pinf
    | pinf => ninf
    | fin a => fin ((mu - a) / sigma ^ 2)
  | .uniform lower upper _, x => uniformAnalyticDerivLogPdf k lower upper x

/-- The prior-related content of a `Parameter`: the two bound objects (`parameter.py:373-385`) and the prior object
(`parameter.py:343-355`). -/
structure Prior where
  minB : Bound
  maxB : Bound
  dist : Option Dist

/-- `Parameter.lnprior` at the value `x` (`parameter.py:409-425`), `k` being the default `1000` of the distributions. -/
def Prior.lnprior (k : ℝ) (p : Prior) (x : Flt) : Flt :=
  let l := add (p.minB.logPdf k x) (p.maxB.logPdf k x)
  match p.dist with
  | none => l
  | some d => add l (d.logPdf k x)

/-- `Parameter.dlnprior` at the value `x` (`parameter.py:427-443`). -/
def Prior.dlnprior (k : ℝ) (p : Prior) (x : Flt) : Flt :=
  let l := add (p.minB.derivLogPdf k x) (p.maxB.derivLogPdf k x)
  match p.dist with
  | none => l
  | some d => add l (d.derivLogPdf k x)

/-- `Parameter.within_bounds(x)` (`parameter.py:445-456`). -/
def Prior.withinBounds (p : Prior) (x : Flt) : Bool :=
  let t := match p.dist with
    | some (.uniform lower upper _) => le (fin lower) x && le x (fin upper)
    | _ => true
  t && (le p.minB.value x && le x p.maxB.value)

/-! ### The parameter object -/

/-- The name of the prior (`parameter.py:333-341`). -/
inductive PriorName where
  | uniform
  | normal
  deriving DecidableEq

/-- The attributes of a `Parameter` that enter its prior, and its cached objects.
* `min`, `max`: `none` is `None`; * `analytic` the stored flag;
* `minB`, `maxB`, `dist`: the cached `min_bound`, `max_bound`, `prior` objects (`none` = not in the cache;
  `dist = some none` is the cached `None`).
Simplification: `lower`, `upper`, `mu`, `sigma` are always set. -/
structure Par where
  value : Flt
  userValue : Flt
  vary : Bool
  min : Option Flt
  max : Option Flt
  priorName : Option PriorName
  lower : ℝ
  upper : ℝ
  mu : ℝ
  sigma : ℝ
  analytic : Bool
  minB : Option Bound
  maxB : Option Bound
  dist : Option (Option Dist)

/-- `cached_property min_bound` (`parameter.py:373-378`, `distributions.py:52-55`): new objects have `analytic=False`. -/
def Par.newMin (p : Par) : Bound := ⟨false, p.min.getD ninf, false⟩

/-- `cached_property max_bound` (`parameter.py:380-385`, `distributions.py:57-60`). -/
def Par.newMax (p : Par) : Bound := ⟨true, p.max.getD pinf, false⟩

/-- `cached_property prior` (`parameter.py:343-355`): new uniform priors have `analytic=False` (`distributions.py:298`). -/
def Par.newDist (p : Par) : Option Dist :=
  match p.priorName with
  | none => none
  | some .uniform => some (.uniform p.lower p.upper false)
  | some .normal => some (.normal p.mu p.sigma)

/-- Reading `min_bound`, `max_bound`, `prior`: the cached object, or a new one that is then cached. -/
def Par.readMin (p : Par) : Bound := p.minB.getD p.newMin
@[inherit_doc Par.readMin]
def Par.readMax (p : Par) : Bound := p.maxB.getD p.newMax
@[inherit_doc Par.readMin]
def Par.readDist (p : Par) : Option Dist := p.dist.getD p.newDist

/-- The prior content seen by `lnprior`, `dlnprior`, `within_bounds`. -/
def Par.prior (p : Par) : Prior := ⟨p.readMin, p.readMax, p.readDist⟩

/-- `Parameter.lnprior` (`parameter.py:409-425`): evaluated at `user_value`. -/
def Par.lnprior (k : ℝ) (p : Par) : Flt := p.prior.lnprior k p.userValue

/-- `Parameter.dlnprior` (`parameter.py:427-443`): evaluated at `user_value`. -/
def Par.dlnprior (k : ℝ) (p : Par) : Flt := p.prior.dlnprior k p.userValue

/-- `Parameter.within_bounds(x)` (`parameter.py:445-456`). -/
def Par.withinBounds (p : Par) (x : Flt) : Bool := p.prior.withinBounds x

/-- After `lnprior`, `dlnprior` or `within_bounds` all three objects are cached. -/
def Par.touch (p : Par) : Par :=
  { p with minB := some p.readMin, maxB := some p.readMax, dist := some p.readDist }

/-- Assignment to `analytic` (`parameter.py:238-249`): sets the flags of the current objects. -/
def Par.setAnalytic (p : Par) (val : Bool) : Par :=
  { p with
    analytic := val
    minB := some { p.readMin with analytic := val }
    maxB := some { p.readMax with analytic := val }
    dist :=
      if p.priorName = some .uniform then
        match p.readDist with
        | some (.uniform l u _) => some (some (.uniform l u val))
        | d => some d
      else p.dist }

/-- Assignment to `min` (`parameter.py:251-256`): a changed value drops `min_bound` (`_cache.py:254-262`). -/
def Par.setMin (p : Par) (v : Option Flt) : Par :=
  if v = p.min then p else { p with min := v, minB := none }

/-- Assignment to `max` (`parameter.py:258-263`). -/
def Par.setMax (p : Par) (v : Option Flt) : Par :=
  if v = p.max then p else { p with max := v, maxB := none }

/-- Assignment to `prior_name` (`parameter.py:333-341`). -/
def Par.setPriorName (p : Par) (v : Option PriorName) : Par :=
  if v = p.priorName then p else { p with priorName := v, dist := none }

/-- Assignment to `lower` (`parameter.py:305-310`). -/
def Par.setLower (p : Par) (v : ℝ) : Par := if v = p.lower then p else { p with lower := v, dist := none }
/-- Assignment to `upper` (`parameter.py:312-317`). -/
def Par.setUpper (p : Par) (v : ℝ) : Par := if v = p.upper then p else { p with upper := v, dist := none }
/-- Assignment to `mu` (`parameter.py:319-324`). -/
def Par.setMu (p : Par) (v : ℝ) : Par := if v = p.mu then p else { p with mu := v, dist := none }
/-- Assignment to `sigma` (`parameter.py:326-331`). -/
def Par.setSigma (p : Par) (v : ℝ) : Par := if v = p.sigma then p else { p with sigma := v, dist := none }

/-- Assignment to `value` (`parameter.py:270-288`), for numbers. -/
def Par.setValue (p : Par) (v : Flt) : Par := { p with value := v, userValue := v }

/-- Reading `value` of a parameter without constraint expression (`parameter.py:164-199`).  For a varying parameter the
clamped value is written back through the setter, hence also into `user_value`.  `self.max`/`self.min` are the numbers
set by lmfit's `setup_bounds` (contract: `None` becomes `±inf`). -/
def Par.getValue (p : Par) : Flt × Par :=
  if !p.vary then (p.value, p)
  else
    let v := p.value
    let v := if lt (p.max.getD pinf) v then p.max.getD pinf else v
    let v := if lt v (p.min.getD ninf) then p.min.getD ninf else v
    (v, p.setValue v)

end

end Verif.Priors

namespace Verif.Priors
noncomputable section
open Classical

/-- A newly built parameter (`parameter.py:87-138`): nothing cached, then `self.analytic = analytic` (line 138).
Simplification: `value` and `user_value` start at arbitrary numbers. -/
def Par.new (value userValue : Flt) (vary : Bool) (min max : Option Flt) (priorName : Option PriorName)
    (lower upper mu sigma : ℝ) (analytic : Bool) : Par :=
  (Par.mk value userValue vary min max priorName lower upper mu sigma false none none none).setAnalytic analytic

/-- What a user can do to a parameter. -/
inductive Op where
  | setValue (v : Flt)
  | getValue
  | evalPrior              -- `lnprior`, `dlnprior`, `within_bounds(...)`
  | setAnalytic (b : Bool)
  | setMin (v : Option Flt)
  | setMax (v : Option Flt)
  | setPriorName (v : Option PriorName)
  | setLower (v : ℝ)
  | setUpper (v : ℝ)
  | setMu (v : ℝ)
  | setSigma (v : ℝ)

/-- One operation. -/
def Par.step (p : Par) : Op → Par
  | .setValue v => p.setValue v
  | .getValue => p.getValue.2
  | .evalPrior => p.touch
  | .setAnalytic b => p.setAnalytic b
  | .setMin v => p.setMin v
  | .setMax v => p.setMax v
  | .setPriorName v => p.setPriorName v
  | .setLower v => p.setLower v
  | .setUpper v => p.setUpper v
  | .setMu v => p.setMu v
  | .setSigma v => p.setSigma v

/-- A history. -/
def Par.run (p : Par) (ops : List Op) : Par := ops.foldl Par.step p

end
end Verif.Priors
