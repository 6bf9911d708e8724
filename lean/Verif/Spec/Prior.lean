/-
What a user expects of priors and bounds, written without the functions of the model.
-/
import Verif.Model.Prior
import Mathlib.Data.EReal.Basic
import Mathlib.Analysis.SpecialFunctions.Pow.Real

namespace Verif.Priors
noncomputable section
open Classical

/-- A float that is a number, as an extended real. -/
def Flt.toE : Flt → EReal
  | .nan => 0
  | .ninf => ⊥
  | .pinf => ⊤
  | .fin r => r

/-- `x` is inside the inclusive bounds and inside the support of a uniform prior. -/
def Inside (p : Par) (x : Flt) : Prop :=
  (∀ m, p.min = some m → m.toE ≤ x.toE) ∧ (∀ m, p.max = some m → x.toE ≤ m.toE) ∧
  (p.priorName = some .uniform → (p.lower : EReal) ≤ x.toE ∧ x.toE ≤ (p.upper : EReal))

/-- The density of the prior at a number inside (1 if there is no prior). -/
def density (p : Par) (x : ℝ) : ℝ :=
  match p.priorName with
  | none => 1
  | some .uniform => 1 / (p.upper - p.lower)
  | some .normal => Real.exp (-(x - p.mu) ^ 2 / (2 * p.sigma ^ 2)) / Real.sqrt (2 * Real.pi * p.sigma ^ 2)

/-- The prior is a proper distribution and the bounds are numbers. -/
def Proper (p : Par) : Prop :=
  p.min ≠ some .nan ∧ p.max ≠ some .nan ∧
  (p.priorName = some .uniform → p.lower < p.upper) ∧ (p.priorName = some .normal → 0 < p.sigma)

/-- The smooth step `log σ(2k·y)`, by which a bound is approximated: close to 0 for `y > 0`, very negative for
`y < 0`. -/
def smoothStep (k y : ℝ) : ℝ := Real.log (1 / (1 + Real.exp (-2 * k * y)))

/-- The contribution of a bound: nothing if unset or infinite. -/
def smoothBound (k : ℝ) (m : Option Flt) (f : ℝ → ℝ) : ℝ :=
  match m with
  | some (.fin a) => smoothStep k (f a)
  | _ => 0

/-- The smooth log-prior: smooth steps at the bounds; a uniform prior is `1/(u-l)` times a smooth step in `¼ - y²`, where
`y` is the distance to the centre in units of the width; a normal prior is used as it is. -/
def smoothLnprior (k : ℝ) (p : Par) (x : ℝ) : ℝ :=
  smoothBound k p.min (fun a => x - a) + smoothBound k p.max (fun a => a - x) +
  match p.priorName with
  | some .uniform =>
    Real.log (1 / (p.upper - p.lower))
      + smoothStep k (1 / 4 - ((x - (p.lower + p.upper) / 2) / (p.upper - p.lower)) ^ 2)
  | _ => Real.log (density p x)

end
end Verif.Priors
