/-
Model of the scaling of the free parameters: `pyRSD/rsdfit/theory/base.py:346-367` and
`pyRSD/rsdfit/parameters/parameter.py:535-561`.
-/
import Mathlib.Data.Real.Basic

namespace Verif.Scale

noncomputable section

/-- The prior of a free parameter (`None` is not modelled: `scale`/`loc` raise ValueError, `parameter.py:541,555`). -/
inductive PriorOf where
  | uniform (lower upper : ℝ)
  | normal (mu sigma : ℝ)

/-- `Parameter.scale` (`parameter.py:535-547`). -/
def PriorOf.scale : PriorOf → ℝ
  | .uniform lower upper => 0.5 * (upper - lower)
  | .normal _ sigma => 2 * sigma

/-- `Parameter.loc` (`parameter.py:549-561`). -/
def PriorOf.loc : PriorOf → ℝ
  | .uniform lower upper => 0.5 * (upper + lower)
  | .normal mu _ => mu

variable {n : ℕ}

/-- `BasePowerParameters.scale(theta)` (`theory/base.py:346-351`). -/
def scale (ps : Fin n → PriorOf) (theta : Fin n → ℝ) : Fin n → ℝ := fun i => (theta i - (ps i).loc) / (ps i).scale

/-- `BasePowerParameters.inverse_scale(theta)` (`theory/base.py:353-358`). -/
def inverseScale (ps : Fin n → PriorOf) (theta : Fin n → ℝ) : Fin n → ℝ := fun i => theta i * (ps i).scale + (ps i).loc

/-- `BasePowerParameters.scale_gradient(grad)` (`theory/base.py:360-367`). -/
def scaleGradient (ps : Fin n → PriorOf) (grad : Fin n → ℝ) : Fin n → ℝ := fun i => grad i * (ps i).scale

end

end Verif.Scale
