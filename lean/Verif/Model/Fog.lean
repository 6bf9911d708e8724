/-
Model of the finger-of-god kernels: `pyRSD/rsd/power/gal/fog_kernels.py`.  Element by element (`broadcast_kmu` only aligns the shapes).
-/
import Mathlib.Analysis.SpecialFunctions.Exp

namespace Verif.Rsd

noncomputable section

/-- The kernels of `FOGKernel.factory` (`fog_kernels.py:8-17`). -/
inductive Fog where
  | modifiedLorentzian
  | lorentzian
  | gaussian

/-- `__kernel__` (`fog_kernels.py:48-49, 63-64, 78-79`). -/
def Fog.kernel : Fog → ℝ → ℝ
  | .modifiedLorentzian, x => 1 / (1 + 0.5 * x ^ 2) ^ 2
  | .lorentzian, x => 1 / (1 + 0.5 * x ^ 2)
  | .gaussian, x => Real.exp (-0.5 * x ^ 2)

/-- `__derivative__` (`fog_kernels.py:51-52, 66-67, 81-82`). -/
def Fog.derivative : Fog → ℝ → ℝ
  | .modifiedLorentzian, x => -2 * x / (1 + 0.5 * x ^ 2) ^ 3
  | .lorentzian, x => -x / (1 + 0.5 * x ^ 2) ^ 2
  | .gaussian, x => -x * Real.exp (-0.5 * x ^ 2)

/-- `__call__(k, mu, sigma)` (`fog_kernels.py:19-22`). -/
def Fog.G (g : Fog) (k mu sigma : ℝ) : ℝ := g.kernel (k * mu * sigma)

/-- `derivative_k` (`fog_kernels.py:24-27`). -/
def Fog.dk (g : Fog) (k mu sigma : ℝ) : ℝ := g.derivative (k * mu * sigma) * mu * sigma

/-- `derivative_mu` (`fog_kernels.py:29-32`). -/
def Fog.dmu (g : Fog) (k mu sigma : ℝ) : ℝ := g.derivative (k * mu * sigma) * k * sigma

/-- `derivative_sigma` (`fog_kernels.py:34-37`). -/
def Fog.dsigma (g : Fog) (k mu sigma : ℝ) : ℝ := g.derivative (k * mu * sigma) * k * mu

end

end Verif.Rsd
