/-
The part of `DarkMatterSpectrum` (`pyRSD/rsd/power/dm/power_dm.py`) used by the galaxy and quasar models: the expansion in powers
of `mu`, and the chain-rule factors of the dilation parameters
(`pyRSD/rsd/power/{gal,qso}/derivatives/alpha_{par,perp}.py`).

All functions are element-wise, on exact reals; `interpolated_function` is modelled by the function it interpolates (no interpolation
error), its `derivative=True` form by `deriv`.
-/
import Verif.Model.AP
import Verif.Model.Fog
import Mathlib.Analysis.Calculus.Deriv.Basic

namespace Verif.Rsd

open Verif.AP

noncomputable section

/-- `DarkMatterSpectrum._power` with the AP lock held (`power_dm.py:1144-1160`); `n = max_mu//2`, `P i` is `P_mu{2i}`. -/
def muSum (n : ℕ) (P : ℕ → ℝ → ℝ) (k mu : ℝ) : ℝ := ∑ i ∈ Finset.range (n + 1), mu ^ (2 * i) * P i k

/-- `DarkMatterSpectrum.derivative_k` with the AP lock held (`power_dm.py:1108-1123`). -/
def muSumDk (n : ℕ) (P : ℕ → ℝ → ℝ) (k mu : ℝ) : ℝ := ∑ i ∈ Finset.range (n + 1), mu ^ (2 * i) * deriv (P i) k

/-- `DarkMatterSpectrum.derivative_mu` with the AP lock held (`power_dm.py:1125-1142`). -/
def muSumDmu (n : ℕ) (P : ℕ → ℝ → ℝ) (k mu : ℝ) : ℝ :=
  ∑ i ∈ Finset.range (n + 1), if i ≠ 0 then 2 * (i : ℝ) * mu ^ (2 * i - 1) * P i k else 0

/-- The value of a decorated method called from outside whose body computes `core` (`tools.py:184-222`; that nested decorated
calls do nothing is `C61_once`). -/
def distorted (a : Alphas) (core : ℝ → ℝ → ℝ) (k mu : ℝ) : ℝ :=
  rescale a (core (kAP k mu a.perp a.par) (muAP mu a.perp a.par))

/-- `N = (1. + mu**2 * (1/F**2 - 1.))` with `F = apar/aperp` (`alpha_par.py:17-18`). -/
def apN (a : Alphas) (mu : ℝ) : ℝ := 1 + mu ^ 2 * (1 / (a.par / a.perp) ^ 2 - 1)

/-- `dkprime_da` of `alpha_par.py:28`. -/
def dkDpar (a : Alphas) (k mu : ℝ) : ℝ := -k * mu ^ 2 / (a.par / a.perp * a.par ^ 2) / √(apN a mu)

/-- `dmuprime_da` of `alpha_par.py:29`; `N**1.5` is `N * √N`. -/
def dmuDpar (a : Alphas) (mu : ℝ) : ℝ := -mu * (1 - mu ^ 2) / (a.par / a.perp * a.par * (apN a mu * √(apN a mu)))

/-- `dkprime_da` of `alpha_perp.py:28` (quasars; `:29` galaxies). -/
def dkDperp (a : Alphas) (k mu : ℝ) : ℝ := -k * (1 - mu ^ 2) / a.perp ^ 2 / √(apN a mu)

/-- `dmuprime_da` of `alpha_perp.py:29` (quasars; `:30` galaxies). -/
def dmuDperp (a : Alphas) (mu : ℝ) : ℝ := mu * (1 - mu ^ 2) / (a.par * (apN a mu * √(apN a mu)))

/-- `eval` of `dPgal_dalpha_par` (`gal/derivatives/alpha_par.py:11-31`) and `dPqso_dalpha_par` (`qso/derivatives/alpha_par.py:11-31`): `core`,
`dk`, `dmu` are what `m.power`, `m.derivative_k`, `m.derivative_mu` compute inside the decorator. -/
def alphaParEval (a : Alphas) (core dk dmu : ℝ → ℝ → ℝ) (k mu : ℝ) : ℝ :=
  -distorted a core k mu / a.par + distorted a dk k mu * dkDpar a k mu + distorted a dmu k mu * dmuDpar a mu

/-- `eval` of `dPgal_dalpha_perp` and `dPqso_dalpha_perp` (`alpha_perp.py`). -/
def alphaPerpEval (a : Alphas) (core dk dmu : ℝ → ℝ → ℝ) (k mu : ℝ) : ℝ :=
  -2 * distorted a core k mu / a.perp + distorted a dk k mu * dkDperp a k mu + distorted a dmu k mu * dmuDperp a mu

end

end Verif.Rsd
