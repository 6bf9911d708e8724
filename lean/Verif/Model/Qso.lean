/-
Model of `QuasarSpectrum` (`pyRSD/rsd/power/qso/power_qso.py`) and of its analytic derivatives
(`pyRSD/rsd/power/qso/derivatives/*.py`).
-/
import Verif.Model.RsdBase

namespace Verif.Rsd

open Verif.AP

noncomputable section

/-- The parameters of a `QuasarSpectrum` that enter `power`; `nMu = max_mu//2`, with `max_mu ∈ {0, 2, 4, 6}` (`power_dm.py:337-345`). -/
structure Qso where
  alphas : Alphas
  b1 : ℝ
  f : ℝ
  fnl : ℝ
  p : ℝ
  sigma8 : ℝ
  sigmaFog : ℝ
  N : ℝ
  nMu : ℕ
  fog : Fog

/-- What depends on the cosmology and the redshift only: `power_lin(k)`, `cosmo.sigma8()`, `alpha_png(k)` (`power_qso.py:171-192`; the
normalisation of the power drops out of it, since the transfer function is divided by its maximum) and `delta_crit`. -/
structure QsoEnv where
  plin : ℝ → ℝ
  sigma8Cosmo : ℝ
  alphaPng : ℝ → ℝ
  deltaCrit : ℝ

/-- `normed_power_lin` (`power_dm.py:570-577, 797-802`). -/
def normedPlin (e : QsoEnv) (m : Qso) (k : ℝ) : ℝ := (m.sigma8 / e.sigma8Cosmo) ^ 2 * e.plin k

/-- `delta_bias` (`power_qso.py:194-202`). -/
def deltaBias (e : QsoEnv) (m : Qso) (k : ℝ) : ℝ :=
  open Classical in
  if m.fnl = 0 then k * 0 else 2 * (m.b1 - m.p) * m.fnl * e.deltaCrit / e.alphaPng k

/-- `btot` (`power_qso.py:204-210`). -/
def btot (e : QsoEnv) (m : Qso) (k : ℝ) : ℝ := m.b1 + deltaBias e m k

/-- `P_mu0, P_mu2, P_mu4, P_mu6` (`power_qso.py:215-241`). -/
def PmuQso (e : QsoEnv) (m : Qso) : ℕ → ℝ → ℝ
  | 0, k => btot e m k ^ 2 * normedPlin e m k
  | 1, k => 2 * m.f * btot e m k * normedPlin e m k
  | 2, k => m.f ^ 2 * normedPlin e m k
  | _, k => k * 0

/-- The body of `power` (`power_qso.py:274-286`). -/
def qsoCore (e : QsoEnv) (m : Qso) (k mu : ℝ) : ℝ :=
  muSum m.nMu (PmuQso e m) k mu * m.fog.G k mu m.sigmaFog ^ 2 + m.N

/-- `QuasarSpectrum.power` (`power_qso.py:243-286`). -/
def qsoPower (e : QsoEnv) (m : Qso) (k mu : ℝ) : ℝ := distorted m.alphas (qsoCore e m) k mu

/-- The body of `derivative_k` (`power_qso.py:291-303`). -/
def qsoDk (e : QsoEnv) (m : Qso) (k mu : ℝ) : ℝ :=
  m.fog.G k mu m.sigmaFog ^ 2 * muSumDk m.nMu (PmuQso e m) k mu +
    2 * m.fog.G k mu m.sigmaFog * m.fog.dk k mu m.sigmaFog * muSum m.nMu (PmuQso e m) k mu

/-- The body of `derivative_mu` (`power_qso.py:305-317`). -/
def qsoDmu (e : QsoEnv) (m : Qso) (k mu : ℝ) : ℝ :=
  m.fog.G k mu m.sigmaFog ^ 2 * muSumDmu m.nMu (PmuQso e m) k mu +
    2 * m.fog.G k mu m.sigmaFog * m.fog.dmu k mu m.sigmaFog * muSum m.nMu (PmuQso e m) k mu

/-- `k_AP`/`mu_AP` as called in the derivatives. -/
def Qso.kp (m : Qso) (k mu : ℝ) : ℝ := kAP k mu m.alphas.perp m.alphas.par
@[inherit_doc Qso.kp]
def Qso.mup (m : Qso) (mu : ℝ) : ℝ := muAP mu m.alphas.perp m.alphas.par

/-- `rescaling = (m.alpha_drag**3) / (m.alpha_perp**2 * m.alpha_par)` (`b1.py:26`, `f.py:21`, `f_nl.py:26`). -/
def Qso.rescaling (m : Qso) : ℝ := m.alphas.drag ^ 3 / (m.alphas.perp ^ 2 * m.alphas.par)

/-- `dPqso_dalpha_par.eval` (`alpha_par.py:11-31`). -/
def dQsoAlphaPar (e : QsoEnv) (m : Qso) (k mu : ℝ) : ℝ := alphaParEval m.alphas (qsoCore e m) (qsoDk e m) (qsoDmu e m) k mu

/-- `dPqso_dalpha_perp.eval` (`alpha_perp.py:11-31`). -/
def dQsoAlphaPerp (e : QsoEnv) (m : Qso) (k mu : ℝ) : ℝ := alphaPerpEval m.alphas (qsoCore e m) (qsoDk e m) (qsoDmu e m) k mu

/-- `dPqso_db1.eval` (`b1.py:12-27`). -/
def dQsoB1 (e : QsoEnv) (m : Qso) (k mu : ℝ) : ℝ :=
  let k' := m.kp k mu
  let mu' := m.mup mu
  let dbtot := 1 + 2 * m.fnl * e.deltaCrit / e.alphaPng k'
  let G := m.fog.G k' mu' m.sigmaFog
  m.rescaling * G ^ 2 * (2 * PmuQso e m 0 k' + mu' ^ 2 * PmuQso e m 1 k') * dbtot / btot e m k'

/-- `dPqso_df.eval` (`f.py:11-24`). -/
def dQsoF (e : QsoEnv) (m : Qso) (k mu : ℝ) : ℝ :=
  let k' := m.kp k mu
  let mu' := m.mup mu
  let G := m.fog.G k' mu' m.sigmaFog
  let mu2 := mu' ^ 2
  m.rescaling * G ^ 2 * mu2 * (PmuQso e m 1 k' + 2 * PmuQso e m 2 k' * mu2) / m.f

/-- `dPqso_df_nl.eval` (`f_nl.py:12-30`). -/
def dQsoFnl (e : QsoEnv) (m : Qso) (k mu : ℝ) : ℝ :=
  let k' := m.kp k mu
  let mu' := m.mup mu
  let G := m.fog.G k' mu' m.sigmaFog
  let ddb := 2 * (m.b1 - m.p) * e.deltaCrit / e.alphaPng k'
  m.rescaling * G ^ 2 * (2 * PmuQso e m 0 k' + PmuQso e m 1 k' * mu' ^ 2) / btot e m k' * ddb

/-- `dPqso_dsigma8_z.eval` (`sigma8_z.py:11-13`). -/
def dQsoSigma8 (e : QsoEnv) (m : Qso) (k mu : ℝ) : ℝ := 2 * qsoPower e m k mu / m.sigma8

/-- `dPqso_dsigma_fog.eval` (`sigma_fog.py:13-27`). -/
def dQsoSigmaFog (e : QsoEnv) (m : Qso) (k mu : ℝ) : ℝ :=
  let k' := m.kp k mu
  let mu' := m.mup mu
  let G := m.fog.G k' mu' m.sigmaFog
  open Classical in
  if G ≠ 0 then 2 * m.fog.dsigma k' mu' m.sigmaFog * qsoPower e m k mu / G else 0

end

end Verif.Rsd
