/-
Model of the analytic derivatives of the galaxy power: `pyRSD/rsd/power/gal/derivatives/*.py`.

`eval(m, pars, k, mu)` is a function of the state of the model `m`; each call of a method of `m` contributes the value it returns
(`value`).  `with m.preserve()` is the restoration of the state afterwards (its failures are C03), so the changes made inside are
modelled by evaluating at a changed copy of `m`.  Element-wise on exact reals.
-/
import Verif.Model.Gal

namespace Verif.Rsd

open Verif.AP

noncomputable section

variable {E : Type}

/-- The number returned by an evaluation in state `m` (0 if it raises; used only for evaluations that do not). -/
def value (x : Ev E) (m : GalM) : ℝ :=
  match (x m).1 with
  | .ok v => v
  | .error _ => 0

/-- The coordinates `kprime`, `muprime` computed by the derivatives. -/
def GalM.kp (m : GalM) (k mu : ℝ) : ℝ := kAP k mu m.alphas.perp m.alphas.par
@[inherit_doc GalM.kp]
def GalM.mup (m : GalM) (mu : ℝ) : ℝ := muAP mu m.alphas.perp m.alphas.par

/-- `Pgal_cc`, `Pgal_cs`, ... (`power_gal.py:291-399`): the decorated component spectra. -/
def Pcc (base : BaseOps E) (m : GalM) (k mu : ℝ) : ℝ := value (decorated (tcc base).call k mu) m
@[inherit_doc Pcc] def PcAcA (base : BaseOps E) (m : GalM) (k mu : ℝ) : ℝ := value (decorated (tcAcA base).call k mu) m
@[inherit_doc Pcc] def PcAcB (base : BaseOps E) (m : GalM) (k mu : ℝ) : ℝ := value (decorated (tcAcB base).call k mu) m
@[inherit_doc Pcc] def PcBcB (base : BaseOps E) (m : GalM) (k mu : ℝ) : ℝ := value (decorated (tcBcB base).call k mu) m
@[inherit_doc Pcc] def Pcs (base : BaseOps E) (m : GalM) (k mu : ℝ) : ℝ := value (decorated (tcs base).call k mu) m
@[inherit_doc Pcc] def PcAsA (base : BaseOps E) (m : GalM) (k mu : ℝ) : ℝ := value (decorated (tcAsA base).call k mu) m
@[inherit_doc Pcc] def PcAsB (base : BaseOps E) (m : GalM) (k mu : ℝ) : ℝ := value (decorated (tcAsB base).call k mu) m
@[inherit_doc Pcc] def PcBsA (base : BaseOps E) (m : GalM) (k mu : ℝ) : ℝ := value (decorated (tcBsA base).call k mu) m
@[inherit_doc Pcc] def PcBsB (base : BaseOps E) (m : GalM) (k mu : ℝ) : ℝ := value (decorated (tcBsB base).call k mu) m
@[inherit_doc Pcc] def Pss (base : BaseOps E) (m : GalM) (k mu : ℝ) : ℝ := value (decorated (tss base).call k mu) m
@[inherit_doc Pcc] def PsAsA (base : BaseOps E) (m : GalM) (k mu : ℝ) : ℝ := value (decorated (tsAsA base).call k mu) m
@[inherit_doc Pcc] def PsAsB (base : BaseOps E) (m : GalM) (k mu : ℝ) : ℝ := value (decorated (tsAsB base).call k mu) m
@[inherit_doc Pcc] def PsBsB (base : BaseOps E) (m : GalM) (k mu : ℝ) : ℝ := value (decorated (tsBsB base).call k mu) m

/-- `dPgal_dfs.eval` (`derivatives/fs.py:10-15`). -/
def dFs (base : BaseOps E) (m : GalM) (k mu : ℝ) : ℝ :=
  -2 * (1 - m.fs) * Pcc base m k mu + 2 * (1 - 2 * m.fs) * Pcs base m k mu + 2 * m.fs * Pss base m k mu

/-- `dPgal_dfsB.eval` (`derivatives/fsB.py:11-14`). -/
def dFsB (base : BaseOps E) (m : GalM) (k mu : ℝ) : ℝ :=
  let toret := 2 * (-(1 - m.fsB) * PsAsA base m k mu + (1 - 2 * m.fsB) * PsAsB base m k mu + m.fsB * PsBsB base m k mu)
  m.fs ^ 2 * toret

/-- `dPgal_dfcB.eval` (`derivatives/fcB.py:12-30`). -/
def dFcB (base : BaseOps E) (m : GalM) (k mu : ℝ) : ℝ :=
  let term1 := 2 * (-(1 - m.fcB) * PcAcA base m k mu + (1 - 2 * m.fcB) * PcAcB base m k mu + m.fcB * PcBcB base m k mu)
  let term2 := (1 - m.fsB) * (-PcAsA base m k mu + PcBsA base m k mu) + m.fsB * (-PcAsB base m k mu + PcBsB base m k mu)
  let term1 :=
    if m.useSo then
      let G1 := m.fog.G (m.kp k mu) (m.mup mu) m.sigmaC
      let G2 := m.fog.G (m.kp k mu) (m.mup mu) m.sigmaSo
      term1 * (((1 - m.fso) * G1) ^ 2 + 2 * m.fso * (1 - m.fso) * G1 * G2 + (m.fso * G2) ^ 2)
        + 2 * G1 * G2 * m.fso * m.NcBs / (m.alphas.perp ^ 2 * m.alphas.par)
    else term1
  (1 - m.fs) ^ 2 * term1 + 2 * m.fs * (1 - m.fs) * term2

/-- `dPgal_dNcBs.eval` (`derivatives/NcBs.py:12-31`). -/
def dNcBs (m : GalM) (k mu : ℝ) : ℝ :=
  let Gc := m.fog.G (m.kp k mu) (m.mup mu) m.sigmaC
  let GsA := m.fog.G (m.kp k mu) (m.mup mu) m.sigmaSA
  let GsB := m.fog.G (m.kp k mu) (m.mup mu) m.sigmaSB
  let toret := 2 * m.fs * (1 - m.fs) * m.fcB * Gc * ((1 - m.fsB) * GsA + m.fsB * GsB)
  let toret :=
    if m.useSo then
      let G2 := m.fog.G (m.kp k mu) (m.mup mu) m.sigmaSo
      toret + (1 - m.fs) ^ 2 * 2 * Gc * G2 * m.fso * m.fcB
    else toret
  toret / (m.alphas.perp ^ 2 * m.alphas.par)

/-- `dPgal_dNsBsB.eval` (`derivatives/NsBsB.py:12-18`). -/
def dNsBsB (m : GalM) (k mu : ℝ) : ℝ :=
  (m.fs * m.fsB * m.fog.G (m.kp k mu) (m.mup mu) m.sigmaSB) ^ 2 / (m.alphas.perp ^ 2 * m.alphas.par)

/-- `dPgal_df_so.eval` (`derivatives/f_so.py:13-37`). -/
def dFso (base : BaseOps E) (m : GalM) (k mu : ℝ) : ℝ :=
  if !m.useSo then 0
  else
    let Pcc := (1 - m.fcB) ^ 2 * PcAcA base m k mu + 2 * m.fcB * (1 - m.fcB) * PcAcB base m k mu + m.fcB ^ 2 * PcBcB base m k mu
    let G1 := m.fog.G (m.kp k mu) (m.mup mu) m.sigmaC
    let G2 := m.fog.G (m.kp k mu) (m.mup mu) m.sigmaSo
    let term1 := -2 * (1 - m.fso) * G1 ^ 2 * Pcc
    let term2 := 2 * (1 - 2 * m.fso) * G1 * G2 * Pcc
    let term3 := 2 * m.fso * G2 ^ 2 * Pcc
    let term4 := 2 * G1 * G2 * m.fcB * m.NcBs / m.alphas.perp ^ 2 / m.alphas.par
    (1 - m.fs) ^ 2 * (term1 + term2 + term3 + term4)

/-- `dPgal_dsigma_c.eval` (`derivatives/sigma_c.py:12-39`). -/
def dSigmaC (base : BaseOps E) (m : GalM) (k mu : ℝ) : ℝ :=
  let G := m.fog.G (m.kp k mu) (m.mup mu) m.sigmaC
  let Gprime := m.fog.dsigma (m.kp k mu) (m.mup mu) m.sigmaC
  let m0 := { m with sigmaC := 0 }                          -- line 20
  let m1 := { m0 with useSo := false }                      -- line 26
  let term1 :=
    if !m.useSo then 2 * G * Gprime * Pcc base m0 k mu
    else
      let P := Pcc base m1 k mu
      let G2 := m.fog.G (m.kp k mu) (m.mup mu) m.sigmaSo
      let a := 2 * G * (1 - m.fso) ^ 2 * P
      let b := 2 * m.fso * (1 - m.fso) * G2 * P
      let c := 2 * G2 * m.fso * m.fcB * m.NcBs / (m.alphas.perp ^ 2 * m.alphas.par)
      (a + b + c) * Gprime
  let term2 := Gprime * Pcs base m1 k mu                    -- line 36 (`Pcs` does not use `use_so_correction`)
  (1 - m.fs) ^ 2 * term1 + 2 * m.fs * (1 - m.fs) * term2

/-- `dPgal_dsigma_so.eval` (`derivatives/sigma_so.py:13-37`). -/
def dSigmaSo (base : BaseOps E) (m : GalM) (k mu : ℝ) : ℝ :=
  if !m.useSo then 0
  else
    let G := m.fog.G (m.kp k mu) (m.mup mu) m.sigmaC
    let G2 := m.fog.G (m.kp k mu) (m.mup mu) m.sigmaSo
    let Gprime := m.fog.dsigma (m.kp k mu) (m.mup mu) m.sigmaSo
    let P := Pcc base { m with useSo := false, sigmaC := 0 } k mu
    let term1 := 2 * m.fso * (1 - m.fso) * G * P
    let term2 := 2 * m.fso ^ 2 * G2 * P
    let term3 := 2 * G * m.fso * m.fcB * m.NcBs / (m.alphas.perp ^ 2 * m.alphas.par)
    (1 - m.fs) ^ 2 * ((term1 + term2 + term3) * Gprime)

/-- `dPgal_dalpha_par.eval` (`derivatives/alpha_par.py:11-31`). -/
def dAlphaPar (base : BaseOps E) (m : GalM) (k mu : ℝ) : ℝ :=
  -value (galPower base k mu) m / m.alphas.par + value (galDk base k mu) m * dkDpar m.alphas k mu
    + value (galDmu base k mu) m * dmuDpar m.alphas mu

/-- `dPgal_dalpha_perp.eval` (`derivatives/alpha_perp.py:11-32`). -/
def dAlphaPerp (base : BaseOps E) (m : GalM) (k mu : ℝ) : ℝ :=
  -2 * value (galPower base k mu) m / m.alphas.perp + value (galDk base k mu) m * dkDperp m.alphas k mu
    + value (galDmu base k mu) m * dmuDperp m.alphas mu

end

end Verif.Rsd
