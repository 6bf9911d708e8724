/-
Model of `GalaxySpectrum` (`pyRSD/rsd/power/gal/*.py`), with its mutable model object: evaluating a term temporarily changes the
biases, `sigma_c` and `N` of the model.

Element-wise on exact reals.  The memo of `cacheable` (`core.py:97-121`) is not modelled here (see C08).
-/
import Verif.Model.RsdBase

namespace Verif.Rsd

open Verif.AP

noncomputable section

/-- The attributes of a `GalaxySpectrum` used in its terms (`power_gal.py:142-305`, `power_biased.py:163-176`). -/
structure GalM where
  alphas : Alphas
  fs : ℝ
  fcB : ℝ
  fsB : ℝ
  b1cA : ℝ
  b1cB : ℝ
  b1sA : ℝ
  b1sB : ℝ
  sigmaC : ℝ
  sigmaSA : ℝ
  sigmaSB : ℝ
  NcBs : ℝ
  NsBsB : ℝ
  N : ℝ
  useSo : Bool
  fso : ℝ
  sigmaSo : ℝ
  fog : Fog
  b1 : ℝ
  b1bar : ℝ

/-- An evaluation: from the state of the model to a value or an exception, and a new state. -/
abbrev Ev (E : Type) := GalM → Except E ℝ × GalM

/-- The methods `power`, `derivative_k`, `derivative_mu` of the base class `BiasedSpectrum`, as functions of the biases `b1`, `b1_bar`
then in force and of `k`, `mu` (AP lock held); they may raise. -/
structure BaseOps (E : Type) where
  power : ℝ → ℝ → ℝ → ℝ → Except E ℝ
  dk : ℝ → ℝ → ℝ → ℝ → Except E ℝ
  dmu : ℝ → ℝ → ℝ → ℝ → Except E ℝ

variable {E : Type}

/-- A term: `coefficient`, `__call__`, `derivative_k`, `derivative_mu`. -/
structure Term (E : Type) where
  coeff : GalM → ℝ
  call : ℝ → ℝ → Ev E
  dk : ℝ → ℝ → Ev E
  dmu : ℝ → ℝ → Ev E

/-- `OneHaloTerm` (`core.py:4-37`). -/
def oneHalo (name : GalM → ℝ) : Term E where
  coeff _ := 1
  call _ _ m := (.ok (name m), m)
  dk _ _ m := (.ok 0, m)
  dmu _ _ m := (.ok 0, m)

/-- A call of a base class method inside `set_biases` (`core.py:82-95`): the generator has no `try/finally`, so on an exception the old
biases are not restored. -/
def withBiases (n1 : GalM → ℝ) (n2 : Option (GalM → ℝ)) (f : ℝ → ℝ → Except E ℝ) : Ev E := fun m =>
  let b1 := n1 m                                            -- `self.b1`, line 65
  let b2 := match n2 with                                   -- `self.b2`, lines 72-79
    | none => n1 m
    | some n2 => n2 m
  let m' := { m with b1 := b1, b1bar := b2 }                -- line 90
  match f b1 b2 with
  | .ok v => (.ok v, { m' with b1 := m.b1, b1bar := m.b1bar })   -- line 95
  | .error e => (.error e, m')

/-- `TwoHaloTerm` (`core.py:39-121`). -/
def twoHalo (base : BaseOps E) (n1 : GalM → ℝ) (n2 : Option (GalM → ℝ)) : Term E where
  coeff _ := 1
  call k mu := withBiases n1 n2 (fun b b' => base.power b b' k mu)
  dk k mu := withBiases n1 n2 (fun b b' => base.dk b b' k mu)
  dmu k mu := withBiases n1 n2 (fun b b' => base.dmu b b' k mu)

/-- `sum(coeff*term(k, mu) for coeff, term in self)` (`core.py:158-180`): `acc` is the sum so far. -/
def sumTerms : List ((GalM → ℝ) × Ev E) → ℝ → Ev E
  | [], acc, m => (.ok acc, m)
  | (c, t) :: ts, acc, m =>
    let coeff := c m
    match t m with
    | (.error e, m) => (.error e, m)
    | (.ok v, m) => sumTerms ts (acc + coeff * v) m

/-- `GalaxyPowerTerm` (`core.py:123-180`). -/
def group (coeff : GalM → ℝ) (ts : List (Term E)) : Term E where
  coeff := coeff
  call k mu := sumTerms (ts.map (fun t => (t.coeff, t.call k mu))) 0
  dk k mu := sumTerms (ts.map (fun t => (t.coeff, t.dk k mu))) 0
  dmu k mu := sumTerms (ts.map (fun t => (t.coeff, t.dmu k mu))) 0

/-- `DampedGalaxyPowerTerm.__call__` (`core.py:227-237`). -/
def dampedCall (g : Term E) (s1 : GalM → ℝ) (s2 : Option (GalM → ℝ)) (k mu : ℝ) : Ev E := fun m =>
  let G1 := m.fog.G k mu (s1 m)
  let G2 := match s2 with
    | none => G1
    | some s2 => m.fog.G k mu (s2 m)
  match g.call k mu m with
  | (.error e, m) => (.error e, m)
  | (.ok v, m) => (.ok (G1 * G2 * v + m.N), m)

/-- `DampedGalaxyPowerTerm.derivative_k`/`derivative_mu` (`core.py:239-272`): `D` is the derivative of the kernel, `d` that of the sum. -/
def dampedDeriv (g : Term E) (d : ℝ → ℝ → Ev E) (D : Fog → ℝ → ℝ → ℝ → ℝ) (s1 : GalM → ℝ) (s2 : Option (GalM → ℝ)) (k mu : ℝ) :
    Ev E := fun m =>
  let G1 := m.fog.G k mu (s1 m)
  let G1' := D m.fog k mu (s1 m)
  let G2 := match s2 with
    | none => G1
    | some s2 => m.fog.G k mu (s2 m)
  let G2' := match s2 with
    | none => G1'
    | some s2 => D m.fog k mu (s2 m)
  match d k mu m with
  | (.error e, m) => (.error e, m)
  | (.ok deriv, m) =>
    match g.call k mu m with
    | (.error e, m) => (.error e, m)
    | (.ok power, m) => (.ok (G1 * G2 * deriv + (G2 * G1' + G1 * G2') * power), m)

/-- `DampedGalaxyPowerTerm` (`core.py:182-272`). -/
def damped (coeff : GalM → ℝ) (ts : List (Term E)) (s1 : GalM → ℝ) (s2 : Option (GalM → ℝ)) : Term E :=
  let g := group coeff ts
  { coeff := coeff
    call := dampedCall g s1 s2
    dk := dampedDeriv g g.dk Fog.dk s1 s2
    dmu := dampedDeriv g g.dmu Fog.dmu s1 s2 }

/-- `with SOCorrection(self.model)` (`Pcc/__init__.py:3-19`): `__exit__` runs also on exceptions. -/
def withSO (x : Ev E) : Ev E := fun m =>
  let r := x (if m.useSo then { m with sigmaC := 0 } else m)
  (r.1, { r.2 with sigmaC := m.sigmaC })

/-- `with ZeroShotNoise(self.model)` (`gal/__init__.py:4-16`). -/
def withZeroN (x : Ev E) : Ev E := fun m =>
  let r := x { m with N := 0 }
  (r.1, { r.2 with N := m.N })

/-- A damped term inside `SOCorrection` (`Pcc/PcAcA.py:30-40` and the same in `PcAcB.py`, `PcBcB.py`). -/
def soTerm (t : Term E) : Term E where
  coeff := t.coeff
  call k mu := withSO (t.call k mu)
  dk k mu := withSO (t.dk k mu)
  dmu k mu := withSO (t.dmu k mu)

/-- `PcAcA` (`Pcc/PcAcA.py`). -/
def tcAcA (base : BaseOps E) : Term E :=
  soTerm (damped (fun m => (1 - m.fcB) ^ 2) [twoHalo base GalM.b1cA none] GalM.sigmaC none)

/-- `PcAcB` (`Pcc/PcAcB.py`). -/
def tcAcB (base : BaseOps E) : Term E :=
  soTerm (damped (fun m => 2 * (1 - m.fcB) * m.fcB) [twoHalo base GalM.b1cA (some GalM.b1cB)] GalM.sigmaC none)

/-- `PcBcB` (`Pcc/PcBcB.py`). -/
def tcBcB (base : BaseOps E) : Term E :=
  soTerm (damped (fun m => m.fcB ^ 2) [twoHalo base GalM.b1cB none] GalM.sigmaC none)

/-- `GalaxyPowerTerm(PcAcA, PcAcB, PcBcB)` (`Pcc/__init__.py:33-34`). -/
def gcc (base : BaseOps E) : Term E := group (fun m => (1 - m.fs) ^ 2) [tcAcA base, tcAcB base, tcBcB base]

/-- `Pcc.__call__` (`Pcc/__init__.py:40-62`). -/
def ccCall (base : BaseOps E) (k mu : ℝ) : Ev E := fun m =>
  match withZeroN ((gcc base).call k mu) m with
  | (.error e, m) => (.error e, m)
  | (.ok Pk, m) =>
    if !m.useSo then (.ok Pk, m)
    else
      let G1 := m.fog.G k mu m.sigmaC
      let G2 := m.fog.G k mu m.sigmaSo
      let term1 := (G1 * (1 - m.fso)) ^ 2 * Pk
      let term2 := 2 * m.fso * (1 - m.fso) * G1 * G2 * Pk
      let term3 := (G2 * m.fso) ^ 2 * Pk
      let term4 := 2 * G1 * G2 * m.fso * m.fcB * m.NcBs
      (.ok (term1 + term2 + term3 + term4), m)

/-- `Pcc.derivative_k`, `Pcc.derivative_mu` (`Pcc/__init__.py:64-117`); note that `Pk` is computed without `ZeroShotNoise`. -/
def ccDeriv (base : BaseOps E) (d : ℝ → ℝ → Ev E) (D : Fog → ℝ → ℝ → ℝ → ℝ) (k mu : ℝ) : Ev E := fun m =>
  match d k mu m with
  | (.error e, m) => (.error e, m)
  | (.ok dv, m) =>
    if !m.useSo then (.ok dv, m)
    else
      match (gcc base).call k mu m with
      | (.error e, m) => (.error e, m)
      | (.ok Pk, m) =>
        let G1 := m.fog.G k mu m.sigmaC
        let G2 := m.fog.G k mu m.sigmaSo
        let G1' := D m.fog k mu m.sigmaC
        let G2' := D m.fog k mu m.sigmaSo
        (.ok (((G1 * (1 - m.fso)) ^ 2 + 2 * m.fso * (1 - m.fso) * G1 * G2 + (G2 * m.fso) ^ 2) * dv
          + 2 * G1 * G1' * (1 - m.fso) ^ 2 * Pk
          + 2 * m.fso * (1 - m.fso) * (G1' * G2 + G2' * G1) * Pk
          + 2 * G2 * G2' * m.fso ^ 2 * Pk
          + 2 * m.fso * m.fcB * m.NcBs * (G1' * G2 + G2' * G1)), m)

/-- `Pcc` (`Pcc/__init__.py:27-117`). -/
def tcc (base : BaseOps E) : Term E where
  coeff m := (1 - m.fs) ^ 2
  call := ccCall base
  dk := ccDeriv base (gcc base).dk Fog.dk
  dmu := ccDeriv base (gcc base).dmu Fog.dmu

/-- `PcAsA` (`Pcs/PcAsA.py`). -/
def tcAsA (base : BaseOps E) : Term E :=
  damped (fun m => (1 - m.fcB) * (1 - m.fsB)) [twoHalo base GalM.b1cA (some GalM.b1sA)] GalM.sigmaC (some GalM.sigmaSA)

/-- `PcAsB` (`Pcs/PcAsB.py`). -/
def tcAsB (base : BaseOps E) : Term E :=
  damped (fun m => (1 - m.fcB) * m.fsB) [twoHalo base GalM.b1cA (some GalM.b1sB)] GalM.sigmaC (some GalM.sigmaSB)

/-- `PcBsA` (`Pcs/PcBsA.py`). -/
def tcBsA (base : BaseOps E) : Term E :=
  damped (fun m => m.fcB * (1 - m.fsB)) [twoHalo base GalM.b1cB (some GalM.b1sA), oneHalo GalM.NcBs] GalM.sigmaC (some GalM.sigmaSA)

/-- `PcBsB` (`Pcs/PcBsB.py`). -/
def tcBsB (base : BaseOps E) : Term E :=
  damped (fun m => m.fcB * m.fsB) [twoHalo base GalM.b1cB (some GalM.b1sB), oneHalo GalM.NcBs] GalM.sigmaC (some GalM.sigmaSB)

/-- A group evaluated inside `ZeroShotNoise` (`Pcs/__init__.py:21-29`, `Pss/__init__.py:21-29`); the derivatives are inherited. -/
def zeroNoise (t : Term E) : Term E := { t with call := fun k mu => withZeroN (t.call k mu) }

/-- `Pcs` (`Pcs/__init__.py:8-29`). -/
def tcs (base : BaseOps E) : Term E :=
  zeroNoise (group (fun m => 2 * m.fs * (1 - m.fs)) [tcAsA base, tcAsB base, tcBsA base, tcBsB base])

/-- `PsAsA` (`Pss/PsAsA.py`). -/
def tsAsA (base : BaseOps E) : Term E :=
  damped (fun m => (1 - m.fsB) ^ 2) [twoHalo base GalM.b1sA none] GalM.sigmaSA none

/-- `PsAsB` (`Pss/PsAsB.py`). -/
def tsAsB (base : BaseOps E) : Term E :=
  damped (fun m => 2 * (1 - m.fsB) * m.fsB) [twoHalo base GalM.b1sA (some GalM.b1sB)] GalM.sigmaSA (some GalM.sigmaSB)

/-- `PsBsB` (`Pss/PsBsB.py`). -/
def tsBsB (base : BaseOps E) : Term E :=
  damped (fun m => m.fsB ^ 2) [twoHalo base GalM.b1sB none, oneHalo GalM.NsBsB] GalM.sigmaSB none

/-- `Pss` (`Pss/__init__.py:8-29`). -/
def tss (base : BaseOps E) : Term E := zeroNoise (group (fun m => m.fs ^ 2) [tsAsA base, tsAsB base, tsBsB base])

/-- `Pgal` (`gal/__init__.py:24-42`). -/
def tgal (base : BaseOps E) : Term E := zeroNoise (group (fun _ => 1) [tcc base, tcs base, tss base])

/-- A decorated method of the model whose body is `x` (`power_gal.py:291-441`, `tools.py:184-222`): remap, evaluate, rescale. -/
def decorated (x : ℝ → ℝ → Ev E) (k mu : ℝ) : Ev E := fun m =>
  match x (kAP k mu m.alphas.perp m.alphas.par) (muAP mu m.alphas.perp m.alphas.par) m with
  | (.ok v, m') => (.ok (rescale m.alphas v), m')
  | (.error e, m') => (.error e, m')

/-- `GalaxySpectrum.power` (`power_gal.py:404-425`). -/
def galPower (base : BaseOps E) (k mu : ℝ) : Ev E := decorated (tgal base).call k mu

/-- `GalaxySpectrum.derivative_k`, `derivative_mu` (`power_gal.py:427-441`). -/
def galDk (base : BaseOps E) (k mu : ℝ) : Ev E := decorated (tgal base).dk k mu
@[inherit_doc galDk]
def galDmu (base : BaseOps E) (k mu : ℝ) : Ev E := decorated (tgal base).dmu k mu

end

end Verif.Rsd
