/-
The cosmology object: `Cosmology` (`pyRSD/_gcl/cpp/Cosmology.cpp`, `include/Cosmology.h`), its Python side (`pyRSD/pygcl.py:49-90`, `_gcl/python/Cosmology.i`, `_gcl/python/ClassParams.i`),
`to_class` (`rsd/cosmology.py:363-397`), `LinearPS` (`_gcl/cpp/LinearPS.cpp`) and `Sigma` (`_gcl/cpp/PowerSpectrum.cpp:28-42`).

Simplifications: a run of CLASS is a given function of the parameters, and it does not fail; parameter values are strings, and the conversions between strings and numbers are the identity;
`VerifyCLASSOutput`, which adds to the parameter `output`, is left out; the integral `Integrate<ExpSub>` is the exact one; `CubicSpline` is a given function of the table.  Where C++ would read
a variable that was never set, the outcome is `none`.
-/
import Mathlib.Analysis.SpecialFunctions.Pow.Real
import Mathlib.Analysis.SpecialFunctions.Trigonometric.Basic
import Mathlib.MeasureTheory.Integral.IntervalIntegral.Basic

namespace Verif.Cosmo

noncomputable section

/-- `TransferFit::Type` (`Cosmology.h:8-15`) -/
inductive Fit | CLASS | EH | EH_NoWiggle | BBKS | FromArrays
  deriving DecidableEq

/-- `ClassParams`: a map of strings (`ClassParams.h:64`) -/
abbrev Params := String → Option String

/-- a table of wavenumbers and values: `ki`, `Ti` -/
abbrev Table := List (ℝ × ℝ)

/-- the results of a run of CLASS that are used here (`ClassEngine.h:76-113`, `ClassEngine.cpp:541-549`); `table` is the transfer function at `z = 0` on the 500 wavenumbers of
`ComputeCLASSTransferFunction` (`Cosmology.cpp:249-252`) -/
structure Run where
  sigma8 : ℝ
  sigma8z : ℝ → ℝ
  ns : ℝ
  A_s : ℝ
  h : ℝ
  Om : ℝ
  Ob : ℝ
  Tcmb : ℝ
  table : Table

/-- what is outside: CLASS, the interpolation, the parameters in a file -/
structure World where
  run : Params → Run
  spline : Table → ℝ → ℝ
  readParams : String → Params

/-- the members set with the spline (`Cosmology.cpp:274-286`) -/
structure Spl where
  tab : Table
  k0 : ℝ
  T0 : ℝ
  T0nw : ℝ
  k1 : ℝ
  T1 : ℝ
  T1nw : ℝ

/-- a `Cosmology`; `eng` is the run of CLASS it holds (`ready` if there is one), `eh` the run from which the Eisenstein-Hu parameters were set -/
structure Cos where
  pars : Params
  eng : Option Run
  eh : Option Run
  fit : Fit
  sigma8 : ℝ
  deltaH : ℝ
  table : Table
  spl : Option Spl

/-- `alpha_gamma` of `SetEisensteinHuParameters` (`Cosmology.cpp:308-315,350`) -/
def alphaGamma (e : Run) : ℝ :=
  let omh2 := e.Om*e.h^2
  let obh2 := e.Ob*e.h^2
  let f_baryon := obh2/omh2
  1 - 328/1000*Real.log (431*omh2)*f_baryon + 38/100*Real.log ((223/10)*omh2)*f_baryon^2

/-- `GetNoWiggleTransfer` with the parameters of `SetEisensteinHuParameters` (`Cosmology.cpp:224-236,306-352`) -/
def noWiggle (e : Run) (k : ℝ) : ℝ :=
  let h2 := e.h^2
  let omh2 := e.Om*h2
  let obh2 := e.Ob*h2
  let theta := e.Tcmb/(27/10)
  let k_eq := 746/10000*omh2/theta^2
  let s := e.h * (445/10) * Real.log ((983/100)/omh2)/Real.sqrt (1 + 10*obh2.rpow (3/4))
  let alpha := alphaGamma e
  let k := k*e.h
  let ks := k*s/e.h
  let q := k/((1341/100)*k_eq)
  let gamma_eff := omh2*(alpha + (1 - alpha)/(1 + (43/100*ks)^4))
  let q_eff := q*omh2/gamma_eff
  let L0 := Real.log (2*Real.exp 1 + 18/10*q_eff)
  let C0 := 142/10 + 731/(1 + 625/10*q_eff)
  L0/(L0 + C0*q_eff^2)

/-- `GetBBKSTransfer` (`Cosmology.cpp:239-247`) -/
def bbks (e : Run) (k : ℝ) : ℝ :=
  let gamma := e.Om*e.h
  let q := k/gamma * Real.exp (e.Ob + Real.sqrt (2*e.h)*e.Ob/e.Om)
  Real.log (1 + 234/100*q)/(234/100*q) * (1 + 389/100*q + (161/10*q)^2 + (547/100*q)^3 + (671/100*q)^4).rpow (-(1/4))

/-- `GetEisensteinHuTransfer` with the parameters of `SetEisensteinHuParameters` (`Cosmology.cpp:192-221,306-352`) -/
def eisensteinHu (e : Run) (k : ℝ) : ℝ :=
  let h2 := e.h^2
  let omh2 := e.Om*h2
  let obh2 := e.Ob*h2
  let theta := e.Tcmb/(27/10)
  let f_baryon := obh2/omh2
  let z_eq := 25000*omh2/theta^4
  let k_eq := 746/10000*omh2/theta^2
  let b1 := 313/1000*omh2.rpow (-(419/1000))*(1 + 607/1000*omh2.rpow (674/1000))
  let b2 := 238/1000*omh2.rpow (223/1000)
  let z_drag := 1291*omh2.rpow (251/1000)/(1 + 659/1000*omh2.rpow (828/1000))*(1 + b1*obh2.rpow b2)
  let R_drag := 315/10*obh2/theta^4*(1000/(1 + z_drag))
  let R_eq := 315/10*obh2/theta^4*(1000/z_eq)
  let hor := 2/3/k_eq*Real.sqrt (6/R_eq)*Real.log ((Real.sqrt (1 + R_drag) + Real.sqrt (R_drag + R_eq))/(1 + Real.sqrt R_eq))
  let k_silk := 16/10*obh2.rpow (52/100)*omh2.rpow (73/100)*(1 + (104/10*omh2).rpow (-(95/100)))
  let a1 := (469/10*omh2).rpow (670/1000)*(1 + (321/10*omh2).rpow (-(532/1000)))
  let a2 := (12*omh2).rpow (424/1000)*(1 + (45*omh2).rpow (-(582/1000)))
  let alpha_c := a1.rpow (-f_baryon)*a2.rpow (-f_baryon^3)
  let c1 := 944/1000/(1 + (458*omh2).rpow (-(708/1000)))
  let c2 := (395/1000*omh2).rpow (-(266/10000))
  let beta_c := 1/(1 + c1*((1 - f_baryon).rpow c2 - 1))
  let y := z_eq/(1 + z_drag)
  let G := y*(-6*Real.sqrt (1 + y) + (2 + 3*y)*Real.log ((Real.sqrt (1 + y) + 1)/(Real.sqrt (1 + y) - 1)))
  let alpha_b := 207/100*k_eq*hor*(1 + R_drag).rpow (-(75/100))*G
  let beta_node := 841/100*omh2.rpow (435/1000)
  let beta_b := 1/2 + f_baryon + (3 - 2*f_baryon)*Real.sqrt ((172/10*omh2)^2 + 1)
  let k := k*e.h
  let q := k/(1341/100)/k_eq
  let xx := k*hor
  let lnb := Real.log (Real.exp 1 + 18/10*beta_c*q)
  let lnn := Real.log (Real.exp 1 + 18/10*q)
  let ca := 142/10/alpha_c + 386/(1 + 699/10*q.rpow (108/100))
  let cn := 142/10 + 386/(1 + 699/10*q.rpow (108/100))
  let T_c_f := 1/(1 + (xx/(54/10))^4)
  let T_c := T_c_f*lnb/(lnb + cn*q^2) + (1 - T_c_f)*lnb/(lnb + ca*q^2)
  let s_tilde := hor*(1 + (beta_node/xx)^3).rpow (-(1/3))
  let xt := k*s_tilde
  let T0 := lnn/(lnn + cn*q^2)
  let T_b := Real.sin xt/xt*(T0/(1 + (xx/(52/10))^2) + alpha_b/(1 + (beta_b/xx)^3)*Real.exp (-((k/k_silk).rpow (14/10))))
  f_baryon*T_b + (1 - f_baryon)*T_c

/-- `GetSplineTransfer` (`Cosmology.cpp:177-190`) -/
def splineTransfer (W : World) (s : Spl) (e : Run) (k : ℝ) : ℝ :=
  if k ≤ 0 then 0
  else if k ≤ s.k0 then s.T0*noWiggle e k/s.T0nw
  else if k ≥ s.k1 then s.T1*noWiggle e k/s.T1nw
  else W.spline s.tab k

/-- `EvaluateTransfer` (`Cosmology.cpp:144-158`) -/
def transfer (W : World) (σ : Cos) : Option (ℝ → ℝ) :=
  match σ.eh with
  | none => none
  | some e =>
    match σ.fit with
    | .CLASS | .FromArrays => σ.spl.map fun s => splineTransfer W s e
    | .EH => some (eisensteinHu e)
    | .EH_NoWiggle => some (noWiggle e)
    | .BBKS => some (bbks e)

/-- `3 j1_kr` of the integrand of the normalisation (`Cosmology.cpp:163`), where `j1_kr` is `SphericalBesselJ1(kr)/kr` (`SpecialFunctions.cpp:19-24`) -/
def window (x : ℝ) : ℝ := 3*(if x < 1/10000 then 1/3 - x*x/30 else ((Real.sin x - x*Real.cos x)/x^2)/x)

/-- the integral of `NormalizeTransferFunction` (`Cosmology.cpp:160-170`) -/
def sigmaSq (ns : ℝ) (T : ℝ → ℝ) : ℝ := ∫ k in (1/100000:ℝ)..100, k*k/(2*Real.pi*Real.pi) * k.rpow ns * (T k)^2 * (window (k*8))^2

/-- `NormalizeTransferFunction` (`Cosmology.cpp:167-175`) -/
def normalize (W : World) (s : ℝ) (σ : Cos) : Option Cos :=
  match σ.eng, transfer W σ with
  | some e, some T => some { σ with deltaH := s/Real.sqrt (sigmaSq e.ns T) }
  | _, _ => none

/-- `ComputeCLASSTransferFunction` (`Cosmology.cpp:235-258`) -/
def computeTransfer (W : World) (σ : Cos) : Cos := { σ with eng := some (W.run σ.pars), table := (W.run σ.pars).table }

/-- the spline of the table (`Cosmology.cpp:275-284`); the first and last entries of an empty one do not exist -/
def build (e : Run) (t : Table) : Option Spl :=
  match t.head?, t.getLast? with
  | some a, some b => some { tab := t, k0 := a.1, T0 := a.2, T0nw := noWiggle e a.1, k1 := b.1, T1 := b.2, T1nw := noWiggle e b.1 }
  | _, _ => none

/-- the run of CLASS that `Initialize` uses: the one that is there, or a new one (`Cosmology.cpp:264-268`) -/
def engine (W : World) (σ : Cos) : Run := match σ.eng with | some e => e | none => W.run σ.pars

/-- `Initialize` (`Cosmology.cpp:261-291`) -/
def initCos (W : World) (σ : Cos) : Option Cos :=
  let e := engine W σ
  let σ := { σ with eng := some e, eh := some e }
  let σ' := if σ.fit = .CLASS then (build e σ.table).map fun s => { σ with spl := some s } else some σ
  σ'.bind fun σ => normalize W e.sigma8 { σ with sigma8 := e.sigma8 }

/-- an object before its constructor has run -/
def blank (p : Params) (f : Fit) : Cos := { pars := p, eng := none, eh := none, fit := f, sigma8 := 0, deltaH := 1, table := [], spl := none }

/-- the constructors from parameters and a transfer function (`Cosmology.cpp:26-77`) -/
def construct (W : World) (p : Params) (f : Fit) : Option Cos :=
  initCos W (if f = .CLASS then computeTransfer W (blank p f) else blank p f)

/-- `SetSigma8` (`Cosmology.h:56`) -/
def setSigma8 (W : World) (s : ℝ) (σ : Cos) : Option Cos := normalize W s { σ with sigma8 := s }

/-- the constructor from arrays, which unpickling uses (`Cosmology.cpp:12-21`) -/
def constructArrays (W : World) (p : Params) (f : Fit) (s : ℝ) (t : Table) : Option Cos := (initCos W { blank p f with table := t }).bind (setSigma8 W s)

/-- `SetTransferFunction` (`Cosmology.cpp:294-303`) -/
def setTransfer (W : World) (f : Fit) (σ : Cos) : Option Cos :=
  if f = σ.fit then some σ
  else
    let σ := { σ with fit := f }
    initCos W (if f = .CLASS then computeTransfer W σ else σ)

/-- `ClassParams.from_dict` (`ClassParams.i:38-47`): two parameters are given values if they are missing -/
def fromDict (d : Params) : Params := fun k =>
  (d k).orElse fun _ => if k = "P_k_max_h/Mpc" then some "20" else if k = "z_max_pk" then some "2" else none

/-- `ClassParams::update` (`ClassParams.cpp:52-56`) -/
def merge (p q : Params) : Params := fun k => (q k).orElse fun _ => p k

/-- `Cosmology.update` (`Cosmology.i:63-76`, `Cosmology.cpp:369-377`) -/
def update (W : World) (d : Params) (σ : Cos) : Option Cos :=
  let σ := { σ with pars := merge σ.pars (fromDict d) }
  initCos W (if σ.fit = .CLASS then computeTransfer W σ else σ)

/-- pickling and unpickling (`pygcl.py:62-70`), and `clone()` (`pygcl.py:72-78`) -/
def pickle (W : World) (σ : Cos) : Option Cos := constructArrays W (fromDict σ.pars) σ.fit σ.sigma8 σ.table

/-- `clone(tf)` (`pygcl.py:72-81`) -/
def clone (W : World) (tf : Option Fit) (σ : Cos) : Option Cos :=
  match tf with
  | none => pickle W σ
  | some f => (pickle W σ).bind (setTransfer W f)

/-- the copy constructor (`Cosmology.cpp:120-132`) -/
def copy (W : World) (σ : Cos) : Option Cos :=
  let τ := { blank σ.pars σ.fit with sigma8 := σ.sigma8, deltaH := σ.deltaH }
  initCos W (if σ.fit = .CLASS then computeTransfer W τ else τ)

/-- the transfer function of the power spectrum `Pk` (`Cosmology.cpp:86-91`) -/
def transferOf (ns : ℝ) (t : Table) : Table :=
  let T := t.map fun e => (e.1, (e.2/e.1.rpow ns).rpow (1/2))
  let m := (T.map Prod.snd).foldr max 0
  T.map fun e => (e.1, e.2/m*10^7)

/-- `FromPower` (`Cosmology.cpp:79-97`, `LoadTransferFunction` `Cosmology.cpp:134-145`) -/
def fromPower (W : World) (p : Params) (t : Table) : Option Cos :=
  (construct W p .CLASS).bind fun σ =>
    initCos W { σ with fit := .FromArrays, table := transferOf ((σ.eng.map Run.ns).getD 0) t }

/-- `pygcl.Cosmology.from_power` (`pygcl.py:84-87`) -/
def fromPowerFile (W : World) (paramFile : String) (t : Table) : Option Cos := fromPower W (W.readParams paramFile) t

/-- `to_class` (`rsd/cosmology.py:363-397`): `p` are the CLASS parameters made of the cosmology, `s8` its `sigma8`; `power` is the name and the content of `linear_power_file` -/
def toClass (W : World) (p : Params) (s8 : ℝ) (f : Fit) (power : Option (String × Table)) : Option Cos :=
  (match power with
    | some (file, t) => fromPowerFile W file t
    | none => construct W p f).bind (setSigma8 W s8)

/-- `Cosmology::Sigma8_z` (`Cosmology.h:57`) -/
def sigma8z (e : Run) (σ : Cos) (z : ℝ) : ℝ := e.sigma8z z * (σ.sigma8/e.sigma8)

/-- `Cosmology::A_s` (`Cosmology.h:66`) -/
def A_s (e : Run) (σ : Cos) : ℝ := e.A_s * (σ.sigma8/e.sigma8)^2

/-- `LinearPS::Evaluate` (`LinearPS.cpp:11-16`) at redshift `z` -/
def linearPS (W : World) (σ : Cos) (z : ℝ) : Option (ℝ → ℝ) :=
  match σ.eng, transfer W σ with
  | some e, some T => some fun k => σ.deltaH^2 * (sigma8z e σ z/σ.sigma8)^2 * k.rpow e.ns * (T k)^2
  | _, _ => none

/-- `DarkMatterSpectrum.normed_power_lin` (`rsd/power/dm/power_dm.py:553-558,571-577,798-803`), `s` is `sigma8_z` -/
def normedLin (W : World) (s : ℝ) (σ : Cos) : Option (ℝ → ℝ) := (linearPS W σ 0).map fun P k => (s/σ.sigma8)^2 * P k

/-- `DarkMatterSpectrum.normed_power_lin_nw` (`rsd/power/dm/power_dm.py:561-577,804-809`) -/
def normedNoWiggle (W : World) (s : ℝ) (σ : Cos) : Option (ℝ → ℝ) :=
  (clone W (some .EH_NoWiggle) σ).bind fun τ => (linearPS W τ 0).map fun P k => (s/σ.sigma8)^2 * P k

/-- the top-hat window of `PowerSpectrum::Sigma` (`PowerSpectrum.cpp:28-33`) -/
def W8 (x : ℝ) : ℝ := if x < 1/100000 then 1 - (1/30)*x*x else 3/x^3*(Real.sin x - x*Real.cos x)

/-- operations on an object; those that make a new one continue with it -/
inductive Op
  | sigma8 (s : ℝ)
  | transfer (f : Fit)
  | update (d : Params)
  | pickle
  | clone (tf : Option Fit)
  | copy
  | normalize (s : ℝ)

/-- one operation -/
def step (W : World) (σ : Cos) : Op → Option Cos
  | .sigma8 s => setSigma8 W s σ
  | .transfer f => setTransfer W f σ
  | .update d => update W d σ
  | .pickle => Cosmo.pickle W σ
  | .clone tf => Cosmo.clone W tf σ
  | .copy => Cosmo.copy W σ
  | .normalize s => Cosmo.normalize W s σ

/-- a history -/
def history (W : World) (σ : Cos) : List Op → Option Cos
  | [] => some σ
  | op :: ops => (step W σ op).bind fun σ => history W σ ops

end
end Verif.Cosmo
