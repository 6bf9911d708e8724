/-
Model of the relation between halo bias, mass and velocity dispersion: `pyRSD/rsd/tools.py:393-720` (`BiasToMassRelation`, `BiasToSigmaRelation`,
`mass_from_bias`, `bias_Tinker`, `sigma_from_bias`) and `BiasedSpectrum.sigmav_from_bias` (`power/biased/power_biased.py:289-307`).

Numbers are exact reals; `scipy.optimize.brentq` is any function with the contract `IsBrentq` (an exact root in the bracket, an exception if the signs at the ends
agree).  The spline of `Sigma` used to fill the table is an arbitrary function.
-/
import Verif.Model.Interp
import Mathlib.Analysis.SpecialFunctions.Pow.Real
import Mathlib.Analysis.SpecialFunctions.Log.Base

namespace Verif.HaloBias

open Verif.Interp

noncomputable section

/-- `A` of `bias_Tinker` (`tools.py:703`), `y` the decimal logarithm of the overdensity. -/
def tA (y : ℝ) : ℝ := 1 + 0.24 * y * Real.exp (-(4 / y) ^ 4)

/-- `a` (`tools.py:704`) -/
def ta (y : ℝ) : ℝ := 0.44 * y - 0.88

/-- `C` (`tools.py:707`) -/
def tC (y : ℝ) : ℝ := 0.019 + 0.107 * y + 0.19 * Real.exp (-(4 / y) ^ 4)

/-- `bias_Tinker(sigmas, delta_c, delta_halo)` (`tools.py:693-711`); defaults `1.686` and `200`. -/
def biasTinker (sigma deltaC deltaHalo : ℝ) : ℝ :=
  let y := Real.logb 10 deltaHalo
  let nu := deltaC / sigma
  1 - tA y * (nu ^ ta y) / (nu ^ ta y + deltaC ^ ta y) + 0.183 * nu ^ (1.5 : ℝ) + tC y * nu ^ (2.4 : ℝ)

/-- What is used of a cosmology: the mean density today in h² M_sun/Mpc³, sigma8, the rms fluctuation in a sphere of the linear spectrum at `z = 0`, and the Hubble
parameter in km/s/Mpc at each redshift. -/
structure Cosmo where
  rhoBar : ℝ
  sigma8 : ℝ
  Sigma : ℝ → ℝ
  H : ℝ → ℝ

/-- Exceptions: that of `brentq`, a `NameError`, a failed interpolation. -/
inductive Err where
  | noBracket
  | name
  | interp
deriving DecidableEq

/-- `mass_to_radius` (`tools.py:465, 520`): the mass is in units of `10^13` M_sun/h. -/
def massToRadius (c : Cosmo) (M : ℝ) : ℝ := (3 * M * 10 ^ 13 / (4 * Real.pi * c.rhoBar)) ^ ((1 : ℝ) / 3)

/-- A root finder, as `scipy.optimize.brentq(f, a, b)`. -/
abbrev Solver := (ℝ → ℝ) → ℝ → ℝ → Except Err ℝ

/-- The contract of `brentq`: what it returns is a root in the bracket; it refuses ends where the function has the same sign, and only those if the function
is continuous. -/
structure IsBrentq (brentq : Solver) : Prop where
  root : ∀ f a b x, brentq f a b = .ok x → a ≤ x ∧ x ≤ b ∧ f x = 0
  refuse : ∀ f a b, 0 < f a * f b → brentq f a b = .error .noBracket
  finds : ∀ f a b, a ≤ b → ContinuousOn f (Set.Icc a b) → f a * f b ≤ 0 → ∃ x, brentq f a b = .ok x

/-- `compute_fresh` of `BiasToMassRelation.__call__` (`tools.py:516-528`). -/
def massFresh (brentq : Solver) (c : Cosmo) (deltaHalo sigma8z b1 : ℝ) : Except Err ℝ :=
  let rescaling := sigma8z / c.sigma8
  (brentq (fun M => biasTinker (rescaling * c.Sigma (massToRadius c M)) 1.686 deltaHalo - b1) (10 ^ (-8 : ℤ)) (10 ^ 3)).map (· * 10 ^ 13)

/-- Node `i` of the interpolation in sigma8 (`tools.py:400`). -/
def s8Node (i : ℕ) : ℝ := 0.3 + 0.7 * i / 99

/-- Node `j` of the interpolation in the bias (`tools.py:401`). -/
def b1Node (j : ℕ) : ℝ := 0.9 + 7.1 * j / 69

/-- One entry of the table (`tools.py:473-497`): `spl` is the spline of `Sigma`; the overdensity is the default one; if the root finder fails the handler fails too, as
it prints an undefined variable. -/
def tableEntry (brentq : Solver) (spl : Cosmo → ℝ → ℝ) (c : Cosmo) (s8z b1 : ℝ) : Except Err ℝ :=
  let rescaling := s8z / c.sigma8
  match brentq (fun M => biasTinker (rescaling * spl c (massToRadius c M)) 1.686 200 - b1) (10 ^ (-10 : ℤ)) (10 ^ 4) with
  | .ok M => .ok (M * 10 ^ 13)
  | .error _ => .error .name

/-- `interpolation_table` (`tools.py:457-501`): refused if one entry fails, with the exception of the first entry that fails. -/
def mkTable (brentq : Solver) (spl : Cosmo → ℝ → ℝ) (c : Cosmo) : Except Err (ℕ → ℕ → ℝ) :=
  open Classical in
  if h : ∀ i < 100, ∀ j < 70, ∃ M, tableEntry brentq spl c (s8Node i) (b1Node j) = .ok M then
    .ok fun i j => if hij : i < 100 ∧ j < 70 then (h i hij.1 j hij.2).choose else 0
  else .error (((List.range 100).flatMap fun i => (List.range 70).filterMap fun j =>
    match tableEntry brentq spl c (s8Node i) (b1Node j) with
    | .ok _ => none
    | .error e => some e).headD .name)

/-- The interpolator over the table (`tools.py:501`): defaults, `bounds_error=True`. -/
def tableInterp (t : ℕ → ℕ → ℝ) : Interp :=
  ⟨[(List.range 100).map s8Node, (List.range 70).map b1Node], fun e => t (e.getD 0 0).toNat (e.getD 1 0).toNat, .linear, true, some none⟩

/-- The object: the parameters, and the table once computed.  `interpolation_table` declares no dependency (`tools.py:457`), so that nothing clears it. -/
structure Rel where
  z : ℝ
  cosmo : Cosmo
  interpolate : Bool
  deltaHalo : ℝ
  sigmav0 : Option ℝ
  M0 : Option ℝ
  table : Option (ℕ → ℕ → ℝ)

/-- `BiasToSigmaRelation.__init__` (`tools.py:546-562, 403-418`). -/
def mkRel (z : ℝ) (c : Cosmo) (interpolate : Bool) (sigmav0 M0 : Option ℝ) : Rel := ⟨z, c, interpolate, 200, sigmav0, M0, none⟩

/-- `BiasToMassRelation.__call__` (`tools.py:503-536`): the mass and the object after the call. -/
def mass (brentq : Solver) (spl : Cosmo → ℝ → ℝ) (r : Rel) (sigma8z b1 : ℝ) : Except Err ℝ × Rel :=
  if r.interpolate then
    match (match r.table with | some t => .ok t | none => mkTable brentq spl r.cosmo : Except Err (ℕ → ℕ → ℝ)) with
    | .error e => (.error e, r)
    | .ok t =>
      let r' := { r with table := some t }
      match call (tableInterp t) [[sigma8z, b1]] none with
      | .values [some v] => (.ok v, r')
      | .domainError => (massFresh brentq r.cosmo r.deltaHalo sigma8z b1, r')
      | _ => (.error .interp, r')
  else (massFresh brentq r.cosmo r.deltaHalo sigma8z b1, r)

/-- `evrard_sigmav(mass)` (`tools.py:595-620`). -/
def evrard (r : Rel) (M : ℝ) : ℝ :=
  1082.9 * (r.cosmo.H r.z / r.cosmo.H 0 * M / 10 ^ 15) ^ (0.336 : ℝ) / (3 : ℝ) ^ (0.5 : ℝ) * (1 + r.z) / r.cosmo.H r.z

/-- The dispersion from the mass (`tools.py:645-649`). -/
def sigmavOfMass (r : Rel) (M : ℝ) : ℝ :=
  match r.sigmav0, r.M0 with
  | some s, some m => s * (M / m) ^ ((1 : ℝ) / 3)
  | _, _ => evrard r M

/-- `BiasToSigmaRelation.__call__` (`tools.py:629-649`). -/
def sigmav (brentq : Solver) (spl : Cosmo → ℝ → ℝ) (r : Rel) (sigma8z b1 : ℝ) : Except Err ℝ × Rel :=
  match mass brentq spl r sigma8z b1 with
  | (.ok M, r) => (.ok (sigmavOfMass r M), r)
  | (.error e, r) => (.error e, r)

/-- `BiasedSpectrum.sigmav_from_bias(s8_z, bias)` (`power_biased.py:289-307`): any exception is replaced by the value at the nearest end of the table's biases, or zero
between them. -/
def sigmavFromBias (brentq : Solver) (spl : Cosmo → ℝ → ℝ) (r : Rel) (s8z bias : ℝ) : Except Err ℝ × Rel :=
  match sigmav brentq spl r s8z bias with
  | (.ok v, r) => (.ok v, r)
  | (.error _, r) =>
    open Classical in
    if bias < b1Node 0 then sigmav brentq spl r s8z (b1Node 0)
    else if b1Node 69 < bias then sigmav brentq spl r s8z (b1Node 69)
    else (.ok 0, r)

/-- `mass_from_bias(bias, z, linearPS)` (`tools.py:655-691`): `D` the growth relative to the redshift of the spectrum (1 if they agree), `c.Sigma` the rms fluctuation of that spectrum. -/
def massFromBias (brentq : Solver) (c : Cosmo) (D bias : ℝ) : Except Err ℝ :=
  (brentq (fun M => biasTinker (D * c.Sigma (massToRadius c M)) 1.686 200 - bias) (10 ^ (-5 : ℤ)) (10 ^ 5)).map (· * 10 ^ 13)

/-- `sigma_from_bias(bias, z, linearPS)` (`tools.py:713-720`). -/
def sigmaFromBias (brentq : Solver) (c : Cosmo) (D bias : ℝ) : Except Err ℝ :=
  (massFromBias brentq c D bias).map fun M => 3.6 * (M / (5.4903 * 10 ^ 13)) ^ ((1 : ℝ) / 3)

end

end Verif.HaloBias
