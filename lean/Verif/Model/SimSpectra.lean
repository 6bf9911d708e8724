/-
Model of `SimulationP11` and `SimulationPdv` (`pyRSD/rsd/simulation.py:383-662`), which interpolate tables of simulated velocity spectra in redshift and wavenumber, and of
`Pdv_jennings` and `Pvv_jennings` (`pyRSD/rsd/power/dm/power_dm.py:676-718`).

Numbers are reals.  The tables read from `pyRSD/data/dark_matter` are parameters of the model (a list of redshifts with a list of rows `(k, P)` for each).  The C++ objects
are functions: `D_z`, `f_z` of the cosmology of the simulations, a linear power spectrum is a function with a redshift and the sigma8 of its cosmology.  A division by zero
gives 0 here, `inf` or `nan` in the code.
-/
import Verif.Model.Interp
import Mathlib.Analysis.SpecialFunctions.Pow.Real

namespace Verif.SimSpectra

open Verif.Interp

noncomputable section

/-- the cosmology of the simulations (`simulation.py:460-461`, `575-576`) -/
structure Fiducial where
  D : ℝ → ℝ
  f : ℝ → ℝ
  plin : ℝ → ℝ

/-- which of the two classes -/
inductive Kind where
  | P11
  | Pdv
  deriving DecidableEq

/-- a table of a simulation: redshift and rows `(k, P)` -/
abbrev Sim := ℝ × List (ℝ × ℝ)

/-- the power of the growth rate in the normalisation (`simulation.py:474`, `589`) -/
def growthPower : Kind → ℕ
  | .P11 => 2
  | .Pdv => 1

/-- one normalised entry (`simulation.py:474`, `589`) -/
def normed (F : Fiducial) (K : Kind) (z : ℝ) (row : ℝ × ℝ) : ℝ := row.2 / (F.D z ^ 2 * F.plin row.1 * F.f z ^ growthPower K)

/-- `list(itertools.product(interp_vars, k))` (`simulation.py:470`, `585`) -/
def index (zs ks : List ℝ) : List (ℝ × ℝ) := zs.flatMap fun z => ks.map fun k => (z, k)

/-- the list `d` (`simulation.py:472-474`, `587-589`) -/
def column (F : Fiducial) (K : Kind) (data : List Sim) : List ℝ := data.flatMap fun s => s.2.map (normed F K s.1)

/-- `Index.unique()`: the values in the order of their first appearance -/
def unique : List ℝ → List ℝ
  | [] => []
  | a :: l => a :: (unique l).filter fun b => decide (b ≠ a)

/-- the data frame (`simulation.py:469-477`, `584-592`): rows `((z, k), value)`; the wavenumbers are those of the first table.  `none` if the number of values is not the
number of rows (`ValueError`) or if there is no table (`IndexError`). -/
def frame (F : Fiducial) (K : Kind) (data : List Sim) : Option (List ((ℝ × ℝ) × ℝ)) :=
  match data with
  | [] => none
  | s :: _ =>
    let ix := index (data.map (·.1)) (s.2.map (·.1))
    let d := column F K data
    if ix.length = d.length then some (ix.zip d) else none

/-- the values of the rows with redshift `z` (`self.data.xs(z).P11`, `simulation.py:497`, `612`) -/
def xs (rows : List ((ℝ × ℝ) × ℝ)) (z : ℝ) : List ℝ := (rows.filter fun r => decide (r.1.1 = z)).map (·.2)

/-- an array of `n` columns as a function of its two indices (`reshape`, `simulation.py:498`, `613`) -/
def reshaped (n : ℕ) (vals : List ℝ) : List ℤ → ℝ
  | [i, j] => vals.getD (i.toNat * n + j.toNat) 0
  | _ => 0

/-- `interpolation_table` (`simulation.py:484-501`, `599-616`): linear, an error outside the grid -/
def interpolationTable (rows : List ((ℝ × ℝ) × ℝ)) : Option Interp :=
  let zs := unique (rows.map (·.1.1))
  let ks := unique (rows.map (·.1.2))
  let vals := zs.flatMap (xs rows)
  if vals.length = zs.length * ks.length then mkInterp [zs, ks] [zs.length, ks.length] (reshaped ks.length vals) .linear true (some none) else none

/-- a linear power spectrum with its redshift and the sigma8 of its cosmology -/
structure Lin where
  P : ℝ → ℝ
  redshift : ℝ
  sigma8 : ℝ

/-- an object of either class.  The data frame is loaded once and the table made from it is cached without parents (`simulation.py:481`, `596`): nothing changes it, so
the table is a field. -/
structure Obj where
  kind : Kind
  z : ℝ
  sigma8_z : ℝ
  f : ℝ
  lin : Lin
  sigma8_0 : ℝ
  table : Interp

/-- the constructors (`simulation.py:387-399`, `437-454`, `552-569`): `none` if the power spectrum is not at redshift 0 or the table cannot be made -/
def Obj.make (F : Fiducial) (K : Kind) (data : List Sim) (lin : Lin) (z sigma8_z f : ℝ) : Option Obj :=
  if lin.redshift ≠ 0 then none
  else
    match frame F K data with
    | none => none
    | some rows =>
      match interpolationTable rows with
      | none => none
      | some t => some ⟨K, z, sigma8_z, f, lin, lin.sigma8, t⟩

/-- an assignment to one of the parameters (`simulation.py:404-430`) -/
inductive Assign where
  | z (v : ℝ)
  | sigma8_z (v : ℝ)
  | f (v : ℝ)
  | power_lin (v : Lin)

/-- the parameters return what they are given (`simulation.py:404-430`) -/
def Obj.assign (o : Obj) : Assign → Obj
  | .z v => { o with z := v }
  | .sigma8_z v => { o with sigma8_z := v }
  | .f v => { o with f := v }
  | .power_lin v => { o with lin := v }

/-- the amplitude inside the redshifts of the tables (`simulation.py:531`, `646`) -/
def amplitude (o : Obj) : ℝ :=
  match o.kind with
  | .P11 => (o.f * o.sigma8_z) ^ 2
  | .Pdv => o.f * o.sigma8_z ^ 2

/-- the wavenumbers of a call -/
inductive Arg where
  | scalar (k : ℝ)
  | array (ks : List ℝ)

/-- the wavenumbers in order: a scalar makes one point, as `RegularGridInterpolator` reshapes a point to an array of one row -/
def Arg.list : Arg → List ℝ
  | .scalar k => [k]
  | .array ks => ks

/-- what a call gives; `none` stands for a value that is not a finite number -/
inductive Result where
  | number (v : Option ℝ)
  | array (v : List (Option ℝ))
  | domainError
  | otherError

/-- `tools.unpacked` (`tools.py:98-110`): an array of one element becomes a number -/
def unpacked : List (Option ℝ) → Result
  | [v] => .number v
  | l => .array l

/-- the result of the table times the factor `amp * power_lin(k) / sigma8_0**2` (`simulation.py:515-523`, `539-547`, `630-638`, `654-662`) -/
def scaled (o : Obj) (amp z : ℝ) (k : Arg) : Result :=
  match call o.table (k.list.map fun a => [z, a]) none with
  | .values v => unpacked (List.zipWith (fun x a => x.map (· * (amp * (o.lin.P a / o.sigma8_0 ^ 2)))) v k.list)
  | .domainError => .domainError
  | _ => .otherError

/-- the redshifts of the table -/
def Obj.zs (o : Obj) : List ℝ := o.table.grid.headD []

/-- `np.amin`, for an ascending or any other list -/
def amin (l : List ℝ) : ℝ := l.tail.foldl min (l.headD 0)

/-- `np.amax` -/
def amax (l : List ℝ) : ℝ := l.tail.foldl max (l.headD 0)

/-- `_extrapolate(x, k)` (`simulation.py:503-523`, `618-638`): the table at the nearest redshift, with amplitude `x` -/
def extrapolate (o : Obj) (x : ℝ) (k : Arg) : Result :=
  if x < amin o.zs then scaled o x (amin o.zs) k else scaled o x (amax o.zs) k

/-- `__call__` (`simulation.py:525-547`, `640-662`) -/
def Obj.call (o : Obj) (k : Arg) : Result :=
  if o.z < amin o.zs ∨ o.z > amax o.zs then extrapolate o o.z k else scaled o (amplitude o) o.z k

/-! The fitting formulas of Jennings. -/

/-- what the formulas use of the model: the matter spectrum as a function of sigma8 and wavenumber (`none` if it raises), the `sigma8_z` of the object that computes
it, and the parameters `D`, `sigma8_z`, `f` of the model -/
structure Dark where
  P00 : ℝ → ℝ → Option ℝ
  hzpt_sigma8 : ℝ
  D : ℝ
  sigma8_z : ℝ
  f : ℝ

/-- the coefficients (`power_dm.py:681`, `704`) -/
structure Coef where
  a0 : ℝ
  a1 : ℝ
  a2 : ℝ
  a3 : ℝ

/-- `power_dm.py:681` -/
def coefDv : Coef := ⟨-12483.8, 2.554, 1381.29, 2.540⟩

/-- `power_dm.py:704` -/
def coefVv : Coef := ⟨-12480.5, 1.824, 2165.87, 1.796⟩

/-- the common part of `Pdv_jennings` and `Pvv_jennings` (`power_dm.py:682-697`, `705-720`): the state after the call and the result (`none` if it raises) -/
def jennings (c : Coef) (m : Dark) (k : ℝ) : Dark × Option ℝ :=
  let s8 := m.sigma8_z / m.D
  let m1 := { m with hzpt_sigma8 := s8 }
  match m1.P00 m1.hzpt_sigma8 k with
  | none => (m1, none)
  | some p =>
    let zs := 3 / (m.D + m.D ^ 2 + m.D ^ 3)
    let m2 := { m1 with hzpt_sigma8 := m.sigma8_z }
    let g := (c.a0 * p ^ (1 / 2 : ℝ) + c.a1 * p ^ 2) / (c.a2 + c.a3 * p)
    match m2.P00 m2.hzpt_sigma8 k with
    | none => (m2, none)
    | some q => (m2, some ((g - p) / zs ^ 2 + q))

/-- `Pdv_jennings` (`power_dm.py:676-698`) -/
def pdvJennings (m : Dark) (k : ℝ) : Dark × Option ℝ :=
  let r := jennings coefDv m k
  (r.1, r.2.map (-m.f * ·))

/-- `Pvv_jennings` (`power_dm.py:700-721`) -/
def pvvJennings (m : Dark) (k : ℝ) : Dark × Option ℝ :=
  let r := jennings coefVv m k
  (r.1, r.2.map (m.f ^ 2 * ·))

end

end Verif.SimSpectra
