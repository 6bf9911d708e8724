/-
Model of the Halo-Zel'dovich power spectra: the C++ classes `ZeldovichPS`, `ZeldovichP00`, `ZeldovichP01`, `ZeldovichP11` (`pyRSD/_gcl/cpp/ZeldovichPS.cpp`), `LinearPS`,
the Python classes in `pyRSD/rsd/hzpt/` and the (optionally interpolated) collection `InterpolatedHZPTModels` (`pyRSD/rsd/hzpt/interpolated.py`).

Simplifications.  Real arithmetic; `none` stands for NaN, which appears where 0/0 does.  The FFTLog transform with the interpolation at `k` is a linear map with fixed
weights.  The adaptive quadrature of `Q3_Zel` is a homogeneous functional.  The values of cached properties are recomputed (C01).
-/
import Verif.Model.Interp
import Mathlib.Analysis.SpecialFunctions.Pow.Real
import Mathlib.Analysis.SpecialFunctions.Sqrt
import Mathlib.Data.Fin.VecNotation

namespace Verif.Hzpt

open Verif.Interp

noncomputable section

/-- What does not change with `sigma8_z`: sigma8 of the cosmology, the linear power spectrum at z=0, the radii of the FFTLog mesh (`ZeldovichPS.cpp:41-54`), the integrals
at z=0, the weights of the transform (order, k, mesh point) and the quadrature. -/
structure Env where
  s80 : ℝ
  plin0 : ℝ → ℝ
  r : ℕ → ℝ
  x0 : ℕ → ℝ
  y0 : ℕ → ℝ
  disp0 : ℝ
  w : ℕ → ℝ → ℕ → ℝ
  quad : (ℝ → ℝ) → ℝ
  quad_smul : ∀ (c : ℝ) (f : ℝ → ℝ), quad (fun q => c * f q) = c * quad f

/-- The arrays `X0`, `XX`, `YY` and `sigma_sq` (`ZeldovichPS.h:69-71`) -/
structure Arr where
  x0 : ℕ → ℝ
  xx : ℕ → ℝ
  yy : ℕ → ℝ
  sq : ℝ

/-- `X0 *= ratio; XX *= ratio; YY *= ratio; sigma_sq *= ratio` (`ZeldovichPS.cpp:97-102`) -/
def Arr.scale (c : ℝ) (a : Arr) : Arr := ⟨fun i => a.x0 i * c, fun i => a.xx i * c, fun i => a.yy i * c, a.sq * c⟩

/-- A `ZeldovichPS` object (`ZeldovichPS.h:51-71`): `plin` is the `sigma8_z` of its linear spectrum; the arrays are `none` when they hold NaN. -/
structure Zel where
  s8 : ℝ
  arr : Option Arr
  plin : ℝ
  lowk : Bool

/-- `ZeldovichPS(cosmo, 0.)` (`ZeldovichPS.cpp:15-31`) -/
def Zel.new (E : Env) : Zel :=
  let norm := (E.s80 / E.s80) ^ 2
  let sq := norm * E.disp0
  ⟨E.s80, some ⟨fun i => norm * E.x0 i, fun i => norm * E.x0 i + 2 * sq, fun i => norm * E.y0 i, sq⟩, E.s80, false⟩

/-- `SetSigma8AtZ` (`ZeldovichPS.cpp:95-109`): dividing by a zero `sigma8_z` leaves NaN in the arrays. -/
def Zel.setSigma8 (z : Zel) (s : ℝ) : Zel :=
  ⟨s, if z.s8 = 0 then none else z.arr.map (Arr.scale ((s / z.s8) ^ 2)), s, z.lowk⟩

/-- `SetLowKApprox()` (`ZeldovichPS.h:33`) -/
def Zel.setLowK (z : Zel) : Zel := { z with lowk := true }

/-- the derived classes -/
inductive Kind where
  | p00
  | p01
  | p11
  deriving DecidableEq

/-- `Fprim` (`ZeldovichPS.cpp:190-196`, `ZeldovichPS.cpp:237-242`, `ZeldovichPS.cpp:278-288`) at mesh point `i` -/
def fprim (E : Env) (a : Arr) (k : ℝ) (i : ℕ) : Kind → ℝ
  | .p00 => E.r i ^ (3 / 2 : ℝ) * (Real.exp (-(1 / 2) * k ^ 2 * (a.xx i + a.yy i)) - Real.exp (-k ^ 2 * a.sq))
  | .p01 => E.r i ^ (3 / 2 : ℝ) * k ^ 2 * ((a.xx i + a.yy i) * Real.exp (-(1 / 2) * k ^ 2 * (a.xx i + a.yy i)) - 2 * a.sq * Real.exp (-k ^ 2 * a.sq))
  | .p11 => E.r i ^ (3 / 2 : ℝ) *
      ((k ^ 4 * a.xx i ^ 2 - 2 * k ^ 2 * a.x0 i + 2 * (k ^ 2 * a.xx i - 1) * k ^ 2 * a.yy i + k ^ 4 * a.yy i ^ 2) * Real.exp (-(1 / 2) * k ^ 2 * (a.xx i + a.yy i)) +
       -4 * k ^ 4 * a.sq ^ 2 * Real.exp (-k ^ 2 * a.sq))

/-- `Fsec` (`ZeldovichPS.cpp:198-203`, `ZeldovichPS.cpp:244-249`, `ZeldovichPS.cpp:290-300`) at mesh point `i`, order `n` -/
def fsec (E : Env) (a : Arr) (k : ℝ) (n i : ℕ) : Kind → ℝ
  | .p00 => E.r i ^ (3 / 2 - n : ℝ) * (k * a.yy i) ^ n * Real.exp (-(1 / 2) * k ^ 2 * (a.xx i + a.yy i))
  | .p01 => E.r i ^ (3 / 2 - n : ℝ) * (k * a.yy i) ^ n * (k ^ 2 * (a.xx i + a.yy i) - 2 * n) * Real.exp (-(1 / 2) * k ^ 2 * (a.xx i + a.yy i))
  | .p11 => E.r i ^ (3 / 2 - n : ℝ) * (k * a.yy i) ^ n *
      ((k ^ 4 * a.xx i ^ 2 - 2 * k ^ 2 * a.x0 i + 2 * (k ^ 2 * a.xx i - 1) * (k ^ 2 * a.yy i - 2 * n)) +
       (k ^ 4 * a.yy i ^ 2 - 4 * k ^ 2 * n * a.yy i + 4 * n * (n - 1))) * Real.exp (-(1 / 2) * k ^ 2 * (a.xx i + a.yy i))

/-- The factor in front of the transform (`ZeldovichPS.cpp:185`, `ZeldovichPS.cpp:232`, `ZeldovichPS.cpp:273`) -/
def factor : Kind → ℝ
  | .p00 => 4 * Real.pi
  | .p01 => -2 * Real.pi
  | .p11 => Real.pi

/-- `fftlog_compute` (`ZeldovichPS.cpp:112-151`) with `NUM_PTS` = 1024 and `NMAX` = 15 -/
def fftlog (E : Env) (a : Arr) (k : ℝ) (kind : Kind) : ℝ :=
  ((List.range 16).map fun n =>
    factor kind * Real.sqrt (1 / 2 * Real.pi) * k ^ (-(3 / 2) : ℝ) *
      ((List.range 1024).map fun i => E.w n k i * (if n = 0 then fprim E a k i kind else fsec E a k n i kind)).sum).sum

/-- `LinearPS::Evaluate` (`LinearPS.cpp:11-16`) -/
def plin (E : Env) (s : ℝ) (k : ℝ) : ℝ := (s / E.s80) ^ 2 * E.plin0 k

/-- `Q3_Zel` (`PowerSpectrum.cpp:125-132`) -/
def q3 (E : Env) (s : ℝ) (k : ℝ) : ℝ := 1 / (10 * Real.pi ^ 2) * k ^ 4 * E.quad fun q => plin E s q * plin E s q / q / q

/-- `LowKApprox` (`ZeldovichPS.cpp:205-208`, `ZeldovichPS.cpp:224-227`, `ZeldovichPS.cpp:265-268`) -/
def lowKApprox (E : Env) (sq s k : ℝ) : Kind → ℝ
  | .p00 => (1 - k ^ 2 * sq + 1 / 2 * k ^ 4 * sq ^ 2) * plin E s k + 1 / 2 * q3 E s k
  | .p01 => (1 - 2 * k ^ 2 * sq) * plin E s k + q3 E s k
  | .p11 => (1 - 3 * k ^ 2 * sq) * plin E s k + 3 / 2 * q3 E s k

/-- `k0_low` (`ZeldovichPS.cpp:16`) -/
def k0Low : ℝ := 5 / 1000

/-- `Evaluate` (`ZeldovichPS.cpp:182-188`, `ZeldovichPS.cpp:230-235`, `ZeldovichPS.cpp:270-276`) -/
def Zel.eval (E : Env) (z : Zel) (kind : Kind) (k : ℝ) : Option ℝ :=
  z.arr.map fun a => if k0Low ≤ k ∨ z.lowk = false then fftlog E a k kind else lowKApprox E a.sq z.plin k kind

/-- `zeldovich(k)`: `np.nan_to_num(self._driver(k))` (`hzpt/__init__.py:260-270`) -/
def Zel.zeldovich (E : Env) (z : Zel) (kind : Kind) (k : ℝ) : ℝ := (z.eval E kind k).getD 0

/-- amplitude and slope of the power laws for A0, R, R1, R1h, R2h (`hzpt/__init__.py:68-91`) -/
structure Pars where
  amp : Fin 5 → ℝ
  alpha : Fin 5 → ℝ

/-- `_A0_amp*(sigma8_z/0.8)**_A0_alpha` and the same for R, R1, R1h, R2h (`hzpt/__init__.py:185-228`) -/
def Pars.law (P : Pars) (s : ℝ) (j : Fin 5) : ℝ := P.amp j * (s / (4 / 5)) ^ P.alpha j

/-- `HaloZeldovichBase.broadband` (`hzpt/__init__.py:240-258`), with `A0, R, R1, R1h, R2h` -/
def pade (c : Fin 5 → ℝ) (k : ℝ) : ℝ :=
  let F := 1 - 1 / (1 + (k * c 1) ^ 2)
  F * c 0 * (1 + (k * c 2) ^ 2) / (1 + (k * c 3) ^ 2 + (k * c 4) ^ 4)

/-- `HaloZeldovichP01.broadband` (`hzpt/P01.py:57-88`) with `A0, R, R1, R1h, R2h` and their derivatives -/
def padeDeriv (c d : Fin 5 → ℝ) (k : ℝ) : ℝ :=
  let k2 := k ^ 2
  let k4 := k2 ^ 2
  let N := 1 + k2 * c 1 ^ 2
  let F := 1 - 1 / N
  let numer := 1 + k2 * c 2 ^ 2
  let denom := 1 + k2 * c 3 ^ 2 + k4 * c 4 ^ 4
  let dA0 := F * numer / denom * d 0
  let dR := 2 * c 0 * k2 * c 1 * numer / N ^ 2 / denom * d 1
  let dR1 := 2 * c 0 * k4 * c 1 ^ 2 * c 2 / N / denom * d 2
  let dR1h := -2 * c 0 * k4 * c 1 ^ 2 * numer * c 3 / N / denom ^ 2 * d 3
  let dR2h := -4 * c 0 * k ^ 6 * c 1 ^ 2 * numer * c 4 ^ 3 / N / denom ^ 2 * d 4
  dA0 + dR + dR1 + dR1h + dR2h

/-- `self.f * self._A0_alpha * self.A0` etc. (`hzpt/P01.py:34-52`) -/
def Pars.dlaw (P : Pars) (f s : ℝ) (j : Fin 5) : ℝ := f * P.alpha j * P.law s j

/-- The power laws of `P11` in `sigma8_z` and `f` for A0, R, R1h (`hzpt/P11.py:86-105`) -/
structure Pars11 where
  amp : Fin 3 → ℝ
  alpha : Fin 3 → ℝ
  beta : Fin 3 → ℝ

/-- `HaloZeldovichP11.broadband` (`hzpt/P11.py:108-119`) -/
def broadband11 (P : Pars11) (s f k : ℝ) : ℝ :=
  let law := fun j => P.amp j * (s / (4 / 5)) ^ P.alpha j * (f / (1 / 2)) ^ P.beta j
  (1 - 1 / (1 + (k * law 1) ^ 2)) * law 0 / (1 + (k * law 2) ^ 2)

/-- The power laws of `Phm` in `b1` and `sigma8_z` (`hzpt/Phm.py:223-228`) -/
structure ParsHm where
  amp : Fin 5 → ℝ
  alpha : Fin 5 → ℝ
  beta : Fin 5 → ℝ
  run : Fin 5 → ℝ

/-- the broadband term of `Phm` (`hzpt/Phm.py:223-228`, `hzpt/__init__.py:240-258`) -/
def broadbandHm (P : ParsHm) (b1 s k : ℝ) : ℝ :=
  pade (fun j => P.amp j * b1 ^ (P.alpha j + P.run j * Real.log b1) * (s / (4 / 5)) ^ P.beta j) k

/-- The constants of all four models. -/
structure Consts where
  c0 : Pars
  c1 : Pars
  c11 : Pars11
  chm : ParsHm

/-- the shipped constants of P00 and P01 (`hzpt/__init__.py:80-90`; `P01` inherits them), P11 (`hzpt/P11.py:45-60`) and Phm (`hzpt/Phm.py:36-69`) -/
def shipped : Consts :=
  let base : Pars := ⟨![7078 / 10, 3176 / 100, 3243 / 1000, 3768 / 1000, 1699 / 1000], ![3654 / 1000, 1257 / 10000, 3729 / 10000, -1043 / 10000, 4224 / 10000]⟩
  ⟨base, base,
   ⟨![6589 / 10, 1895 / 100, 8473 / 10000], ![391 / 100, -3657 / 10000, -1524 / 10000], ![1917 / 1000, -2585 / 10000, 7769 / 10000]⟩,
   ⟨![7519 / 10, 169 / 10, 5192 / 1000, 8253 / 1000, 3053 / 1000], ![1657 / 1000, -1185 / 10000, -5739 / 10000, -8421 / 10000, -103 / 100],
    ![3752 / 1000, -1067 / 1000, 1616 / 10000, -1345 / 10000, -3596 / 10000], fun _ => 0⟩⟩

/-- `'P00', 'P01', 'P11', 'Phm'` -/
inductive Key where
  | P00
  | P01
  | P11
  | Phm
  deriving DecidableEq

/-- the class of the driver (`hzpt/interpolated.py:157-203`) -/
def Key.kind : Key → Kind
  | .P00 => .p00
  | .P01 => .p01
  | .P11 => .p11
  | .Phm => .p00

/-- A HZPT model object: driver and parameters -/
structure Model where
  driver : Zel
  sigma8 : ℝ
  f : ℝ
  b1 : ℝ

/-- the total: broadband term plus the scaled Zel'dovich term (`hzpt/interpolated.py:220`, `234`, `248`, `263`) -/
def total (K : Consts) (key : Key) (s f b1 k zel : ℝ) : ℝ :=
  match key with
  | .P00 => pade (K.c0.law s) k + zel
  | .P01 => padeDeriv (K.c1.law s) (K.c1.dlaw f s) k + 2 * f * zel
  | .P11 => broadband11 K.c11 s f k + f ^ 2 * zel
  | .Phm => broadbandHm K.chm b1 s k + b1 * zel

/-- the `sigma8_z` parameter of a model (`hzpt/__init__.py:130-136`): `none` is the `ValueError` -/
def Model.setSigma8 (m : Model) (s : ℝ) : Option Model :=
  if s ≤ 0 then none else some { m with driver := m.driver.setSigma8 s, sigma8 := s }

/-- `InterpolatedHZPTModels` (`hzpt/interpolated.py:75-102`): base object, parameters, models and tables made so far -/
structure Models where
  base : Zel
  sigma8 : ℝ
  f : ℝ
  interpolate : Bool
  models : Key → Option Model
  table : Key → Option (List (List ℝ))

/-- the grid of the tables (`hzpt/interpolated.py:26-28`) -/
structure Grid where
  s8s : List ℝ
  ks : List ℝ

/-- Setting the parameter of the existing models in turn, stopping at the first error (`hzpt/interpolated.py:131-134`) -/
def setEach (s : ℝ) : List Key → (Key → Option Model) → (Key → Option Model) × Bool
  | [], ms => (ms, true)
  | key :: t, ms =>
    match ms key with
    | none => setEach s t ms
    | some m =>
      match m.setSigma8 s with
      | none => (ms, false)
      | some m => setEach s t (Function.update ms key (some m))

/-- the `sigma8_z` setter (`hzpt/interpolated.py:123-134`): the flag is false if it raised -/
def Models.setSigma8 (h : Models) (s : ℝ) : Models × Bool :=
  let r := setEach s [.P00, .P01, .P11, .Phm] h.models
  ({ h with sigma8 := s, base := h.base.setSigma8 s, models := r.1 }, r.2)

/-- the `f` setter (`hzpt/interpolated.py:143-152`) -/
def Models.setF (h : Models) (f : ℝ) : Models :=
  { h with f := f, models := fun key => if key = .P01 ∨ key = .P11 then (h.models key).map fun m => { m with f := f } else h.models key }

/-- `InterpolatedHZPTModels(cosmo, sigma8_z, f, interpolate)` (`hzpt/interpolated.py:79-102`) -/
def Models.new (E : Env) (s f : ℝ) (interpolate : Bool) : Models :=
  ⟨(Zel.new E).setSigma8 s, s, f, interpolate, fun _ => none, fun _ => none⟩

/-- `_P00` etc. (`hzpt/interpolated.py:157-203`, `hzpt/__init__.py:41-65`): the model, made from a copy of the base object at the first use; `none` is the `ValueError` -/
def Models.get (h : Models) (key : Key) : Option (Models × Model) :=
  match h.models key with
  | some m => some (h, m)
  | none =>
    match ({ driver := h.base, sigma8 := h.sigma8, f := h.f, b1 := 0 } : Model).setSigma8 h.sigma8 with
    | none => none
    | some m =>
      let m := { m with driver := m.driver.setLowK }
      some ({ h with models := Function.update h.models key (some m) }, m)

/-- The grid values: for each sigma8 of the grid the driver is set to it and evaluated at the wavenumbers of the grid (`hzpt/interpolated.py:61-65`) -/
def tableRows (E : Env) (kind : Kind) (ks : List ℝ) : List ℝ → Zel → List (List ℝ) × Zel
  | [], d => ([], d)
  | s :: t, d =>
    let d := d.setSigma8 s
    let r := tableRows E kind ks t d
    (ks.map (d.zeldovich E kind) :: r.1, r.2)

/-- `self.table[key]` with `__missing__` (`hzpt/interpolated.py:33-72`): the rows and the model after the build.  (The restored value is positive: no error.) -/
def buildTable (E : Env) (G : Grid) (key : Key) (m : Model) : List (List ℝ) × Model :=
  let r := tableRows E key.kind G.ks G.s8s m.driver
  (r.1, { m with driver := r.2.setSigma8 m.sigma8, sigma8 := m.sigma8 })

/-- the interpolator of a table (`hzpt/interpolated.py:66-69`) -/
def interpOf (G : Grid) (rows : List (List ℝ)) : Interp :=
  ⟨[G.s8s, G.ks], fun l => (rows.getD (l.getD 0 0).toNat []).getD (l.getD 1 0).toNat 0, .linear, true, some none⟩

/-- `zeldovich_from_table` (`hzpt/interpolated.py:8-19`) for an array of wavenumbers -/
def fromRows (E : Env) (G : Grid) (rows : List (List ℝ)) (key : Key) (m : Model) (ks : List ℝ) : List ℝ :=
  match call (interpOf G rows) (ks.map fun k => [m.sigma8, k]) none with
  | .values v => v.map (Option.getD · 0)
  | _ => ks.map (m.driver.zeldovich E key.kind)

open Classical in
/-- `if m._driver.GetSigma8AtZ() != m.sigma8_z: m._driver.SetSigma8AtZ(m.sigma8_z)` (`hzpt/interpolated.py:212-214`) -/
def Model.sync (m : Model) : Model := if m.driver.s8 ≠ m.sigma8 then { m with driver := m.driver.setSigma8 m.sigma8 } else m

/-- `P00(k)`, `P01(k)`, `P11(k)`, `Phm(b1, k)` (`hzpt/interpolated.py:208-263`): `none` is an error.  (`b1` is ignored by the first three.) -/
def Models.eval (E : Env) (G : Grid) (K : Consts) (h : Models) (key : Key) (b1 : ℝ) (ks : List ℝ) : Models × Option (List ℝ) :=
  match h.get key with
  | none => (h, none)
  | some (h, m) =>
    let m := m.sync
    let m := if key = .Phm then { m with b1 := b1 } else m
    let out := fun (m : Model) (zel : List ℝ) => List.zipWith (fun k z => total K key m.sigma8 m.f m.b1 k z) ks zel
    if h.interpolate then
      match h.table key with
      | some rows =>
        ({ h with models := Function.update h.models key (some m) }, some (out m (fromRows E G rows key m ks)))
      | none =>
        let r := buildTable E G key m
        ({ h with models := Function.update h.models key (some r.2), table := Function.update h.table key (some r.1) },
          some (out r.2 (fromRows E G r.1 key r.2 ks)))
    else
      ({ h with models := Function.update h.models key (some m) }, some (out m (ks.map (m.driver.zeldovich E key.kind))))

/-- what a user of the collection can do; `inner` is `hzpt._P00.sigma8_z = s` (`power/dm/power_dm.py:686`, `693`) -/
inductive Op where
  | setSigma8 (s : ℝ)
  | setF (f : ℝ)
  | setInterpolate (b : Bool)
  | inner (key : Key) (s : ℝ)
  | eval (key : Key) (b1 : ℝ) (ks : List ℝ)

/-- one operation -/
def Models.step (E : Env) (G : Grid) (K : Consts) (h : Models) : Op → Models
  | .setSigma8 s => (h.setSigma8 s).1
  | .setF f => h.setF f
  | .setInterpolate b => { h with interpolate := b }
  | .inner key s =>
    match h.get key with
    | none => h
    | some (h, m) =>
      match m.setSigma8 s with
      | none => h
      | some m => { h with models := Function.update h.models key (some m) }
  | .eval key b1 ks => (h.eval E G K key b1 ks).1

/-- `Pdv_jennings` (`power/dm/power_dm.py:677-696`): `D` the growth function, `sigma8`, `f` those of the model calling it -/
def pdvJennings (E : Env) (G : Grid) (K : Consts) (h : Models) (sigma8 f D : ℝ) (ks : List ℝ) : Models × Option (List ℝ) :=
  let h := h.step E G K (.inner .P00 (sigma8 / D))
  match h.eval E G K .P00 0 ks with
  | (h, none) => (h, none)
  | (h, some p0) =>
    let zs := 3 / (D + D ^ 2 + D ^ 3)
    let h := h.step E G K (.inner .P00 sigma8)
    match h.eval E G K .P00 0 ks with
    | (h, none) => (h, none)
    | (h, some p) =>
      (h, some (List.zipWith (fun p0 p =>
        let g := (-(124838 / 10) * p0 ^ (1 / 2 : ℝ) + 2554 / 1000 * p0 ^ 2) / (138129 / 100 + 2540 / 1000 * p0)
        (-f) * ((g - p0) / zs ^ 2 + p)) p0 p))

end

end Verif.Hzpt
