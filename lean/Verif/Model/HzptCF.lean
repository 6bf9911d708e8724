/-
Model of the Halo-Zel'dovich correlation functions: the C++ class `ZeldovichCF` (`pyRSD/_gcl/cpp/ZeldovichCF.cpp`) and the Python classes `HaloZeldovichCF00` (`pyRSD/rsd/hzpt/P00.py`) and
`HaloZeldovichCFhm` (`pyRSD/rsd/hzpt/Phm.py`).

Simplifications.  Real arithmetic; `none` stands for NaN and infinities.  The FFTLog transform `pk_to_xi` is any function of the values of the grid, the separation and the smoothing.
-/
import Verif.Model.Hzpt

namespace Verif.Hzpt

noncomputable section

/-- `broadband` of the correlation functions (`P00.py:40-70`; the same text in `Phm.py:261-288`) with `A0, R, R1, R1h, R2h`: NaN where the root is of a negative number, NaN or infinity where zero is divided by -/
def broadbandCF (c : Fin 5 → ℝ) (r : ℝ) : Option ℝ :=
  let A0 := c 0
  let R := c 1
  let R1 := c 2
  let R1h := c 3
  let R2h := c 4
  let disc := R1h ^ 4 - 4 * R2h ^ 4
  let S := Real.sqrt disc
  let norm := -A0 * Real.exp (-r / R) / (4 * Real.pi * r * R ^ 2)
  let A := (R ^ 2 * (-2 * R2h ^ 4 + R1 ^ 2 * (R1h ^ 2 - S)) + R2h ^ 4 * (R1h ^ 2 - S) + R1 ^ 2 * (-R1h ^ 4 + 2 * R2h ^ 4 + R1h ^ 2 * S)) / (2 * R2h ^ 4 * S)
  let B := (R2h ^ 4 * (R1h ^ 2 + S) - R1 ^ 2 * (R1h ^ 4 - 2 * R2h ^ 4 + R1h ^ 2 * S) + R ^ 2 * (-2 * R2h ^ 4 + R1 ^ 2 * (R1h ^ 2 + S))) * (-1) / (2 * R2h ^ 4 * S)
  let term1 := 1 - (R1 / R) ^ 2
  let term2 := A * Real.exp (r * (1 / R - Real.sqrt (1 / 2 * (R1h ^ 2 - S)) / R2h ^ 2))
  let term3 := B * Real.exp (r * (1 / R - Real.sqrt (1 / 2 * (R1h ^ 2 + S)) / R2h ^ 2))
  let denom := 1 - (R1h / R) ^ 2 + (R2h / R) ^ 4
  if disc ≤ 0 ∨ R2h = 0 ∨ R = 0 ∨ r = 0 ∨ denom = 0 then none else some (norm * (term1 + term2 + term3) / denom)

/-- A `ZeldovichCF` object (`ZeldovichCF.h:31-38`): the power spectrum, the `sigma8_z` asked for and the values on the grid of wavenumbers -/
structure CF where
  pz : Zel
  s8 : ℝ
  grid : List (Option ℝ)

/-- `ZeldovichCF(cosmo, 0.)` (`ZeldovichCF.cpp:9-15`): the power spectrum has the low-k approximation turned on -/
def CF.new (E : Env) (ks : List ℝ) : CF :=
  let pz := (Zel.new E).setLowK
  ⟨pz, pz.s8, ks.map (pz.eval E .p00)⟩

/-- `SetSigma8AtZ` (`ZeldovichCF.cpp:51-55`): only noted -/
def CF.set (c : CF) (s : ℝ) : CF := { c with s8 := s }

open Classical in
/-- the values on the grid are made anew if the amplitude has changed (`ZeldovichCF.cpp:32-35`, `43-46`) -/
def CF.sync (E : Env) (ks : List ℝ) (c : CF) : CF :=
  if c.s8 ≠ c.pz.s8 then
    let pz := c.pz.setSigma8 c.s8
    { c with pz := pz, grid := ks.map (pz.eval E .p00) }
  else c

/-- `Evaluate(r, smoothing)` (`ZeldovichCF.cpp:27-38`) with the transform `T` -/
def CF.evaluate (E : Env) (ks : List ℝ) (T : List (Option ℝ) → ℝ → ℝ → Option ℝ) (c : CF) (r smoothing : ℝ) : CF × Option ℝ :=
  let c := c.sync E ks
  (c, T c.grid r smoothing)

/-- A `HaloZeldovichCF00` or `HaloZeldovichCFhm` object: driver and `sigma8_z` -/
structure CFModel where
  driver : CF
  sigma8 : ℝ

/-- the constructor (`hzpt/__init__.py:12-39`): the low-k approximation cannot be turned on by `SetLowKApprox`, which a `ZeldovichCF` has not, and the exception is dropped; `none` is the `ValueError` -/
def CFModel.new (E : Env) (ks : List ℝ) (s : ℝ) : Option CFModel := if s ≤ 0 then none else some ⟨(CF.new E ks).set s, s⟩

/-- the `sigma8_z` parameter (`hzpt/__init__.py:130-137`): nothing changes if it raises -/
def CFModel.setSigma8 (m : CFModel) (s : ℝ) : CFModel := if s ≤ 0 then m else ⟨m.driver.set s, s⟩

/-- `zeldovich(r)`: `np.nan_to_num(self._driver(r))` (`P00.py:72-82`, `Phm.py:290-295`) -/
def CFModel.zeldovich (E : Env) (ks : List ℝ) (T : List (Option ℝ) → ℝ → ℝ → Option ℝ) (m : CFModel) (r : ℝ) : CFModel × ℝ :=
  let e := m.driver.evaluate E ks T r 0
  ({ m with driver := e.1 }, e.2.getD 0)

/-- `HaloZeldovichCF00.__call__(r)` (`P00.py:84-88`) -/
def CFModel.call00 (E : Env) (ks : List ℝ) (T : List (Option ℝ) → ℝ → ℝ → Option ℝ) (P : Pars) (m : CFModel) (r : ℝ) : CFModel × Option ℝ :=
  let z := m.zeldovich E ks T r
  (z.1, (broadbandCF (P.law m.sigma8) r).map (· + z.2))

/-- the parameters of the halo-matter models (`hzpt/Phm.py:73-229`) -/
def ParsHm.law (P : ParsHm) (b1 s : ℝ) (j : Fin 5) : ℝ := P.amp j * b1 ^ (P.alpha j + P.run j * Real.log b1) * (s / (4 / 5)) ^ P.beta j

/-- `HaloZeldovichCFhm.__call__(b1, r)` (`Phm.py:297-310`) -/
def CFModel.callHm (E : Env) (ks : List ℝ) (T : List (Option ℝ) → ℝ → ℝ → Option ℝ) (P : ParsHm) (m : CFModel) (b1 r : ℝ) : CFModel × Option ℝ :=
  let z := m.zeldovich E ks T r
  (z.1, (broadbandCF (P.law b1 m.sigma8) r).map (· + b1 * z.2))

/-- what a user of a correlation function can do: set `sigma8_z`, evaluate -/
inductive CFOp where
  | set (s : ℝ)
  | eval (r : ℝ)

/-- one operation; an evaluation of either class changes the object as `zeldovich` does -/
def CFModel.step (E : Env) (ks : List ℝ) (T : List (Option ℝ) → ℝ → ℝ → Option ℝ) (m : CFModel) : CFOp → CFModel
  | .set s => m.setSigma8 s
  | .eval r => (m.zeldovich E ks T r).1

/-- `HaloZeldovichPhm.broadband` has these parameters -/
theorem broadbandHm_law (P : ParsHm) (b1 s k : ℝ) : broadbandHm P b1 s k = pade (P.law b1 s) k := rfl

end
end Verif.Hzpt
