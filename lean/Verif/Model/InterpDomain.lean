/-
Model of the domain of the interpolated spectra: `RSDSpline` (`pyRSD/rsd/tools.py:331-388`), `InterpolatedFunction` and `interpolated_function`
(`pyRSD/rsd/_cache.py:309-389`), the wavenumbers of a model (`pyRSD/rsd/power/dm/power_dm.py:381-399`, `526-538`), and `power`, `derivative_k` of the dark matter
spectrum on arrays (`power_dm.py:1079-1160`).

Numbers are exact reals or `nan` (`none`); arrays are lists (shapes are C113).  scipy's spline is a pair of functions, with its derivative, both defined everywhere (scipy
extrapolates).
-/
import Verif.Model.AP
import Mathlib.Analysis.SpecialFunctions.Log.Base

namespace Verif.InterpDomain

open Verif.AP

noncomputable section

/-- a number or `nan` -/
abbrev Num := Option ℝ

/-- `InterpolatedUnivariateSpline(x, y)` of scipy and its `derivative()`, with the domain remembered by `RSDSpline` (`tools.py:345-346`). `bounds_error` and `fill_value` are
stored and never read. -/
structure Spl where
  x : List ℝ
  f : ℝ → ℝ
  f' : ℝ → ℝ

/-- What an evaluation may raise: `InterpolationDomainError` with its two flags (`_interpolate.py:4-8`), which decide the text of the message; the `NotImplementedError` of `_power`. -/
inductive Err where
  | domain (above below : Bool)
  | maxMu
  deriving DecidableEq

/-- comparison of a number with a bound: `False` for `nan` -/
def numLt (a : Num) (b : ℝ) : Prop := ∃ v, a = some v ∧ v < b

/-- comparison of a number with a bound: `False` for `nan` -/
def numGt (a : Num) (b : ℝ) : Prop := ∃ v, a = some v ∧ v > b

open Classical in
/-- `RSDSpline.__call__` (`tools.py:352-388`) -/
def Spl.call (s : Spl) (ks : List Num) : Except Err (List Num) :=
  let lo := s.x.head?.getD 0
  let hi := s.x.getLast?.getD 0
  let above := ks.any fun k => decide (numGt k hi)
  let below := ks.any fun k => decide (numLt k lo)
  if ks.any (fun k => decide (numLt k lo) || decide (numGt k hi)) then .error (.domain above below) else .ok (ks.map (Option.map s.f))

/-- `InterpolatedFunction.__call__` (`_cache.py:319-343`): the derivative is that of scipy's class, which knows no bounds. -/
def callInterp (s : Spl) (derivative : Bool) (ks : List Num) : Except Err (List Num) :=
  if derivative then .ok (ks.map (Option.map s.f')) else s.call ks

/-- An attribute made by `interpolated_function` (`_cache.py:345-389`): the function decorated, the wavenumbers of the spline. -/
structure Attr where
  f : ℝ → ℝ
  grid : List ℝ

/-- scipy's interpolation, from abscissae and ordinates: the spline and its derivative -/
abbrev Mk := List ℝ → List ℝ → (ℝ → ℝ) × (ℝ → ℝ)

/-- `RSDSpline(x, y)` (`tools.py:336-349`) -/
def rsdSpline (mk : Mk) (x y : List ℝ) : Spl := ⟨x, (mk x y).1, (mk x y).2⟩

/-- the entry used: the one there, or a new one (`_cache.py:372-381`) -/
def entry (mk : Mk) (a : Attr) : Option Spl → Spl
  | some s => s
  | none => rsdSpline mk a.grid (a.grid.map a.f)

/-- `wrapped` (`_cache.py:355-383`): `cache` is the entry `_cache[name]`; result and new entry. With `ignore_cache` the other keywords are dropped. -/
def wrapped (mk : Mk) (a : Attr) (cache : Option Spl) (ignoreCache derivative : Bool) (ks : List Num) : Except Err (List Num) × Option Spl :=
  if ignoreCache then (.ok (ks.map (Option.map a.f)), cache)
  else
    let s := entry mk a cache
    (callInterp s derivative ks, some s)

/-! ### The wavenumbers of a model -/

/-- `np.logspace(np.log10(a), np.log10(b), n)` -/
def logspace (a b : ℝ) (n : ℕ) : List ℝ :=
  (List.range n).map fun (i : ℕ) => (10 : ℝ) ^ (Real.logb 10 a + (i : ℝ) * ((Real.logb 10 b - Real.logb 10 a) / ((n : ℝ) - 1)))

/-- `INTERP_KMIN`, `INTERP_KMAX` (`pyRSD/rsd/__init__.py:3-4`) -/
def interpKmin : ℝ := 5e-6

/-- see above -/
def interpKmax : ℝ := 1

open Classical in
/-- `DarkMatterSpectrum.k` (`power_dm.py:526-538`) -/
def modelK (kmin kmax : ℝ) (nk : ℕ) : List ℝ :=
  let a := if kmin < interpKmin then interpKmin else kmin
  let b := if kmax > interpKmax then interpKmax else kmax
  logspace a b nk

/-! ### `power` and `derivative_k` on arrays -/

/-- The part of a model that matters here: `P_mu0`, ..., `P_mu6`, all on the same wavenumbers; dilations; `max_mu`. -/
structure Model where
  interp : Mk
  P : ℕ → ℝ → ℝ
  grid : List ℝ
  al : Alphas
  maxMu : ℕ

/-- the cached splines -/
abbrev Caches := ℕ → Option Spl

/-- the dilated wavenumber (`tools.py:198`) -/
def apK (al : Alphas) (q : Num × ℝ) : Num := q.1.map fun k => kAP k q.2 al.perp al.par

/-- `P_mu{2i}` called from the model -/
def Model.call (m : Model) (c : Caches) (i : ℕ) (derivative : Bool) (ks : List Num) : Except Err (List Num) × Caches :=
  let r := wrapped m.interp ⟨m.P i, m.grid⟩ (c i) false derivative ks
  (r.1, fun j => if j = i then r.2 else c j)

/-- `_P_mu{2i}(k, mu)` (`power_dm.py:1079-1106`): each is decorated with `alcock_paczynski`. The lock is free before and after, also when an exception passes (C61). -/
def Model.term (m : Model) (c : Caches) (i : ℕ) (kmu : List (Num × ℝ)) : Except Err (List Num) × Caches :=
  match m.call c i false (kmu.map (apK m.al)) with
  | (.error e, c) => (.error e, c)
  | (.ok vs, c) =>
    (.ok (List.zipWith (fun q v => v.map fun p => rescale m.al (muAP q.2 m.al.perp m.al.par ^ (2 * i) * p)) kmu vs), c)

/-- sum of arrays; `nan` absorbs -/
def addNum (a b : List Num) : List Num := List.zipWith (fun x y => x.bind fun x => y.map fun y => x + y) a b

/-- the loop `while i <= max_mu//2: toret += funcs[i](k, mu)` (`power_dm.py:1155-1158`), `todo` steps from `i` -/
def Model.loop (m : Model) (kmu : List (Num × ℝ)) : (todo i : ℕ) → List Num → Caches → Except Err (List Num) × Caches
  | 0, _, acc, c => (.ok acc, c)
  | n + 1, i, acc, c =>
    match m.term c i kmu with
    | (.error e, c) => (.error e, c)
    | (.ok vs, c) => m.loop kmu n (i + 1) (addNum acc vs) c

/-- `power` (`power_dm.py:985-1014` and `power_dm.py:1144-1160`): `np.nan_to_num` at the end -/
def Model.power (m : Model) (c : Caches) (kmu : List (Num × ℝ)) : Except Err (List ℝ) × Caches :=
  if m.maxMu > 6 then (.error .maxMu, c)
  else
    match m.loop kmu (m.maxMu / 2 + 1) 0 (kmu.map fun _ => some 0) c with
    | (.error e, c) => (.error e, c)
    | (.ok vs, c) => (.ok (vs.map fun v => v.getD 0), c)

/-- the loop of `derivative_k` (`power_dm.py:1118-1121`), inside the decorator: `kmu` are the dilated ones -/
def Model.loopDk (m : Model) (kmu : List (Num × ℝ)) : (todo i : ℕ) → List Num → Caches → Except Err (List Num) × Caches
  | 0, _, acc, c => (.ok acc, c)
  | n + 1, i, acc, c =>
    match m.call c i true (kmu.map Prod.fst) with
    | (.error e, c) => (.error e, c)
    | (.ok vs, c) => m.loopDk kmu n (i + 1) (addNum acc (List.zipWith (fun q v => v.map fun p => q.2 ^ (2 * i) * p) kmu vs)) c

/-- `derivative_k` (`power_dm.py:1108-1123`), decorated; for `max_mu` up to 7 (above, `funcs[i]` is an `IndexError`) -/
def Model.derivK (m : Model) (c : Caches) (kmu : List (Num × ℝ)) : Except Err (List Num) × Caches :=
  let kmu' := kmu.map fun q => (apK m.al q, muAP q.2 m.al.perp m.al.par)
  match m.loopDk kmu' (m.maxMu / 2 + 1) 0 (kmu.map fun _ => some 0) c with
  | (.error e, c) => (.error e, c)
  | (.ok vs, c) => (.ok (vs.map (Option.map (rescale m.al))), c)

end

end Verif.InterpDomain
