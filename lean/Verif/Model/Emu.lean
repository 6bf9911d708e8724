/-
The nonlinear power spectrum of the Coyote emulator: `pyRSD/_gcl/cpp/NonlinearPS.cpp`, `pyRSD/_gcl/include/NonlinearPS.h`, and the emulator itself,
`pyRSD/_gcl/extern/FrankenEmu/src/emu.c`, `emu_noh.c`, `hubble.c`.

Real numbers in place of `double`, except that the limits of the parameters are the exact doubles, and that a number from the caller may be nan (`none`).  The order in which sums are
added up is left out.  GSL is modelled by what it computes: a solution of a positive definite system, and the linear interpolation of a table.  The emulator with a Hubble
constant (`emu.c`) and without (`emu_noh.c`) are the same text with other tables (`emu.c:27-39`, `emu_noh.c:27-39`), so one model with the table as an argument.
-/
import Verif.Spec.Emu
import Verif.Model.Spline
import Mathlib.Analysis.SpecialFunctions.Pow.Real
import Mathlib.Analysis.SpecialFunctions.Log.Base
import Mathlib.LinearAlgebra.Matrix.NonsingularInverse
import Mathlib.MeasureTheory.Integral.IntervalIntegral.Basic

namespace Verif.Emu

noncomputable section

/-- a number that may be nan -/
abbrev Num := Option ℝ

/-- `a < b`, false if one of them is nan -/
def lt : Num → Num → Prop
  | some a, some b => a < b
  | _, _ => False

/-- The tables of an emulator (`emu.c:27-37`, `extern/FrankenEmu/include/*.h`): `m` simulations, `p` parameters, `q` principal components, `rs` snapshots, `nk` wavenumbers of
the components, `ns` wavenumbers of the output.  `top` is the double `xmin+xrange`. -/
structure Table where
  m : ℕ
  p : ℕ
  q : ℕ
  rs : ℕ
  nk : ℕ
  ns : ℕ
  x : Fin m → Fin p → ℝ
  w : Fin q → Fin m → ℝ
  beta : Fin q → Fin p → ℝ
  lamz : Fin q → ℝ
  lamws : Fin q → ℝ
  K : ℕ → Fin q → ℝ
  mean : ℕ → ℝ
  sd : ℝ
  xmin : Fin p → ℝ
  xrange : Fin p → ℝ
  top : Fin p → ℝ
  kemu : ℕ → ℝ
  ksim : ℕ → ℝ
  aemu : ℕ → ℝ

variable (T : Table)

/-- the covariance matrix of the weights of component `i` (`emu.c:53-67`) -/
def sigmaSim (i : Fin T.q) : Matrix (Fin T.m) (Fin T.m) ℝ := fun j k =>
  if j = k then 1 / T.lamz i + 1 / T.lamws i else Real.exp (-∑ l, T.beta i l * (T.x j l - T.x k l) ^ 2) / T.lamz i

/-- the row `i` of `KrigBasis` (`emu.c:68-79`): what the Cholesky solver returns -/
def krig (i : Fin T.q) : Fin T.m → ℝ := (sigmaSim T i)⁻¹.mulVec (T.w i)

/-- the standardized input (`emu.c:136-139`) -/
def standard (xstar : Fin T.p → ℝ) : Fin T.p → ℝ := fun i => (xstar i - T.xmin i) / T.xrange i

/-- the covariance of the new input and a simulation (`emu.c:141-150`) -/
def sigmaStar (u : Fin T.p → ℝ) (i : Fin T.q) (j : Fin T.m) : ℝ := Real.exp (-∑ k, T.beta i k * (T.x j k - u k) ^ 2) / T.lamz i

/-- the predicted weight of component `i` (`emu.c:152-158`) -/
def wstar (u : Fin T.p → ℝ) (i : Fin T.q) : ℝ := ∑ j, sigmaStar T u i j * krig T i j

/-- the emulated output (`emu.c:160-167`) -/
def ystaremu (u : Fin T.p → ℝ) (i : ℕ) : ℝ := (∑ j, T.K i j * wstar T u j) * T.sd + T.mean i

open Classical in
/-- `gsl_interp_bsearch` (GSL, not in the repository; called by `gsl_spline_eval`, `emu.c:176,198`): between `lo` and `hi`, at most `fuel` times around -/
def bsearch (X : ℕ → ℝ) (x : ℝ) : ℕ → ℕ → ℕ → ℕ
  | 0, lo, _ => lo
  | fuel+1, lo, hi =>
    if lo + 1 < hi then (if x < X ((lo + hi) / 2) then bsearch X x fuel lo ((lo + hi) / 2) else bsearch X x fuel ((lo + hi) / 2) hi) else lo

/-- `gsl_spline_eval` of a `gsl_interp_linear` table of `n` points (`emu.c:92-94,174-177,197-198`); the accelerator, which only shortens the search, is left out -/
def linEval (n : ℕ) (X Y : ℕ → ℝ) (x : ℝ) : ℝ :=
  let i := bsearch X x n 0 (n-1)
  if 0 < X (i+1) - X i then Y i + (x - X i) / (X (i+1) - X i) * (Y (i+1) - Y i) else 0

/-- the output of snapshot `i` on the wavenumbers of the simulations (`emu.c:172-179`) -/
def ystarAllz (u : Fin T.p → ℝ) (i j : ℕ) : ℝ := linEval T.nk T.kemu (fun c => ystaremu T u (i*T.nk + c)) (T.ksim j)

/-- the redshifts of the snapshots, in increasing order (`emu.c:188-192`) -/
def zemu (i : ℕ) : ℝ := 1 / T.aemu (T.rs-i-1) - 1

/-- the output at redshift `z` (`emu.c:193-200`): `ybyz[rs-j-1] = ystar_allz[j*nsim+i]` -/
def atZ (u : Fin T.p → ℝ) (z : ℝ) (i : ℕ) : ℝ := linEval T.rs (zemu T) (fun r => ystarAllz T u (T.rs-r-1) i) z

/-- the conversion to the type of output that is asked for (`emu.c:205-228`) -/
def convert (outtype : ℤ) (k y : ℝ) : ℝ :=
  if outtype = 1 then (10:ℝ) ^ (y + 1.5 * Real.logb 10 k)
  else if outtype = 2 then (10:ℝ) ^ (y - 1.5 * Real.logb 10 k) * 2 * Real.pi * Real.pi
  else (10:ℝ) ^ y

/-- How a call ends: normally, with a C++ exception (a Python `RuntimeError`), or with `exit(1)`, which ends the Python process; or it does what C++ leaves undefined. -/
inductive Out (α : Type) where
  | ok (a : α)
  | raise
  | exit
  | undefined

/-- the outcome of a call, handed to what comes after it -/
def Out.andThen {α β : Type} (o : Out α) (f : α → Out β) : Out β :=
  match o with
  | .ok a => f a
  | .raise => .raise
  | .exit => .exit
  | .undefined => .undefined

open Classical in
/-- `emu` and `emu_noh` (`emu.c:85-234`): the wavenumbers and the output at each of them, which is nan if the redshift is -/
def emu (xstar : Fin T.p → ℝ) (z : Num) (outtype : ℤ) : Out (ℕ → ℝ × Num) :=
  if ∃ i, xstar i < T.xmin i ∨ T.top i < xstar i then .exit
  else if lt z (some 0) ∨ lt (some 4) z then .exit
  else .ok fun i => (T.ksim i, z.map fun z => convert outtype (T.ksim i) (atZ T (standard T xstar) z i))

/-! ### The Hubble constant of the CMB -/

/-- `struct cosmo` (`hubble.c:22-28`) -/
structure CMB where
  hub : ℝ
  w0 : ℝ
  wa : ℝ
  wm : ℝ
  wb : ℝ

/-- `hubble` (`hubble.c:31-40`) -/
def hubble (c : CMB) (a : ℝ) : ℝ :=
  let H0 := c.hub * 100
  let Om := c.wm / c.hub ^ 2
  let Or := 4.15e-5 / c.hub ^ 2
  let OX := 1 - Om
  let Ok := 0
  H0 * Real.sqrt (Or / a ^ 4 + Om / a ^ 3 + Ok / a ^ 2 + OX * a ^ (-3 * (1 + c.w0 + c.wa)) * Real.exp (-3 * c.wa * (1 - a)))

/-- `co_distance`, `ang_dist` (`hubble.c:43-72`); the quadrature of GSL is the argument `quad` -/
def coDistance (quad : (ℝ → ℝ) → ℝ → ℝ → ℝ) (c : CMB) (a : ℝ) : ℝ := quad (fun a => 1 / (a * a * hubble c a)) a 1 * 299792.458 * c.hub

/-- `z_lastscattering` (`hubble.c:148-159`) -/
def zLast (c : CMB) : ℝ :=
  let b1 := 0.0783 * c.wb ^ (-0.238 : ℝ) / (1 + 39.5 * c.wb ^ (0.763 : ℝ))
  let b2 := 0.560 / (1 + 21.1 * c.wb ^ (1.81 : ℝ))
  1048 * (1 + 0.00124 * c.wb ^ (-0.738 : ℝ)) * (1 + b1 * c.wm ^ b2)

/-- `soundhorizon` (`hubble.c:161-178`) -/
def soundHorizon (c : CMB) : ℝ :=
  let wg := 2.4888e-5 * (2.725 / 2.73) ^ 4
  let r0 := 0.75 * c.wb / wg
  let zeq := 5464.0 * (c.wm / 0.135) / (2.725 / 2.725) ^ 4 / (1 + 0.6851) - 1
  let req := r0 / (1 + zeq)
  let rls := r0 / (1 + zLast c)
  3997.0 * Real.sqrt (wg / c.wm / c.wb) * Real.log ((Real.sqrt (1 + rls) + Real.sqrt (rls + req)) / (1 + Real.sqrt req))

/-- `distls` (`hubble.c:180-188`) -/
def distLS (quad : (ℝ → ℝ) → ℝ → ℝ → ℝ) (c : CMB) : ℝ := coDistance quad c (1 / (1 + zLast c)) / c.hub

open Classical in
/-- the loop of `solvehh` (`hubble.c:207-218`), at most `fuel` times around; `f h` is `distls - dLS` at the Hubble parameter `h`, `mid` the last midpoint -/
def bisect (f : ℝ → ℝ) : ℕ → ℝ → ℝ → ℝ → ℝ → Option ℝ
  | 0, _, _, _, _ => none
  | fuel+1, hmin, hmax, ymin, mid =>
    if 1e-3 < |hmax - hmin| then
      let h := (hmax + hmin) / 2
      if ymin * f h < 0 then bisect f fuel hmin h ymin h else bisect f fuel h hmax (f h) h
    else some mid

/-- `solvehh` (`hubble.c:191-221`); the loop is given 20 times around, of which it uses 10 -/
def solvehh (quad : (ℝ → ℝ) → ℝ → ℝ → ℝ) (dLS : ℝ) (c : CMB) : Option ℝ :=
  let f := fun h => distLS quad { c with hub := h } - dLS
  bisect f 20 0.3 1 (f 0.3) c.hub

/-- `getH0fromCMB` (`hubble.c:224-247`): the last of the four numbers, from the physical densities of baryons and matter and the equation of state -/
def h0FromCMB (quad : (ℝ → ℝ) → ℝ → ℝ → ℝ) (wb wm w : ℝ) : Option ℝ :=
  let c : CMB := ⟨0.72, w, 0, wm, wb⟩
  solvehh quad (302.4 * soundHorizon c / 3.141592653589793) c

/-! ### `NonlinearPS` -/

/-- What CLASS computed: `Omega0_b`, `Omega0_m`, `n_s`, `h`, `w0_fld`, `sigma8` (`NonlinearPS.cpp:58-64`) -/
structure Cosmo where
  ob : ℝ
  om : ℝ
  ns : ℝ
  h : ℝ
  w : ℝ
  s8 : ℝ

/-- `NonlinearPS` with the emulator (`NonlinearPS.h:44-54`): the parameter `h`, and the range and the spline of the emulated spectrum; no spline if the values are nan -/
structure PS where
  h : ℝ
  kmin : ℝ
  kmax : ℝ
  spl : Option Spline.Impl

open Classical in
/-- `VerifyFrankenEmu` (`NonlinearPS.cpp:103-146`): whether it is content.  The limits are the doubles of the literals 0.12, 0.155, 0.0215, 0.0235, 0.85, 1.05, 0.61, 0.9, -1.3, -0.7 -/
def verify (c : Cosmo) (h : ℝ) (z : Num) (cmbh : Bool) : Bool :=
  let ombh2 := c.ob * h ^ 2
  let ommh2 := c.om * h ^ 2
  let H0 := 100 * h
  if ommh2 < dy 8646911284551352 56 ∨ ommh2 > dy 5584463537939415 55 then false
  else if ombh2 < dy 6196953087261802 58 ∨ ombh2 > dy 6773413839565226 58 then false
  else if c.ns < dy 7656119366529843 53 ∨ c.ns > dy 4728779608739021 52 then false
  else if c.s8 < dy 5494391545392005 53 ∨ c.s8 > dy 8106479329266893 53 then false
  else if c.w < dy (-5854679515581645) 52 ∨ c.w > dy (-6305039478318694) 53 then false
  else if lt z (some 0) ∨ lt (some 1) z then false
  else if !cmbh && decide (H0 < 55 ∨ H0 > 85) then false
  else true

/-- the end of `InitializeTheFrankenEmu` (`NonlinearPS.cpp:87-99`): wavenumbers and spectrum in units of `h`, and the spline; `mem` is the memory it gets -/
def finish (mem : Spline.Arr) (N : ℕ) (h : ℝ) (y : ℕ → ℝ × Num) : PS :=
  let k := fun i => (y i).1 / h
  { h := h, kmin := k 0, kmax := k (N-1),
    spl := if ∀ i < N, (y i).2.isSome then some (Spline.cubic N k (fun i => (y i).2.getD 0 * h ^ 3) mem) else none }

/-- The world of the constructor: the two emulators, the quadrature of GSL and the memory the spline gets. `T` has the six parameters, `T'` five (`emu.c:37`, `emu_noh.c:37`). -/
structure World where
  T : Table
  T' : Table
  p : T.p = 6
  p' : T'.p = 5
  quad : (ℝ → ℝ) → ℝ → ℝ → ℝ
  mem : Spline.Arr

/-- `InitializeTheFrankenEmu` (`NonlinearPS.cpp:52-100`) for the spectrum at redshift `z`; `h` is the parameter of the object, from CLASS (`NonlinearPS.cpp:25`).  Both emulators are
asked for the type 2, the spectrum; a loop of `solvehh` without end would be `undefined`. -/
def create (W : World) (c : Cosmo) (z : Num) (cmbh : Bool) : Out PS :=
  let h := c.h
  if !verify c h z cmbh then .raise
  else
    let ob := c.ob * h ^ 2
    let om := c.om * h ^ 2
    if cmbh then
      (emu W.T' (fun i => ![ob, om, c.ns, c.w, c.s8] (Fin.cast W.p' i)) z 2).andThen fun y =>
        match h0FromCMB W.quad ob om c.w with
        | none => .undefined
        | some h' => .ok (finish W.mem W.T'.ns h' y)
    else
      (emu W.T (fun i => ![ob, om, c.ns, 100 * h, c.w, c.s8] (Fin.cast W.p i)) z 2).andThen fun y => .ok (finish W.mem W.T.ns h y)

/-- `fmin`: nan gives way to a number (`parray.cpp:194-202`) -/
def fmin : Num → Num → Num
  | some a, some b => some (min a b)
  | some a, none => some a
  | none, b => b

/-- `fmax` (`parray.cpp:204-212`) -/
def fmax : Num → Num → Num
  | some a, some b => some (max a b)
  | some a, none => some a
  | none, b => b

/-- `parray::min` (`parray.cpp:194-202`) -/
def pmin : List Num → Num
  | [] => some 0
  | a :: l => l.foldl fmin a

/-- `parray::max` (`parray.cpp:204-212`) -/
def pmax : List Num → Num
  | [] => some 0
  | a :: l => l.foldl fmax a

/-- `Spline::Evaluate` of one wavenumber (`Spline.cpp:360-365`); the search for nan is an assertion that fails, or undefined without assertions (`Spline.cpp:12-25`) -/
def evalOne (s : PS) : Num → Out Num
  | none => .undefined
  | some k =>
    match s.spl with
    | none => if s.kmin ≤ k ∧ k ≤ s.kmax then .ok none else .ok (some 0)
    | some f =>
      match Spline.evaluate f k with
      | none => .undefined
      | some v => .ok (some v)

/-- `Spline::EvaluateMany` (`Spline.cpp:369-376`), one after the other -/
def evalAll (s : PS) : List Num → Out (List Num)
  | [] => .ok []
  | k :: l => (evalOne s k).andThen fun v => (evalAll s l).andThen fun vs => .ok (v :: vs)

open Classical in
/-- `NonlinearPS::EvaluateMany` with the emulator (`NonlinearPS.cpp:33-42`) -/
def evaluate (s : PS) (k : List Num) : Out (List Num) :=
  if lt (pmin k) (some s.kmin) ∨ lt (some s.kmax) (pmax k) then .raise else evalAll s k

end

end Verif.Emu
