/-
Model of the C++ drivers of the perturbation-theory integrals: `Imn` (`pyRSD/_gcl/cpp/Imn.cpp`), `Jmn` (`Jmn.cpp`), `Kmn` (`Kmn.cpp`), `ImnOneLoop` (`ImnOneLoop.cpp`),
`OneLoopPS` (`OneLoopPS.cpp`) and the velocity integrals of `PowerSpectrum` (`PowerSpectrum.cpp`).

Simplifications.  Real arithmetic.  The adaptive quadratures and the splines are fields of `Num`: the properties that need them ask for what they use (homogeneity, or
`Num.exact`, the exact integrals and no interpolation error).  An invalid pair of indices is `none`: the C++ prints an error and returns 0.
-/
import Mathlib.Analysis.SpecialFunctions.Log.Basic
import Mathlib.Analysis.SpecialFunctions.Sqrt
import Mathlib.MeasureTheory.Integral.IntervalIntegral.Basic

namespace Verif.PT

noncomputable section

/-- The numerical methods: one- and two-dimensional quadrature (`Quadrature.h`), the cubic spline of the one-loop spectra (`OneLoopPS.cpp:70`), the splines of
`interpolated_function` on the grids `k_interp` (`pt_integrals.py`) and `k` (`power_dm.py`) (`_cache.py:344-389`). -/
structure Num where
  int1 : (ℝ → ℝ) → ℝ → ℝ → ℝ
  int2 : (ℝ → ℝ → ℝ) → ℝ → ℝ → ℝ → ℝ → ℝ
  cspl : (ℝ → ℝ) → ℝ → ℝ
  ispl : (ℝ → ℝ) → ℝ → ℝ
  kspl : (ℝ → ℝ) → ℝ → ℝ

open MeasureTheory in
/-- Exact integrals and exact interpolation -/
def Num.exact : Num where
  int1 f a b := ∫ x in a..b, f x
  int2 f a b c d := ∫ x in a..b, ∫ y in c..d, f x y
  cspl f := f
  ispl f := f
  kspl f := f

/-! ### Kernels of `Imn` -/

/-- `f00` (`Imn.cpp:25-27`) -/
def f00 (u v : ℝ) : ℝ := 4 * (4 + 3*v*v + u*u*(3 - 10*v*v))^2 / (49 * (u*u - v*v)^4)
/-- `f01` (`Imn.cpp:30-33`) -/
def f01 (u v : ℝ) : ℝ := let u2 := u*u; let v2 := v*v;
  (4 * (-8 + v2 + u2*(1 + 6*v2)) * (-4 - 3*v2 + u2*(-3 + 10*v2))) / (49 * (u2 - v2)^4)
/-- `f02` (`Imn.cpp:36-39`) -/
def f02 (u v : ℝ) : ℝ := let u2 := u*u; let v2 := v*v;
  -((8 * (-1 + u2) * (-1 + v2) * (-4 - 3*v2 + u2*(-3 + 10*v2))) / (7 * (u2 - v2)^4))
/-- `f03` (`Imn.cpp:42-44`) -/
def f03 (u v : ℝ) : ℝ := (8 * (-1 + u*u) * (-1 + 3*u*v) * (-1 + v*v)) / ((u - v)^4 * (u + v)^2)
/-- `f10` (`Imn.cpp:47-49`) -/
def f10 (u v : ℝ) : ℝ := (4 * (-1 + u*v) * (-4 - 3*v*v + u*u*(-3 + 10*v*v))) / (7 * (u - v)^4 * (u + v)^2)
/-- `f11` (`Imn.cpp:52-55`) -/
def f11 (u v : ℝ) : ℝ := let u2 := u*u; let v2 := v*v;
  (4 * (-8 + u2 + v2 + 6*u2*v2)^2) / (49 * (u2 - v2)^4)
/-- `f12` (`Imn.cpp:58-61`) -/
def f12 (u v : ℝ) : ℝ := let u2 := u*u; let v2 := v*v;
  -((8 * (-1 + u2) * (-1 + v2) * (-8 + u2 + v2 + 6*u2*v2)) / (7 * (u2 - v2)^4))
/-- `f13` (`Imn.cpp:64-67`) -/
def f13 (u v : ℝ) : ℝ := let u2 := u*u; let v2 := v*v;
  (8 * (v2 + u2*(1 - 2*v2) + u^3*v*(-2 + 3*v2) + u*(v - 2*v^3))) / ((u - v)^4 * (u + v)^2)
/-- `f20` (`Imn.cpp:70-73`) -/
def f20 (u v : ℝ) : ℝ := let u2 := u*u; let v2 := v*v;
  (8 * (-1 - v2 + u2*(-1 + 3*v2)) * (-4 - 3*v2 + u2*(-3 + 10*v2))) / (7 * (u2 - v2)^4)
/-- `f21` (`Imn.cpp:76-79`) -/
def f21 (u v : ℝ) : ℝ := let u2 := u*u; let v2 := v*v;
  (8 * (-1 - v2 + u2*(-1 + 3*v2)) * (-8 + v2 + u2*(1 + 6*v2))) / (7 * (u2 - v2)^4)
/-- `f22` (`Imn.cpp:82-84`) -/
def f22 (u v : ℝ) : ℝ := (4 * (-1 + u*v) * (-8 + v*v + u*u*(1 + 6*v*v))) / (7 * (u - v)^4 * (u + v)^2)
/-- `f23` (`Imn.cpp:87-90`, `ImnOneLoop.cpp:58-61`) -/
def f23 (u v : ℝ) : ℝ := let u2 := u*u; let v2 := v*v;
  (48 * (-1 + u2)^2 * (-1 + v2)^2) / (u2 - v2)^4
/-- `f30` (`Imn.cpp:93-95`) -/
def f30 (u v : ℝ) : ℝ :=
  -((8 * (1 + v*v + u*u*(1 - 3*v*v) + u^3*v*(-3 + 5*v*v) + u*(v - 3*v^3))) / ((u - v)^4 * (u + v)^2))
/-- `f31` (`Imn.cpp:98-100`) -/
def f31 (u v : ℝ) : ℝ := -((8*u*(-1 + u*u)*v*(-1 + v*v)) / ((u - v)^4 * (u + v)^2))
/-- `f32` (`Imn.cpp:103-106`, `ImnOneLoop.cpp:64-67`) -/
def f32 (u v : ℝ) : ℝ := let u2 := u*u; let v2 := v*v;
  -((16 * (-1 + u2) * (-1 + v2) * (-1 - 3*v2 + 3*u2*(-1 + 5*v2))) / (u2 - v2)^4)
/-- `f33` (`Imn.cpp:109-111`, `ImnOneLoop.cpp:70-72`) -/
def f33 (u v : ℝ) : ℝ :=
  (16 * (3 + 2*v*v + 3*v^4 + u*u*(2 + 12*v*v - 30*v^4) + u^4*(3 - 30*v*v + 35*v^4))) / (u*u - v*v)^4

/-! ### Kernels of `Kmn` -/

/-- `F2` (`Kmn.cpp:24-27`) -/
def F2 (u v : ℝ) : ℝ := let u2 := u*u; let v2 := v*v;
  (8 + 6*v2 + u2*(6 - 20*v2)) / (7 * (u2 - v2)^2)
/-- `G2` (`Kmn.cpp:30-33`) -/
def G2 (u v : ℝ) : ℝ := let u2 := u*u; let v2 := v*v;
  -((2 * (-8 + u2 + v2 + 6*u2*v2)) / (7 * (u2 - v2)^2))
/-- `S2` (`Kmn.cpp:36-39`) -/
def S2 (u v : ℝ) : ℝ := let u2 := u*u; let v2 := v*v;
  (2 * (6 + u2*u2 - 6*v2 + v2*v2 + u2*(-6 + 4*v2))) / (3 * (u2 - v2)^2)
/-- `h03` (`Kmn.cpp:42-45`, `ImnOneLoop.cpp:46-49`) -/
def h03 (u v : ℝ) : ℝ := let u2 := u*u; let v2 := v*v;
  2 * (-1 + u2) * (-1 + v2) / (u2 - v2)^2
/-- `h04` (`Kmn.cpp:48-51`, `ImnOneLoop.cpp:52-55`) -/
def h04 (u v : ℝ) : ℝ := let u2 := u*u; let v2 := v*v;
  2 * (1 + v2 + u2*(1 - 3*v2)) / (u2 - v2)^2
/-- `k00` (`Kmn.cpp:54-56`) -/
def k00 (u v : ℝ) : ℝ := F2 u v
/-- `k00s` (`Kmn.cpp:59-61`) -/
def k00s (u v : ℝ) : ℝ := F2 u v * S2 u v
/-- `k01` (`Kmn.cpp:64-66`) -/
def k01 (_ _ : ℝ) : ℝ := 1
/-- `k01s` (`Kmn.cpp:69-71`) -/
def k01s (u v : ℝ) : ℝ := (S2 u v)^2
/-- `k02s` (`Kmn.cpp:73-75`) -/
def k02s (u v : ℝ) : ℝ := S2 u v
/-- `k10` (`Kmn.cpp:77-79`) -/
def k10 (u v : ℝ) : ℝ := G2 u v
/-- `k10s` (`Kmn.cpp:81-83`) -/
def k10s (u v : ℝ) : ℝ := G2 u v * S2 u v
/-- `k11` (`Kmn.cpp:85-87`) -/
def k11 (u v : ℝ) : ℝ := (2 - 2*u*v) / (u - v)^2
/-- `k11s` (`Kmn.cpp:89-91`) -/
def k11s (u v : ℝ) : ℝ := (2 - 2*u*v) / (u - v)^2 * S2 u v
/-- `k20_a` (`Kmn.cpp:93-95`) -/
def k20_a (u v : ℝ) : ℝ := h03 u v
/-- `k20s_a` (`Kmn.cpp:97-99`) -/
def k20s_a (u v : ℝ) : ℝ := S2 u v * h03 u v
/-- `k20_b` (`Kmn.cpp:101-103`) -/
def k20_b (u v : ℝ) : ℝ := h04 u v
/-- `k20s_b` (`Kmn.cpp:105-107`) -/
def k20s_b (u v : ℝ) : ℝ := S2 u v * h04 u v

/-! ### Kernels of `ImnOneLoop` (the others are the same functions as above) -/

/-- `h01` (`ImnOneLoop.cpp:36-38`) -/
def h01 (u v : ℝ) : ℝ := -((2 * (-1 + u*u) * (-1 + v*v)) / (u - v)^4)
/-- `h02` (`ImnOneLoop.cpp:41-43`) -/
def h02 (u v : ℝ) : ℝ := (6 - 8*u*v - 2*v*v + u*u*(-2 + 6*v*v)) / (u - v)^4

/-! ### Kernels of `Jmn`: the exact formula, its replacement at `r ≥ 60`, and the switch between them -/

/-- exact branch of `g00` (`Jmn.cpp:28`) -/
def g00x (r : ℝ) : ℝ := (1/3024) * (12/(r*r) - 158 + 100*r*r - 42*r^4 + 3/r^3*(r*r - 1)^3*(7*r*r + 2)*Real.log ((r + 1)/|r - 1|))
/-- other branch of `g00` (`Jmn.cpp:31-33`) -/
def g00a (r : ℝ) : ℝ := (-2/3024) * (70 + 125*r*r - 354*r^4 + 263*r^6 + 400*r^8 - 1008*r^10 + 5124*r^12) / (105*r^12)
/-- `g00` (`Jmn.cpp:26-35`) -/
def g00 (r : ℝ) : ℝ := if r < 60 then g00x r else g00a r
/-- exact branch of `g01` (`Jmn.cpp:40`) -/
def g01x (r : ℝ) : ℝ := (1/3024) * (24/(r*r) - 202 + 56*r*r - 30*r^4 + 3/r^3*(r*r - 1)^3*(5*r*r + 4)*Real.log ((r + 1)/|r - 1|))
/-- other branch of `g01` (`Jmn.cpp:43-45`) -/
def g01a (r : ℝ) : ℝ := (-2/3024) * (140 - 65*r*r - 168*r^4 + 229*r^6 + 656*r^8 - 3312*r^10 + 10500*r^12) / (105*r^12)
/-- `g01` (`Jmn.cpp:38-47`) -/
def g01 (r : ℝ) : ℝ := if r < 60 then g01x r else g01a r
/-- exact branch of `g10` (`Jmn.cpp:52`) -/
def g10x (r : ℝ) : ℝ := (1/1008) * (-38 + 48*r*r - 18*r^4 + 9/r*(r*r - 1)^3*Real.log ((r + 1)/|r - 1|))
/-- other branch of `g10` (`Jmn.cpp:55-56`) -/
def g10a (r : ℝ) : ℝ := (8/1008) * (-28 - 60*r*r - 156*r^4 - 572*r^6 - 5148*r^8 + 1001*r^10) / (5005*r^10)
/-- `g10` (`Jmn.cpp:50-58`) -/
def g10 (r : ℝ) : ℝ := if r < 60 then g10x r else g10a r
/-- exact branch of `g11` (`Jmn.cpp:63`) -/
def g11x (r : ℝ) : ℝ := (1/1008) * (12/(r*r) - 82 + 4*r*r - 6*r^4 + 3/(r*r*r)*(r*r - 1)^3*(r*r + 2)*Real.log ((r + 1)/|r - 1|))
/-- other branch of `g11` (`Jmn.cpp:66-68`) -/
def g11a (r : ℝ) : ℝ := (-2/1008) * (70 - 85*r*r + 6*r^4 + 65*r^6 + 304*r^8 - 1872*r^10 + 5292*r^12) / (105*r^12)
/-- `g11` (`Jmn.cpp:61-70`) -/
def g11 (r : ℝ) : ℝ := if r < 60 then g11x r else g11a r
/-- exact branch of `g02` (`Jmn.cpp:75`) -/
def g02x (r : ℝ) : ℝ := (1/224) * (2/(r*r)*(r*r + 1)*(3*r^4 - 14*r*r + 3) - 3/(r*r*r)*(r*r - 1)^4*Real.log ((r + 1)/|r - 1|))
/-- other branch of `g02` (`Jmn.cpp:78-80`) -/
def g02a (r : ℝ) : ℝ := (-2/224) * (35 - 95*r*r + 93*r^4 - 17*r^6 + 128*r^8 - 1152*r^10 + 2688*r^12) / (105*r^12)
/-- `g02` (`Jmn.cpp:73-82`) -/
def g02 (r : ℝ) : ℝ := if r < 60 then g02x r else g02a r
/-- exact branch of `g20` (`Jmn.cpp:87`) -/
def g20x (r : ℝ) : ℝ := (1/672) * (2/(r*r)*(9 - 109*r*r + 63*r^4 - 27*r^6) + 9/(r*r*r)*(r*r - 1)^3*(3*r*r + 1)*Real.log ((r + 1)/|r - 1|))
/-- other branch of `g20` (`Jmn.cpp:90-92`) -/
def g20a (r : ℝ) : ℝ := (-2/672) * (35 + 45*r*r - 147*r^4 + 115*r^6 + 192*r^8 - 576*r^10 + 2576*r^12) / (35*r^12)
/-- `g20` (`Jmn.cpp:85-94`) -/
def g20 (r : ℝ) : ℝ := if r < 60 then g20x r else g20a r

/-! ### The integrals -/

/-- `ImnIntegrand` with two spectra (`ImnOneLoop.cpp:75-80`); with the same spectrum twice it is the integrand of `Imn` and `Kmn` (`Imn.cpp:113-118`, `Kmn.cpp:110-116`). -/
def integrand2 (f : ℝ → ℝ → ℝ) (P Q : ℝ → ℝ) (k logu v : ℝ) : ℝ :=
  let u := Real.exp logu
  let q := (k/2)*(u - v)
  let r := (k/2)*(u + v)
  u * q * r * P q * Q r * f u v

/-- `QMAX` of `Imn`, `Jmn`, `Kmn` (`Imn.cpp:13`) -/
def QMAX : ℝ := 100000

/-- `ComputeIntegral` of `Imn` (`Imn.cpp:121-140`) -/
def imnCompute (N : Num) (f : ℝ → ℝ → ℝ) (sym : Bool) (P : ℝ → ℝ) (k : ℝ) : ℝ :=
  if k ≤ 0 then 0 else
  let umax := 2*QMAX/k
  let V := k / (8*Real.pi*Real.pi)
  let posv := V * N.int2 (integrand2 f P P k) (Real.log 1) (Real.log umax) 0 1
  if sym then 2*posv else
  let negv := V * N.int2 (integrand2 f P P k) (Real.log 1) (Real.log umax) (-1) 0
  posv + negv

/-- The kernel and the flag `symmetric` chosen by `Imn::Evaluate` (`Imn.cpp:151-189`) -/
def imnKernel (m n : ℕ) : Option ((ℝ → ℝ → ℝ) × Bool) :=
  match 4*m + n with
  | 0 => some (f00, true)
  | 1 => some (f01, true)
  | 2 => some (f02, true)
  | 3 => some (f03, false)
  | 4 => some (f10, false)
  | 5 => some (f11, true)
  | 6 => some (f12, true)
  | 7 => some (f13, false)
  | 8 => some (f20, true)
  | 9 => some (f21, true)
  | 10 => some (f22, false)
  | 11 => some (f23, true)
  | 12 => some (f30, false)
  | 13 => some (f31, false)
  | 14 => some (f32, true)
  | 15 => some (f33, true)
  | _ => none

/-- `Imn::Evaluate` (`Imn.cpp:151-189`) -/
def imn (N : Num) (P : ℝ → ℝ) (k : ℝ) (m n : ℕ) : Option ℝ := (imnKernel m n).map fun f => imnCompute N f.1 f.2 P k

/-- `JmnIntegrand` (`Jmn.cpp:96-100`) -/
def jmnIntegrand (g : ℝ → ℝ) (P : ℝ → ℝ) (k logq : ℝ) : ℝ :=
  let q := Real.exp logq
  let r := q/k
  let r := if r = 1 then 1 - 1/10^10 else r
  q * P q * g r

/-- `ComputeIntegral` of `Jmn` (`Jmn.cpp:103-110`) -/
def jmnCompute (N : Num) (g : ℝ → ℝ) (P : ℝ → ℝ) (k : ℝ) : ℝ :=
  if k ≤ 0 then 0 else
  let V := 1 / (2*Real.pi*Real.pi)
  V * N.int1 (jmnIntegrand g P k) (Real.log (1/100000)) (Real.log QMAX)

/-- The kernel chosen by `Jmn::Evaluate` (`Jmn.cpp:121-139`) -/
def jmnKernel (m n : ℕ) : Option (ℝ → ℝ) :=
  match 3*m + n with
  | 0 => some g00
  | 1 => some g01
  | 2 => some g02
  | 3 => some g10
  | 4 => some g11
  | 6 => some g20
  | _ => none

/-- `Jmn::Evaluate` (`Jmn.cpp:121-139`) -/
def jmn (N : Num) (P : ℝ → ℝ) (k : ℝ) (m n : ℕ) : Option ℝ := (jmnKernel m n).map fun g => jmnCompute N g P k

/-- `ComputeIntegral` of `Kmn` (`Kmn.cpp:119-138`) -/
def kmnCompute (N : Num) (f : ℝ → ℝ → ℝ) (sym : Bool) (P : ℝ → ℝ) (k : ℝ) : ℝ :=
  if k ≤ 0 then 0 else
  let umax := 2*QMAX/k
  let V := k / (4*Real.pi*Real.pi)
  if sym then V * N.int2 (integrand2 f P P k) (Real.log 1) (Real.log umax) 0 1
  else 1/2 * V * N.int2 (integrand2 f P P k) (Real.log 1) (Real.log umax) (-1) 1

/-- The kernel and the flag chosen by `Kmn::Evaluate` (`Kmn.cpp:149-184`) -/
def kmnKernel (m n : ℕ) (tidal : Bool) (part : ℕ) : Option ((ℝ → ℝ → ℝ) × Bool) :=
  match 2*(3*m + (if tidal then 1 else 0)) + n with
  | 0 => some (k00, true)
  | 1 => some (k01, true)
  | 2 => some (k00s, true)
  | 3 => some (k01s, true)
  | 4 => some (k02s, true)
  | 6 => some (k10, true)
  | 7 => some (k11, false)
  | 8 => some (k10s, true)
  | 9 => some (k11s, false)
  | 12 => if part = 0 then some (k20_a, true) else some (k20_b, true)
  | 14 => if part = 0 then some (k20s_a, true) else some (k20s_b, true)
  | _ => none

/-- `Kmn::Evaluate` (`Kmn.cpp:149-184`) -/
def kmn (N : Num) (P : ℝ → ℝ) (k : ℝ) (m n : ℕ) (tidal : Bool := false) (part : ℕ := 0) : Option ℝ :=
  (kmnKernel m n tidal part).map fun f => kmnCompute N f.1 f.2 P k

/-- `ComputeIntegral` of `ImnOneLoop` (`ImnOneLoop.cpp:83-93`; `QMAX = 1e1`, line 13) -/
def oneCompute (N : Num) (f : ℝ → ℝ → ℝ) (P Q : ℝ → ℝ) (k : ℝ) : ℝ :=
  if k ≤ 0 then 0 else
  let umax := 2*10/k
  let V := k / (8*Real.pi*Real.pi)
  V * N.int2 (integrand2 f P Q k) (Real.log 1) (Real.log umax) (-1) 1

/-- The kernel of `EvaluateLinear` and `EvaluateOneLoop` (`ImnOneLoop.cpp:97-115`, `188-206`): case 8 is `f23` -/
def oneKernel (m n : ℕ) : Option (ℝ → ℝ → ℝ) :=
  match 2*m + n with
  | 1 => some h01
  | 2 => some h02
  | 3 => some h03
  | 4 => some h04
  | 7 => some f23
  | 8 => some f23
  | 9 => some f33
  | _ => none

/-- The kernel of `EvaluateCross` (`ImnOneLoop.cpp:129-175`): case 8 is `f32` -/
def crossKernel (m n : ℕ) : Option (ℝ → ℝ → ℝ) :=
  match 2*m + n with
  | 1 => some h01
  | 2 => some h02
  | 3 => some h03
  | 4 => some h04
  | 7 => some f23
  | 8 => some f32
  | 9 => some f33
  | _ => none

/-- An `ImnOneLoop` object (`ImnOneLoop.cpp:16-28`): the linear spectrum, the one-loop spectra, and whether it was built from a single one -/
structure OneLoop where
  PL : ℝ → ℝ
  P1 : ℝ → ℝ
  P2 : ℝ → ℝ
  equal : Bool

/-- `ImnOneLoop(P_1)` (`ImnOneLoop.cpp:16-21`) -/
def OneLoop.mk1 (PL P1 : ℝ → ℝ) : OneLoop := ⟨PL, P1, P1, true⟩
/-- `ImnOneLoop(P_1, P_2)` (`ImnOneLoop.cpp:23-28`) -/
def OneLoop.mk2 (PL P1 P2 : ℝ → ℝ) : OneLoop := ⟨PL, P1, P2, false⟩

/-- `EvaluateLinear` (`ImnOneLoop.cpp:96-116`) -/
def OneLoop.linear (N : Num) (o : OneLoop) (k : ℝ) (m n : ℕ) : Option ℝ := (oneKernel m n).map fun f => oneCompute N f o.PL o.PL k
/-- `EvaluateCross` (`ImnOneLoop.cpp:127-176`) -/
def OneLoop.cross (N : Num) (o : OneLoop) (k : ℝ) (m n : ℕ) : Option ℝ := (crossKernel m n).map fun f =>
  let part1 := oneCompute N f o.PL o.P2 k
  if o.equal then 2*part1 else part1 + oneCompute N f o.P1 o.PL k
/-- `EvaluateOneLoop` (`ImnOneLoop.cpp:187-207`) -/
def OneLoop.oneLoop (N : Num) (o : OneLoop) (k : ℝ) (m n : ℕ) : Option ℝ := (oneKernel m n).map fun f => oneCompute N f o.P1 o.P2 k

/-! ### One-loop spectra -/

/-- `OneLoopPS::Evaluate` (`OneLoopPS.cpp:28-33`) of the spline of a table of values -/
def oneLoopEval (N : Num) (table : ℝ → ℝ) (k : ℝ) : ℝ := if k < 1/100000 ∨ k > 10 then 0 else N.cspl table k

/-- The values of `OneLoopPdd::InitializeSpline`, `OneLoopPdv::InitializeSpline` and `OneLoopPvv::InitializeSpline` (`OneLoopPS.cpp:56-72`, `86-102`, `117-133`):
`(m, n)` is (0,0), (0,1), (1,1). -/
def oneLoopTable (N : Num) (P : ℝ → ℝ) (m n : ℕ) (k : ℝ) : ℝ :=
  2 * (imn N P k m n).getD 0 + 6*k*k * (jmn N P k m n).getD 0 * P k

/-- `OneLoopPdd(P)(k)` (`OneLoopPS.cpp:44-47`) -/
def oneLoopPdd (N : Num) (P : ℝ → ℝ) : ℝ → ℝ := oneLoopEval N (oneLoopTable N P 0 0)
/-- `OneLoopPdv(P)(k)` (`OneLoopPS.cpp:74-77`) -/
def oneLoopPdv (N : Num) (P : ℝ → ℝ) : ℝ → ℝ := oneLoopEval N (oneLoopTable N P 0 1)
/-- `OneLoopPvv(P)(k)` (`OneLoopPS.cpp:104-107`) -/
def oneLoopPvv (N : Num) (P : ℝ → ℝ) : ℝ → ℝ := oneLoopEval N (oneLoopTable N P 1 1)

/-- The values of `OneLoopP22Bar::InitializeSpline` (`OneLoopPS.cpp:164-185`) -/
def p22BarTable (N : Num) (P : ℝ → ℝ) (k : ℝ) : ℝ :=
  (imn N P k 2 3).getD 0 + 2/3 * (imn N P k 3 2).getD 0 + 1/5 * (imn N P k 3 3).getD 0
/-- `OneLoopP22Bar::EvaluateFull` (`OneLoopPS.cpp:148-153`) -/
def p22Bar (N : Num) (P : ℝ → ℝ) (k : ℝ) : ℝ := if k > 10 then 0 else oneLoopEval N (p22BarTable N P) k
/-- `OneLoopP22Bar::VelocityKurtosis` (`OneLoopPS.cpp:187-193`) -/
def velocityKurtosis (N : Num) (P : ℝ → ℝ) : ℝ :=
  1/4/(2*Real.pi*Real.pi) * N.int1 (fun q => p22Bar N P q / (q*q)) (1/100000) 10

/-! ### Velocity dispersion and variance (`PowerSpectrum.cpp`) -/

/-- `VelocityDispersion()` (`PowerSpectrum.cpp:56-58`) -/
def velocityDispersion (N : Num) (P : ℝ → ℝ) : ℝ := 1/(6*Real.pi*Real.pi) * N.int1 P (1/100000) 100
/-- `VelocityDispersion(k, factor)` (`PowerSpectrum.cpp:60-62`) -/
def velocityDispersionK (N : Num) (P : ℝ → ℝ) (k factor : ℝ) : ℝ := 1/(6*Real.pi*Real.pi) * N.int1 P (1/100000) (factor*k)
/-- The top-hat window `W` (`PowerSpectrum.cpp:29-34`) -/
def tophat (x : ℝ) : ℝ := if x < 1/100000 then 1 - (1/30)*x*x else 3/x^3 * (Real.sin x - x*Real.cos x)
/-- `Sigma(R)` (`PowerSpectrum.cpp:36-42`) -/
def sigmaR (N : Num) (P : ℝ → ℝ) (R : ℝ) : ℝ :=
  Real.sqrt (N.int1 (fun k => k*k/(2*Real.pi*Real.pi) * P k * (tophat (k*R))^2) (1/100000) 100)

end

end Verif.PT
