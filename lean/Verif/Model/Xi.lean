/-
Correlation functions: `pyRSD/_gcl/cpp/SpecialFunctions.cpp`, `CorrelationFunction.cpp`, `Kaiser.cpp`.

Real numbers in place of `double`; an array of length `N` is a function `ℕ → ℝ`.  Of `ComputeXiLM` only the branches that integrate by Simpson's rule or the trapezoidal rule are modelled, not FFTLog (`CorrelationFunction.cpp:22-83`).
-/
import Verif.Model.Quad
import Mathlib.Analysis.SpecialFunctions.Trigonometric.Basic
import Mathlib.MeasureTheory.Integral.IntervalIntegral.Basic

namespace Verif.Xi

noncomputable section

open Classical in
/-- `SphericalBesselJ0` (`SpecialFunctions.cpp:12-17`) -/
def besselJ0 (x : ℝ) : ℝ := if |x| < 1/10^4 then 1 - x^2/6 + x^4/120 - x^6/5040 else Real.sin x/x

open Classical in
/-- `SphericalBesselJ1` (`SpecialFunctions.cpp:19-24`) -/
def besselJ1 (x : ℝ) : ℝ := if |x| < 1/10^4 then x/3 - x^3/30 + x^5/840 - x^7/45360 else (Real.sin x - x*Real.cos x)/x^2

open Classical in
/-- `SphericalBesselJ2` (`SpecialFunctions.cpp:26-31`) -/
def besselJ2 (x : ℝ) : ℝ := if |x| < 1/10^4 then x^2/15 - x^4/210 + x^6/7560 else ((3 - x^2)*Real.sin x - 3*x*Real.cos x)/x^3

open Classical in
/-- `SphericalBesselJ3` (`SpecialFunctions.cpp:33-38`) -/
def besselJ3 (x : ℝ) : ℝ := if |x| < 1/10^4 then x^3/105 - x^5/1890 + x^7/83160 else ((15 - 6*x^2)*Real.sin x - (15*x - x^3)*Real.cos x)/x^4

open Classical in
/-- `SphericalBesselJ4` (`SpecialFunctions.cpp:40-45`) -/
def besselJ4 (x : ℝ) : ℝ :=
  if |x| < 1/10^4 then x^4/945 - x^6/20790 else 5*(2*x^2 - 21)*Real.cos x/x^4 + (x^4 - 45*x^2 + 105)*Real.sin x/x^5

open Classical in
/-- `SphericalBesselJ6` (`SpecialFunctions.cpp:47-52`) -/
def besselJ6 (x : ℝ) : ℝ :=
  if |x| < 1/10^4 then x^6/135135 - x^8/4054050
  else ((-x^6 + 210*x^4 - 4725*x^2 + 10395)*Real.sin x - (21*x*(x^4 - 60*x^2 + 495))*Real.cos x)/x^7

open Classical in
/-- `SphericalBesselJ8` (`SpecialFunctions.cpp:54-59`) -/
def besselJ8 (x : ℝ) : ℝ :=
  if |x| < 1/10^4 then x^8/34459425 - x^10/1309458150
  else ((x^8 - 630*x^6 + 51975*x^4 - 945945*x^2 + 2027025)*Real.sin x + (9*x*(4*x^6 - 770*x^4 + 30030*x^2 - 225225))*Real.cos x)/x^9

/-- the function of the order asked for (`CorrelationFunction.cpp:92-104`); `none` is `error(...)` -/
def bessel : ℕ → Option (ℝ → ℝ)
  | 0 => some besselJ0
  | 1 => some besselJ1
  | 2 => some besselJ2
  | 3 => some besselJ3
  | 4 => some besselJ4
  | 6 => some besselJ6
  | 8 => some besselJ8
  | _ => none

/-- `IntegrationMethods` (`CorrelationFunction.h:8`), without FFTLog -/
inductive Method where
  | simps
  | trapz

/-- the rule (`CorrelationFunction.cpp:117-121`) -/
def Method.integrate (M : Method) (N : ℕ) (x y : ℕ → ℝ) : ℝ :=
  match M with
  | .simps => Quad.simps N x y
  | .trapz => Quad.trapz N x y

/-- one element of `ComputeXiLM` (`CorrelationFunction.cpp:85-126`) -/
def xiLM (M : Method) (l m N : ℕ) (k pk : ℕ → ℝ) (r smoothing : ℝ) : Option ℝ :=
  (bessel l).map fun sj => M.integrate N k fun j => Real.exp (-(k j*smoothing)^2) * pk j * (k j)^m/(2*Real.pi*Real.pi) * sj (k j*r)

/-- one element of `pk_to_xi` (`CorrelationFunction.cpp:129-133`) -/
def pkToXi (M : Method) (ell N : ℕ) (k pk : ℕ → ℝ) (r smoothing : ℝ) : Option ℝ := (xiLM M ell 2 N k pk r smoothing).map fun x => (-1)^(ell/2) * x

/-- one element of `xi_to_pk` (`CorrelationFunction.cpp:135-140`) -/
def xiToPk (M : Method) (ell N : ℕ) (r xi : ℕ → ℝ) (k smoothing : ℝ) : Option ℝ :=
  (xiLM M ell 2 N r xi k smoothing).map fun x => (-1)^(ell/2) * (8*Real.pi*Real.pi*Real.pi) * x

/-- `CorrelationFunction::Evaluate` (`CorrelationFunction.cpp:149-155`), with the exact integral for the quadrature -/
def correlation (P : ℝ → ℝ) (kmin kmax r : ℝ) : ℝ := 1/(2*Real.pi*Real.pi*r) * ∫ k in kmin..kmax, k*Real.sin (k*r)*P k

/-- `Kaiser` (`Kaiser.h:32-36`) -/
structure Kaiser where
  P : ℝ → ℝ
  f : ℝ
  b1 : ℝ

/-- `Kaiser::P_s` (`Kaiser.cpp:13-15`) -/
def Kaiser.Ps (K : Kaiser) (k mu : ℝ) : ℝ := (1 + K.f*mu*mu)^2 * K.P k

/-- `Kaiser::PowerPolePrefactor` (`Kaiser.cpp:17-30`) -/
def Kaiser.prefactor (K : Kaiser) (ell : ℕ) : ℝ :=
  let beta := K.f/K.b1
  let p := if ell = 0 then 1 + 2/3*beta + 1/5*beta^2 else if ell = 2 then 4/3*beta + 4/7*beta^2 else if ell = 4 then 8/35*beta^2 else 0
  p*K.b1^2

/-- `Kaiser::P_ell` (`Kaiser.cpp:32-38`) -/
def Kaiser.Pell (K : Kaiser) (ell : ℕ) (k : ℝ) : ℝ := K.prefactor ell * K.P k

end
end Verif.Xi
