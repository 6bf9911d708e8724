/-
Model of the growth function and of the scale-dependent bias of the quasar spectrum (`pyRSD/rsd/power/qso/power_qso.py:36-47`, `175-223`).

Numbers are exact reals; the adaptive integral of scipy is the integral.  The functions of wavenumber are the values from which their splines are made (on `k_interp`,
line 55); between these the spline is not modelled (C108 is about such splines).
-/
import Mathlib.MeasureTheory.Integral.IntervalIntegral.Basic
import Mathlib.Analysis.SpecialFunctions.Pow.Real

namespace Verif.Png

noncomputable section

/-- the densities of matter, dark energy and curvature -/
structure Density where
  Om0 : ℝ
  Ode0 : ℝ
  Ok0 : ℝ

/-- `efunc` (`power_qso.py:41`) -/
def efunc (c : Density) (a : ℝ) : ℝ := Real.sqrt (a ^ (-3 : ℤ) * c.Om0 + c.Ok0 * a ^ (-2 : ℤ) + c.Ode0)

/-- `integrand` (`power_qso.py:44`) -/
def integrand (c : Density) (a : ℝ) : ℝ := 1 / (a * efunc c a) ^ 3

/-- `growth_function` (`power_qso.py:36-47`) for one redshift -/
def growth (c : Density) (z : ℝ) : ℝ := efunc c (1 / (1 + z)) * ∫ a in (0 : ℝ)..1 / (1 + z), integrand c a

/-- `g_ratio` (`power_qso.py:200-201`) -/
def gRatio (c : Density) : ℝ := growth c 0 / ((1 + 100) * growth c 100)

/-- largest element of a list; numpy raises for an empty one -/
def largest (l : List ℝ) : ℝ := l.tail.foldl max (l.headD 0)

/-- the transfer function (`power_qso.py:192-193`); `P` is the linear spectrum -/
def transfer (P : ℝ → ℝ) (ns : ℝ) (ks : List ℝ) : List ℝ :=
  let t := ks.map fun k => (P k / k ^ ns) ^ (0.5 : ℝ)
  t.map fun x => x / largest t

/-- speed of light in km/s (`power_qso.py:196`, `pyRSD/_gcl/include/Common.h`) -/
def cKms : ℝ := 29979245800 / 100000

/-- `alpha_png` (`power_qso.py:184-203`) on the wavenumbers `ks`; `D` is the growth at the redshift of the model, relative to today -/
def alphaPng (c : Density) (P : ℝ → ℝ) (ns D : ℝ) (ks : List ℝ) : List ℝ :=
  List.zipWith (fun k T => 2 * k ^ 2 * T * D / (3 * c.Om0) * (cKms / 100) ^ 2 * gRatio c) ks (transfer P ns ks)

/-- `delta_crit` (`power_qso.py:177-182`) -/
def deltaCrit : ℝ := 1.686

open Classical in
/-- `delta_bias` (`power_qso.py:205-213`) -/
def deltaBias (b1 p fnl : ℝ) (ks alpha : List ℝ) : List ℝ :=
  if fnl = 0 then ks.map fun k => k * 0 else alpha.map fun al => 2 * (b1 - p) * fnl * deltaCrit / al

/-- `btot` (`power_qso.py:215-221`) -/
def btot (b1 : ℝ) (db : List ℝ) : List ℝ := db.map fun d => b1 + d

end

end Verif.Png
