/-
The integrals of the linear power spectrum behind the Zel'dovich spectra (`pyRSD/_gcl/cpp/PowerSpectrum.cpp`).

Simplifications.  Real arithmetic; the adaptive quadratures are exact integrals over the range of the code.
-/
import Verif.Model.Xi
import Verif.Model.Hzpt

namespace Verif.Hzpt

open Verif.Xi

noncomputable section

/-- the lower limit of the integrals (`PowerSpectrum.cpp:55`, `99`, `117`) -/
def qlo : ℝ := 1 / 10 ^ 5

/-- the upper limit -/
def qhi : ℝ := 10 ^ 2

/-- `VelocityDispersion()` (`PowerSpectrum.cpp:51-56`) -/
def velocityDispersion (P : ℝ → ℝ) : ℝ := 1 / (6 * Real.pi ^ 2) * ∫ q in qlo..qhi, P q

/-- `X_integrand` (`PowerSpectrum.cpp:94-96`), without the power -/
def xKernel (x : ℝ) : ℝ := -2 * besselJ1 x / x

/-- `X_Zel` (`PowerSpectrum.cpp:98-100`) -/
def xZel (P : ℝ → ℝ) (r : ℝ) : ℝ := 1 / (2 * Real.pi ^ 2) * ∫ q in qlo..qhi, P q * xKernel (r * q)

/-- `Y_integrand` (`PowerSpectrum.cpp:111-114`), without the power -/
def yKernel (x : ℝ) : ℝ := -2 * besselJ0 x + 6 * besselJ1 x / x

/-- `Y_Zel` (`PowerSpectrum.cpp:116-118`) -/
def yZel (P : ℝ → ℝ) (r : ℝ) : ℝ := 1 / (2 * Real.pi ^ 2) * ∫ q in qlo..qhi, P q * yKernel (r * q)

/-- the object has the integrals of the linear power spectrum at z=0 (`ZeldovichPS.cpp:21-30`) -/
structure Env.Exact (E : Env) : Prop where
  disp : E.disp0 = velocityDispersion E.plin0
  x : ∀ i, E.x0 i = xZel E.plin0 (E.r i)
  y : ∀ i, E.y0 i = yZel E.plin0 (E.r i)

end
end Verif.Hzpt
