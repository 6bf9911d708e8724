/-
Vocabulary for C133: growth of linear fluctuations, and the bias of tracers in universes with local non-Gaussianity.
-/
import Mathlib.Analysis.Calculus.Deriv.Basic
import Mathlib.Analysis.Real.Sqrt

namespace Verif.Png.Spec

noncomputable section

/-- square of the expansion rate at the scale factor `a`, relative to today -/
def rate2 (Om Ok Ode a : ℝ) : ℝ := Om / a ^ 3 + Ok / a ^ 2 + Ode

/-- `D`, with derivative `D'`, solves the equation of linear growth at the scale factor `a`: `D'' + (3/a + E'/E) D' = 3/2 Om / (a⁵ E²) D` -/
def Grows (Om Ok Ode : ℝ) (D D' : ℝ → ℝ) (a : ℝ) : Prop :=
  ∃ dE2 ddD : ℝ, HasDerivAt D (D' a) a ∧ HasDerivAt D' ddD a ∧ HasDerivAt (rate2 Om Ok Ode) dE2 a ∧
    ddD + (3 / a + dE2 / (2 * rate2 Om Ok Ode a)) * D' a = 3 / 2 * Om / (a ^ 5 * rate2 Om Ok Ode a) * D a

/-- the universe expands at all times up to the scale factor `A` -/
def Expands (Om Ok Ode A : ℝ) : Prop := 0 < Om ∧ ∀ a, 0 < a → a ≤ A → 0 < rate2 Om Ok Ode a

/-- the factor between the primordial potential and the density today at the wavenumber `k` (in h/Mpc), for the transfer function `T` and the growth `D`, which is the scale factor as long as matter
dominates -/
def poisson (Om T D k : ℝ) : ℝ := 2 * k ^ 2 * T * D / (3 * Om) * 2997.92458 ^ 2

end

end Verif.Png.Spec
