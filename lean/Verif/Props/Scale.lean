/-
C21: scaling of the fit parameters.
-/
import Verif.Model.Scale
import Mathlib.Analysis.Calculus.FDeriv.Pi
import Mathlib.Analysis.Calculus.FDeriv.Comp
import Mathlib.Analysis.Calculus.FDeriv.Add
import Mathlib.Analysis.Calculus.FDeriv.Mul
import Mathlib.Analysis.Calculus.Deriv.Basic
import Mathlib.Analysis.Calculus.Deriv.Comp
import Mathlib.Analysis.Calculus.Deriv.Add
import Mathlib.Analysis.Calculus.Deriv.Mul
import Mathlib.Analysis.Calculus.Deriv.Prod
import Mathlib.Tactic.FieldSimp
import Mathlib.Tactic.NormNum

namespace Verif.Scale

noncomputable section

variable {n : ℕ}

/-- Proper priors: a non-empty interval, a positive standard deviation. -/
def PriorOf.Proper : PriorOf → Prop
  | .uniform lower upper => lower < upper
  | .normal _ sigma => 0 < sigma

theorem PriorOf.Proper.scale_pos {p : PriorOf} (h : p.Proper) : 0 < p.scale := by
  cases p with
  | uniform l u => simp only [PriorOf.Proper] at h; simp only [PriorOf.scale]; nlinarith
  | normal m s => simp only [PriorOf.Proper] at h; simp only [PriorOf.scale]; linarith

/-- **C21, inverse.** The two maps undo each other. -/
theorem C21_inverse (ps : Fin n → PriorOf) (hp : ∀ i, (ps i).Proper) (theta : Fin n → ℝ) :
    inverseScale ps (scale ps theta) = theta ∧ scale ps (inverseScale ps theta) = theta := by
  constructor <;> funext i <;> have := (hp i).scale_pos.ne' <;> simp only [inverseScale, scale] <;> field_simp <;> ring

/-- **C21, centre and width.** Scaled coordinates: the centre of the prior is 0; the ends of a uniform prior are `±1`; two
standard deviations of a normal prior are `±1`. -/
theorem C21_units (ps : Fin n → PriorOf) (hp : ∀ i, (ps i).Proper) (i : Fin n) (theta : Fin n → ℝ) :
    (∀ l u, ps i = .uniform l u → (theta i = l → scale ps theta i = -1) ∧ (theta i = u → scale ps theta i = 1) ∧
      (theta i = (l + u) / 2 → scale ps theta i = 0)) ∧
    (∀ m s, ps i = .normal m s → (theta i = m - 2 * s → scale ps theta i = -1) ∧
      (theta i = m + 2 * s → scale ps theta i = 1) ∧ (theta i = m → scale ps theta i = 0)) := by
  have hi := hp i
  constructor
  · intro l u h
    rw [h] at hi
    have hw : u - l ≠ 0 := sub_ne_zero.2 (ne_of_gt hi)
    have hs : (0.5 : ℝ) * (u - l) ≠ 0 := by positivity
    refine ⟨fun e => ?_, fun e => ?_, fun e => ?_⟩ <;> simp only [scale, h, PriorOf.loc, PriorOf.scale, e] <;>
      rw [div_eq_iff hs] <;> ring
  · intro m s h
    rw [h] at hi
    have hs : (2 : ℝ) * s ≠ 0 := by have : 0 < s := hi; positivity
    refine ⟨fun e => ?_, fun e => ?_, fun e => ?_⟩ <;> simp only [scale, h, PriorOf.loc, PriorOf.scale, e] <;>
      rw [div_eq_iff hs] <;> ring

/-- **C21, gradient.** For every objective that is differentiable at the unscaled point, with gradient `grad` there: the
partial derivatives of the objective as a function of the *scaled* parameters are `scale_gradient(grad)`. -/
theorem C21_gradient (ps : Fin n → PriorOf) (objective : (Fin n → ℝ) → ℝ) (x : Fin n → ℝ) (L : (Fin n → ℝ) →L[ℝ] ℝ)
    (hL : HasFDerivAt objective L (inverseScale ps x)) (grad : Fin n → ℝ) (hgrad : ∀ i, grad i = L (Pi.single i 1))
    (i : Fin n) :
    HasDerivAt (fun t => objective (inverseScale ps (Function.update x i t))) (scaleGradient ps grad i) (x i) := by
  have hline : HasDerivAt (fun t => inverseScale ps (Function.update x i t)) ((ps i).scale • Pi.single i (1 : ℝ)) (x i) := by
    rw [hasDerivAt_pi]
    intro j
    by_cases hj : j = i
    · subst hj
      simp only [inverseScale, Function.update_self, Pi.smul_apply, Pi.single_eq_same, smul_eq_mul, mul_one]
      simpa using ((hasDerivAt_id (x j)).mul_const (ps j).scale).add_const (ps j).loc
    · simp only [inverseScale, Function.update_of_ne hj, Pi.smul_apply, Pi.single_eq_of_ne hj, smul_zero]
      exact hasDerivAt_const _ _
  have hx : inverseScale ps (Function.update x i (x i)) = inverseScale ps x := by rw [Function.update_eq_self]
  rw [← hx] at hL
  have := hL.comp_hasDerivAt (x i) hline
  refine this.congr_deriv ?_
  rw [map_smul, scaleGradient, hgrad, smul_eq_mul, mul_comm]

/-- a non-trivial instance of the hypotheses -/
example : (PriorOf.uniform 1 3).Proper ∧ (PriorOf.normal 0 2).Proper := by
  constructor <;> norm_num [PriorOf.Proper]

end

end Verif.Scale
