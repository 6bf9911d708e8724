/-
C64: finger-of-god kernels.
-/
import Verif.Model.Fog
import Mathlib.Analysis.SpecialFunctions.ExpDeriv
import Mathlib.Analysis.Calculus.Deriv.Inv
import Mathlib.Analysis.Calculus.Deriv.Pow
import Mathlib.Tactic.FieldSimp
import Mathlib.Tactic.Linarith
import Mathlib.Tactic.Positivity
import Mathlib.Tactic.Ring

namespace Verif.Rsd

/-- The reported derivative of a kernel is its derivative. -/
theorem Fog.hasDerivAt (g : Fog) (x : ℝ) : HasDerivAt g.kernel (g.derivative x) x := by
  have hq : HasDerivAt (fun x : ℝ => 1 + 0.5 * x ^ 2) (x) x := by
    have := ((hasDerivAt_pow 2 x).const_mul (0.5 : ℝ)).const_add 1
    exact this.congr_deriv (by norm_num; ring)
  have hpos : (1 + 0.5 * x ^ 2 : ℝ) ≠ 0 := by positivity
  cases g with
  | modifiedLorentzian =>
    have h := (hq.pow 2).fun_inv (pow_ne_zero 2 hpos)
    refine (h.congr_deriv ?_).congr_of_eventuallyEq ?_
    · simp only [Fog.derivative, Pi.pow_apply]; field_simp; norm_num; ring
    · refine Filter.Eventually.of_forall fun y => ?_
      simp [Fog.kernel]
  | lorentzian =>
    have h := hq.fun_inv hpos
    refine (h.congr_deriv ?_).congr_of_eventuallyEq ?_
    · simp only [Fog.derivative]
    · refine Filter.Eventually.of_forall fun y => ?_
      simp [Fog.kernel]
  | gaussian =>
    have h1 : HasDerivAt (fun x : ℝ => -0.5 * x ^ 2) (-x) x := by
      have := (hasDerivAt_pow 2 x).const_mul (-0.5 : ℝ)
      exact this.congr_deriv (by norm_num; ring)
    have h := h1.exp
    refine (h.congr_deriv ?_)
    simp only [Fog.derivative]; ring

theorem Fog.kernel_pos (g : Fog) (x : ℝ) : 0 < g.kernel x := by
  cases g
  · simp only [Fog.kernel]; positivity
  · simp only [Fog.kernel]; positivity
  · exact Real.exp_pos _

theorem Fog.kernel_mono (g : Fog) {x y : ℝ} (h : x ^ 2 ≤ y ^ 2) : g.kernel y ≤ g.kernel x := by
  cases g with
  | modifiedLorentzian =>
    simp only [Fog.kernel]
    apply one_div_le_one_div_of_le (by positivity)
    have : (1 + 0.5 * x ^ 2 : ℝ) ≤ 1 + 0.5 * y ^ 2 := by linarith
    gcongr
  | lorentzian =>
    simp only [Fog.kernel]
    apply one_div_le_one_div_of_le (by positivity)
    linarith
  | gaussian => exact Real.exp_le_exp.2 (by linarith)

/-- **C64.** Every kernel, as a function of `k`, `mu`, `sigma`: it is 1 where `k mu sigma = 0`, always in `(0, 1]`, unchanged by the
sign of any argument, and does not increase when `|k mu sigma|` grows. -/
theorem C64_damping (g : Fog) (k mu sigma : ℝ) :
    (k * mu * sigma = 0 → g.G k mu sigma = 1) ∧ 0 < g.G k mu sigma ∧ g.G k mu sigma ≤ 1 ∧
    g.G (-k) mu sigma = g.G k mu sigma ∧ g.G k (-mu) sigma = g.G k mu sigma ∧ g.G k mu (-sigma) = g.G k mu sigma ∧
    ∀ k2 mu2 sigma2 : ℝ, |k * mu * sigma| ≤ |k2 * mu2 * sigma2| → g.G k2 mu2 sigma2 ≤ g.G k mu sigma := by
  have h0 : g.kernel 0 = 1 := by cases g <;> simp [Fog.kernel]
  have heven : ∀ x, g.kernel (-x) = g.kernel x := by intro x; cases g <;> simp [Fog.kernel]
  refine ⟨?_, g.kernel_pos _, ?_, ?_, ?_, ?_, ?_⟩
  · intro h; rw [Fog.G, h, h0]
  · rw [← h0]; exact g.kernel_mono (by nlinarith [sq_nonneg (k * mu * sigma)])
  · rw [Fog.G, Fog.G, ← heven]; congr 1; ring
  · rw [Fog.G, Fog.G, ← heven]; congr 1; ring
  · rw [Fog.G, Fog.G, ← heven]; congr 1; ring
  · intro k2 mu2 s2 h
    exact g.kernel_mono (sq_le_sq.2 h)

theorem Fog.dk_correct (g : Fog) (k mu sigma : ℝ) : HasDerivAt (fun x => g.G x mu sigma) (g.dk k mu sigma) k := by
  have h1 : HasDerivAt (fun x : ℝ => x * mu * sigma) (mu * sigma) k := by
    simpa using ((hasDerivAt_id k).mul_const mu).mul_const sigma
  have := (g.hasDerivAt (k * mu * sigma)).comp k h1
  exact this.congr_deriv (by simp only [Fog.dk]; ring)

theorem Fog.dmu_correct (g : Fog) (k mu sigma : ℝ) : HasDerivAt (fun x => g.G k x sigma) (g.dmu k mu sigma) mu := by
  have h1 : HasDerivAt (fun x : ℝ => k * x * sigma) (k * sigma) mu := by
    simpa using ((hasDerivAt_id mu).const_mul k).mul_const sigma
  have := (g.hasDerivAt (k * mu * sigma)).comp mu h1
  exact this.congr_deriv (by simp only [Fog.dmu]; ring)

theorem Fog.dsigma_correct (g : Fog) (k mu sigma : ℝ) : HasDerivAt (fun x => g.G k mu x) (g.dsigma k mu sigma) sigma := by
  have h1 : HasDerivAt (fun x : ℝ => k * mu * x) (k * mu) sigma := by
    simpa using (hasDerivAt_id sigma).const_mul (k * mu)
  have := (g.hasDerivAt (k * mu * sigma)).comp sigma h1
  exact this.congr_deriv (by simp only [Fog.dsigma]; ring)

/-- **C64, derivatives.** The three reported derivatives are the partial derivatives of the kernel, everywhere. -/
theorem C64_derivatives (g : Fog) (k mu sigma : ℝ) :
    HasDerivAt (fun x => g.G x mu sigma) (g.dk k mu sigma) k ∧
    HasDerivAt (fun x => g.G k x sigma) (g.dmu k mu sigma) mu ∧
    HasDerivAt (fun x => g.G k mu x) (g.dsigma k mu sigma) sigma :=
  ⟨g.dk_correct k mu sigma, g.dmu_correct k mu sigma, g.dsigma_correct k mu sigma⟩

/-- The kernels do damp: at `k mu sigma = 1` all are below 1. -/
example : ∀ g : Fog, g.G 1 1 1 < 1 := by
  intro g
  cases g
  · simp only [Fog.G, Fog.kernel]; norm_num
  · simp only [Fog.G, Fog.kernel]; norm_num
  · simp only [Fog.G, Fog.kernel]; rw [Real.exp_lt_one_iff]; norm_num

end Verif.Rsd
