/-
Lemmas for the derivatives of the redshift-space models.
-/
import Verif.Model.RsdBase
import Verif.Props.AP
import Verif.Props.Fog
import Mathlib.Analysis.SpecialFunctions.Sqrt
import Mathlib.Analysis.Calculus.Deriv.Mul
import Mathlib.Analysis.Calculus.Deriv.Add

namespace Verif.Rsd

open Verif.AP

/-- A function of `(k, mu)` whose reported partial derivatives are right along every curve through `(k0, mu0)`. -/
def GradAt (core : ℝ → ℝ → ℝ) (dk dmu k0 mu0 : ℝ) : Prop :=
  ∀ (u v : ℝ → ℝ) (u' v' x : ℝ), u x = k0 → v x = mu0 → HasDerivAt u u' x → HasDerivAt v v' x →
    HasDerivAt (fun y => core (u y) (v y)) (dk * u' + dmu * v') x

theorem GradAt.dk {core dk dmu k0 mu0} (h : GradAt core dk dmu k0 mu0) : HasDerivAt (fun k => core k mu0) dk k0 := by
  have := h (fun y => y) (fun _ => mu0) 1 0 k0 rfl rfl (hasDerivAt_id _) (hasDerivAt_const _ _)
  exact this.congr_deriv (by ring)

theorem GradAt.dmu {core dk dmu k0 mu0} (h : GradAt core dk dmu k0 mu0) : HasDerivAt (fun mu => core k0 mu) dmu mu0 := by
  have := h (fun _ => k0) (fun y => y) 0 1 mu0 rfl rfl (hasDerivAt_const _ _) (hasDerivAt_id _)
  exact this.congr_deriv (by ring)

theorem GradAt.const (c k0 mu0 : ℝ) : GradAt (fun _ _ => c) 0 0 k0 mu0 := by
  intro u v u' v' x _ _ _ _
  exact (hasDerivAt_const x c).congr_deriv (by ring)

theorem GradAt.add {c1 c2 : ℝ → ℝ → ℝ} {a1 b1 a2 b2 k0 mu0 : ℝ} (h1 : GradAt c1 a1 b1 k0 mu0) (h2 : GradAt c2 a2 b2 k0 mu0) :
    GradAt (fun k mu => c1 k mu + c2 k mu) (a1 + a2) (b1 + b2) k0 mu0 := by
  intro u v u' v' x e1 e2 hu hv
  exact ((h1 u v u' v' x e1 e2 hu hv).add (h2 u v u' v' x e1 e2 hu hv)).congr_deriv (by ring)

theorem GradAt.mul {c1 c2 : ℝ → ℝ → ℝ} {a1 b1 a2 b2 k0 mu0 : ℝ} (h1 : GradAt c1 a1 b1 k0 mu0) (h2 : GradAt c2 a2 b2 k0 mu0) :
    GradAt (fun k mu => c1 k mu * c2 k mu) (a1 * c2 k0 mu0 + c1 k0 mu0 * a2) (b1 * c2 k0 mu0 + c1 k0 mu0 * b2) k0 mu0 := by
  intro u v u' v' x e1 e2 hu hv
  have := (h1 u v u' v' x e1 e2 hu hv).mul (h2 u v u' v' x e1 e2 hu hv)
  refine this.congr_deriv ?_
  simp only [e1, e2]; ring

theorem GradAt.congr {c : ℝ → ℝ → ℝ} {a b a2 b2 k0 mu0 : ℝ} (h : GradAt c a b k0 mu0) (ha : a = a2) (hb : b = b2) :
    GradAt c a2 b2 k0 mu0 := ha ▸ hb ▸ h

theorem GradAt.const_mul {c : ℝ → ℝ → ℝ} {a b k0 mu0 : ℝ} (w : ℝ) (h : GradAt c a b k0 mu0) :
    GradAt (fun k mu => w * c k mu) (w * a) (w * b) k0 mu0 := by
  exact ((GradAt.const w k0 mu0).mul h).congr (by ring) (by ring)

theorem GradAt.fog (g : Fog) (sigma k0 mu0 : ℝ) :
    GradAt (fun k mu => g.G k mu sigma) (g.dk k0 mu0 sigma) (g.dmu k0 mu0 sigma) k0 mu0 := by
  intro u v u' v' x e1 e2 hu hv
  have h1 : HasDerivAt (fun y => u y * v y * sigma) ((u' * v x + u x * v') * sigma) x := (hu.mul hv).mul_const sigma
  have := (g.hasDerivAt (u x * v x * sigma)).comp x h1
  refine this.congr_deriv ?_
  simp only [e1, e2, Fog.dk, Fog.dmu]; ring

theorem GradAt.muSum (n : ℕ) (P : ℕ → ℝ → ℝ) (k0 mu0 : ℝ) (hP : ∀ i ≤ n, DifferentiableAt ℝ (P i) k0) :
    GradAt (muSum n P) (muSumDk n P k0 mu0) (muSumDmu n P k0 mu0) k0 mu0 := by
  intro u v u' v' x e1 e2 hu hv
  have hterm : ∀ i ∈ Finset.range (n + 1), HasDerivAt (fun y => v y ^ (2 * i) * P i (u y))
      (mu0 ^ (2 * i) * deriv (P i) k0 * u' + (if i ≠ 0 then 2 * (i : ℝ) * mu0 ^ (2 * i - 1) * P i k0 else 0) * v') x := by
    intro i hi
    have hi' : i ≤ n := Nat.lt_succ_iff.1 (Finset.mem_range.1 hi)
    have hp : HasDerivAt (P i) (deriv (P i) (u x)) (u x) := by rw [e1]; exact (hP i hi').hasDerivAt
    have h1 := (hv.pow (2 * i)).mul (hp.comp x hu)
    refine h1.congr_deriv ?_
    simp only [Pi.pow_apply, Function.comp_apply, e1, e2]
    by_cases h0 : i = 0
    · subst h0; simp
    · rw [if_pos h0]; push_cast; ring
  have := HasDerivAt.fun_sum hterm
  refine this.congr_deriv ?_
  rw [Finset.sum_add_distrib, ← Finset.sum_mul, ← Finset.sum_mul]
  rfl

/-! ### The dilation parameters -/

theorem hasDerivAt_F {x b : ℝ} (hx : x ≠ 0) (hb : b ≠ 0) :
    HasDerivAt (fun x => 1 / (x / b) ^ 2 - 1) (-2 * b ^ 2 / x ^ 3) x := by
  have h1 : HasDerivAt (fun y : ℝ => ((y / b) ^ 2)⁻¹) (-(2 * (x / b) * (1 / b)) / ((x / b) ^ 2) ^ 2) x := by
    have h0 : HasDerivAt (fun y : ℝ => (y / b) ^ 2) (2 * (x / b) * (1 / b)) x := by
      have := ((hasDerivAt_id x).div_const b).pow 2
      refine this.congr_deriv ?_
      simp
    exact h0.fun_inv (by positivity)
  have h2 := h1.sub_const 1
  refine (h2.congr_deriv ?_).congr_of_eventuallyEq ?_
  · field_simp
  · exact Filter.Eventually.of_forall fun y => by simp

theorem hasDerivAt_F' {a x : ℝ} (ha : a ≠ 0) :
    HasDerivAt (fun x => 1 / (a / x) ^ 2 - 1) (2 * x / a ^ 2) x := by
  have h1 : HasDerivAt (fun y : ℝ => y ^ 2 / a ^ 2 - 1) (2 * x / a ^ 2) x := by
    have := ((hasDerivAt_pow 2 x).div_const (a ^ 2)).sub_const 1
    exact this.congr_deriv (by norm_num)
  refine h1.congr_of_eventuallyEq (Filter.Eventually.of_forall fun y => ?_)
  simp [div_pow]

theorem kAP_par {k mu : ℝ} {a : Alphas} (h1 : -1 ≤ mu) (h2 : mu ≤ 1) (hr : 0 < a.par) (hp : 0 < a.perp) :
    HasDerivAt (fun x => kAP k mu a.perp x) (dkDpar a k mu) a.par := by
  have hN := under_pos h1 h2 hp hr
  have hF := ((hasDerivAt_F hr.ne' hp.ne').const_mul (mu ^ 2)).const_add 1
  have := (hF.sqrt hN.ne').const_mul (k / a.perp)
  refine (this.congr_deriv ?_).congr_of_eventuallyEq (Filter.Eventually.of_forall fun y => kAP_eq)
  simp only [dkDpar, apN]
  have hs : 0 < √(1 + mu ^ 2 * (1 / (a.par / a.perp) ^ 2 - 1)) := Real.sqrt_pos.2 hN
  generalize √(1 + mu ^ 2 * (1 / (a.par / a.perp) ^ 2 - 1)) = s at *
  field_simp

theorem kAP_perp {k mu : ℝ} {a : Alphas} (h1 : -1 ≤ mu) (h2 : mu ≤ 1) (hr : 0 < a.par) (hp : 0 < a.perp) :
    HasDerivAt (fun x => kAP k mu x a.par) (dkDperp a k mu) a.perp := by
  have hN := under_pos h1 h2 hp hr
  have hF := ((hasDerivAt_F' (x := a.perp) hr.ne').const_mul (mu ^ 2)).const_add 1
  have hk : HasDerivAt (fun x => k / x) (-k / a.perp ^ 2) a.perp := by
    have := ((hasDerivAt_id a.perp).fun_inv hp.ne').const_mul k
    refine (this.congr_deriv ?_).congr_of_eventuallyEq (Filter.Eventually.of_forall fun y => ?_)
    · simp; ring
    · simp [div_eq_mul_inv]
  have := hk.mul (hF.sqrt hN.ne')
  refine (this.congr_deriv ?_).congr_of_eventuallyEq (Filter.Eventually.of_forall fun y => kAP_eq)
  simp only [dkDperp, apN]
  have hs : 0 < √(1 + mu ^ 2 * (1 / (a.par / a.perp) ^ 2 - 1)) := Real.sqrt_pos.2 hN
  have hs2 := Real.sq_sqrt hN.le
  generalize √(1 + mu ^ 2 * (1 / (a.par / a.perp) ^ 2 - 1)) = s at *
  field_simp
  field_simp at hs2
  linear_combination (-k) * hs2

theorem muAP_par {mu : ℝ} {a : Alphas} (h1 : -1 ≤ mu) (h2 : mu ≤ 1) (hr : 0 < a.par) (hp : 0 < a.perp) :
    HasDerivAt (fun x => muAP mu a.perp x) (dmuDpar a mu) a.par := by
  have hN := under_pos h1 h2 hp hr
  have hF := ((hasDerivAt_F hr.ne' hp.ne').const_mul (mu ^ 2)).const_add 1
  have hs : 0 < √(1 + mu ^ 2 * (1 / (a.par / a.perp) ^ 2 - 1)) := Real.sqrt_pos.2 hN
  have hi := (hF.sqrt hN.ne').fun_inv hs.ne'
  have hm : HasDerivAt (fun x => mu / (x / a.perp)) (-mu * a.perp / a.par ^ 2) a.par := by
    have := ((hasDerivAt_id a.par).fun_inv hr.ne').const_mul (mu * a.perp)
    refine (this.congr_deriv ?_).congr_of_eventuallyEq (Filter.Eventually.of_forall fun y => ?_)
    · simp; ring
    · simp only [id]; rw [div_div_eq_mul_div]; ring
  have := hm.mul hi
  refine this.congr_deriv ?_
  simp only [dmuDpar, apN]
  have hs2 := Real.sq_sqrt hN.le
  generalize hS : √(1 + mu ^ 2 * (1 / (a.par / a.perp) ^ 2 - 1)) = s at *
  rw [← hs2]
  field_simp
  field_simp at hs2
  linear_combination (-mu) * hs2

theorem muAP_perp {mu : ℝ} {a : Alphas} (h1 : -1 ≤ mu) (h2 : mu ≤ 1) (hr : 0 < a.par) (hp : 0 < a.perp) :
    HasDerivAt (fun x => muAP mu x a.par) (dmuDperp a mu) a.perp := by
  have hN := under_pos h1 h2 hp hr
  have hF := ((hasDerivAt_F' (x := a.perp) hr.ne').const_mul (mu ^ 2)).const_add 1
  have hs : 0 < √(1 + mu ^ 2 * (1 / (a.par / a.perp) ^ 2 - 1)) := Real.sqrt_pos.2 hN
  have hi := (hF.sqrt hN.ne').fun_inv hs.ne'
  have hm : HasDerivAt (fun x => mu / (a.par / x)) (mu / a.par) a.perp := by
    have := (hasDerivAt_id a.perp).const_mul (mu / a.par)
    refine (this.congr_deriv ?_).congr_of_eventuallyEq (Filter.Eventually.of_forall fun y => ?_)
    · simp
    · simp only [id]; rw [div_div_eq_mul_div]; ring
  have := hm.mul hi
  refine this.congr_deriv ?_
  simp only [dmuDperp, apN]
  have hs2 := Real.sq_sqrt hN.le
  generalize hS : √(1 + mu ^ 2 * (1 / (a.par / a.perp) ^ 2 - 1)) = s at *
  rw [← hs2]
  field_simp
  field_simp at hs2
  linear_combination (mu) * hs2

/-- The chain rule of `alpha_par.py`, for any function whose reported derivatives are right at the true coordinates. -/
theorem alphaPar_correct (a : Alphas) (core : ℝ → ℝ → ℝ) (dk dmu : ℝ → ℝ → ℝ) (k mu : ℝ) (h1 : -1 ≤ mu) (h2 : mu ≤ 1)
    (hr : 0 < a.par) (hp : 0 < a.perp)
    (hg : GradAt core (dk (kAP k mu a.perp a.par) (muAP mu a.perp a.par)) (dmu (kAP k mu a.perp a.par) (muAP mu a.perp a.par))
      (kAP k mu a.perp a.par) (muAP mu a.perp a.par)) :
    HasDerivAt (fun x => distorted { a with par := x } core k mu) (alphaParEval a core dk dmu k mu) a.par := by
  have hc := hg (fun x => kAP k mu a.perp x) (fun x => muAP mu a.perp x) _ _ a.par rfl rfl (kAP_par (k := k) h1 h2 hr hp)
    (muAP_par h1 h2 hr hp)
  have hv : HasDerivAt (fun x => (a.perp ^ 2 * x)⁻¹) (-(a.perp ^ 2) / (a.perp ^ 2 * a.par) ^ 2) a.par := by
    have h0 : HasDerivAt (fun x => a.perp ^ 2 * x) (a.perp ^ 2) a.par := by
      simpa using (hasDerivAt_id a.par).const_mul (a.perp ^ 2)
    exact h0.fun_inv (by positivity)
  have := (hc.mul hv).mul_const (a.drag ^ 3)
  refine (this.congr_deriv ?_).congr_of_eventuallyEq (Filter.Eventually.of_forall fun y => ?_)
  · simp only [alphaParEval, distorted, rescale]
    field_simp
    ring
  · simp only [distorted, rescale, div_eq_mul_inv, Pi.mul_apply]

/-- The chain rule of `alpha_perp.py`. -/
theorem alphaPerp_correct (a : Alphas) (core : ℝ → ℝ → ℝ) (dk dmu : ℝ → ℝ → ℝ) (k mu : ℝ) (h1 : -1 ≤ mu) (h2 : mu ≤ 1)
    (hr : 0 < a.par) (hp : 0 < a.perp)
    (hg : GradAt core (dk (kAP k mu a.perp a.par) (muAP mu a.perp a.par)) (dmu (kAP k mu a.perp a.par) (muAP mu a.perp a.par))
      (kAP k mu a.perp a.par) (muAP mu a.perp a.par)) :
    HasDerivAt (fun x => distorted { a with perp := x } core k mu) (alphaPerpEval a core dk dmu k mu) a.perp := by
  have hc := hg (fun x => kAP k mu x a.par) (fun x => muAP mu x a.par) _ _ a.perp rfl rfl (kAP_perp (k := k) h1 h2 hr hp)
    (muAP_perp h1 h2 hr hp)
  have hv : HasDerivAt (fun x => (x ^ 2 * a.par)⁻¹) (-(2 * a.perp * a.par) / (a.perp ^ 2 * a.par) ^ 2) a.perp := by
    have h0 : HasDerivAt (fun x => x ^ 2 * a.par) (2 * a.perp * a.par) a.perp := by
      have := (hasDerivAt_pow 2 a.perp).mul_const a.par
      exact this.congr_deriv (by norm_num)
    exact h0.fun_inv (by positivity)
  have := (hc.mul hv).mul_const (a.drag ^ 3)
  refine (this.congr_deriv ?_).congr_of_eventuallyEq (Filter.Eventually.of_forall fun y => ?_)
  · simp only [alphaPerpEval, distorted, rescale]
    field_simp
    ring
  · simp only [distorted, rescale, div_eq_mul_inv, Pi.mul_apply]

/-- What is linear inside the decorator stays so outside. -/
theorem distorted_hasDerivAt (a : Alphas) (core : ℝ → ℝ → ℝ → ℝ) (d : ℝ → ℝ → ℝ) (k mu x : ℝ)
    (h : HasDerivAt (fun y => core y (kAP k mu a.perp a.par) (muAP mu a.perp a.par))
      (d (kAP k mu a.perp a.par) (muAP mu a.perp a.par)) x) :
    HasDerivAt (fun y => distorted a (core y) k mu) (distorted a d k mu) x := by
  have := (h.div_const (a.perp ^ 2 * a.par)).mul_const (a.drag ^ 3)
  exact this

end Verif.Rsd
