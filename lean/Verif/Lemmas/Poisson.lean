/-
Poisson's integral for the spherical Bessel functions.
-/
import Verif.Lemmas.Xi
import Mathlib.MeasureTheory.Integral.IntervalIntegral.IntegrationByParts

namespace Verif.Xi

open intervalIntegral Real

noncomputable section

/-- `∫₋₁¹ (1-t²)ⁿ cos(xt) dt` -/
def poisson (n : ℕ) (x : ℝ) : ℝ := ∫ t in (-1:ℝ)..1, (1 - t ^ 2) ^ n * cos (t * x)

/-- integration by parts, as in Mathlib's proof that `π` is irrational -/
theorem poisson_step (n : ℕ) (θ : ℝ) :
    poisson (n + 1) θ * θ ^ 2 = - (2 * 2 * ((n + 1) * (0 ^ n * cos θ))) + 2 * (n + 1) * (2 * n + 1) * poisson n θ - 4 * (n + 1) * n * poisson (n - 1) θ := by
  rw [poisson]
  let f (x : ℝ) : ℝ := 1 - x ^ 2
  let u₁ (x : ℝ) : ℝ := f x ^ (n + 1)
  let u₁' (x : ℝ) : ℝ := - (2 * (n + 1) * x * f x ^ n)
  let v₁ (x : ℝ) : ℝ := sin (x * θ)
  let v₁' (x : ℝ) : ℝ := cos (x * θ) * θ
  let u₂ (x : ℝ) : ℝ := x * (f x) ^ n
  let u₂' (x : ℝ) : ℝ := (f x) ^ n - 2 * n * x ^ 2 * (f x) ^ (n - 1)
  let v₂ (x : ℝ) : ℝ := cos (x * θ)
  let v₂' (x : ℝ) : ℝ := -sin (x * θ) * θ
  have hfd : Continuous f := by fun_prop
  have hu₁d : Continuous u₁' := by fun_prop
  have hv₁d : Continuous v₁' := by fun_prop
  have hu₂d : Continuous u₂' := by fun_prop
  have hv₂d : Continuous v₂' := by fun_prop
  have hu₁_eval_one : u₁ 1 = 0 := by simp only [u₁, f]; simp
  have hu₁_eval_neg_one : u₁ (-1) = 0 := by simp only [u₁, f]; simp
  have t : u₂ 1 * v₂ 1 - u₂ (-1) * v₂ (-1) = 2 * (0 ^ n * cos θ) := by simp [u₂, v₂, f, ← two_mul]
  have hf (x) : HasDerivAt f (- 2 * x) x := by
    convert! (hasDerivAt_pow 2 x).const_sub 1 using 1
    simp
  have hu₁ (x) : HasDerivAt u₁ (u₁' x) x := by
    convert! (hf x).pow _ using 1
    simp only [Nat.add_succ_sub_one, u₁', Nat.cast_add_one]
    ring
  have hv₁ (x) : HasDerivAt v₁ (v₁' x) x := (hasDerivAt_mul_const θ).sin
  have hu₂ (x) : HasDerivAt u₂ (u₂' x) x := by
    convert! (hasDerivAt_id' x).fun_mul ((hf x).fun_pow _) using 1
    simp only [u₂']
    ring
  have hv₂ (x) : HasDerivAt v₂ (v₂' x) x := (hasDerivAt_mul_const θ).cos
  convert_to (∫ (x : ℝ) in (-1)..1, u₁ x * v₁' x) * θ = _ using 1
  · simp_rw [u₁, v₁', f, ← intervalIntegral.integral_mul_const, sq θ, mul_assoc]
  rw [integral_mul_deriv_eq_deriv_mul (fun x _ => hu₁ x) (fun x _ => hv₁ x)
    (hu₁d.intervalIntegrable _ _) (hv₁d.intervalIntegrable _ _), hu₁_eval_one, hu₁_eval_neg_one,
    zero_mul, zero_mul, sub_zero, zero_sub, ← integral_neg, ← integral_mul_const]
  convert_to ((-2 : ℝ) * (n + 1)) * ∫ (x : ℝ) in (-1)..1, (u₂ x * v₂' x) = _ using 1
  · rw [← integral_const_mul]
    congr 1 with x
    dsimp [u₁', v₁, u₂, v₂']
    ring
  rw [integral_mul_deriv_eq_deriv_mul (fun x _ => hu₂ x) (fun x _ => hv₂ x)
    (hu₂d.intervalIntegrable _ _) (hv₂d.intervalIntegrable _ _),
    mul_sub, t, neg_mul, neg_mul, neg_mul, sub_neg_eq_add]
  have (x : _) : u₂' x = (2 * n + 1) * f x ^ n - 2 * n * f x ^ (n - 1) := by
    cases n with
    | zero => simp [u₂']
    | succ n => ring!
  simp_rw [this, sub_mul, mul_assoc _ _ (v₂ _)]
  have : Continuous v₂ := by fun_prop
  rw [mul_mul_mul_comm, integral_sub, mul_sub, add_sub_assoc]
  · congr 1
    simp_rw [integral_const_mul]
    ring!
  all_goals exact Continuous.intervalIntegrable (by fun_prop) _ _

theorem poisson_zero (θ : ℝ) : poisson 0 θ * θ = 2 * sin θ := by
  rw [mul_comm, poisson]
  simp [mul_integral_comp_mul_right, two_mul]

theorem poisson_one (θ : ℝ) : poisson 1 θ * θ ^ 3 = 4 * sin θ - 4 * θ * cos θ := by
  have h := poisson_step 0 θ
  have h0 := poisson_zero θ
  norm_num at h
  linear_combination θ * h + 2 * h0

theorem poisson_next (n : ℕ) (θ : ℝ) : poisson (n + 2) θ * θ ^ 2 = 2 * (n + 2) * (2 * n + 3) * poisson (n + 1) θ - 4 * (n + 2) * (n + 1) * poisson n θ := by
  rw [poisson_step (n + 1)]
  push_cast
  ring

/-- Poisson's integral: `jₙ(x) = xⁿ/(2ⁿ⁺¹ n!) ∫₋₁¹ (1-t²)ⁿ cos(xt) dt` -/
theorem sph_poisson {x : ℝ} (hx : x ≠ 0) : ∀ n : ℕ, sph n x = x ^ n / (2 ^ (n + 1) * n.factorial) * poisson n x
  | 0 => by
    rw [sph_zero hx]
    have h := poisson_zero x
    simp only [pow_zero, zero_add, pow_one, Nat.factorial_zero, Nat.cast_one, mul_one]
    field_simp
    linarith
  | 1 => by
    rw [sph_one hx]
    have h := poisson_one x
    simp only [pow_one, Nat.factorial_one, Nat.cast_one, mul_one]
    field_simp
    linear_combination -h
  | n + 2 => by
    rw [sph_next n hx, sph_poisson hx (n + 1), sph_poisson hx n]
    have h := poisson_next n x
    have e : poisson (n + 2) x = (2 * (n + 2) * (2 * n + 3) * poisson (n + 1) x - 4 * (n + 2) * (n + 1) * poisson n x) / x ^ 2 := by
      rw [← h]; field_simp
    rw [e, Nat.factorial_succ (n + 1), Nat.factorial_succ n]
    generalize poisson (n + 1) x = p1
    generalize poisson n x = p0
    have hf : (n.factorial : ℝ) ≠ 0 := by positivity
    push_cast
    field_simp
    ring

end
end Verif.Xi
