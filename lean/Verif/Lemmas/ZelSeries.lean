/-
The series in spherical Bessel functions behind the Zel'dovich power spectra.
-/
import Verif.Lemmas.Poisson
import Mathlib.Analysis.SpecialFunctions.ExpDeriv
import Mathlib.Algebra.BigOperators.Field
import Mathlib.Analysis.SpecialFunctions.Integrals.Basic

namespace Verif.Xi

open intervalIntegral Real

noncomputable section

/-- the partial sums of the exponential series -/
def expSum (m : ℕ) (y : ℝ) : ℝ := ∑ n ∈ Finset.range m, y ^ n / (n.factorial : ℝ)

theorem expSum_deriv (m : ℕ) (y : ℝ) : HasDerivAt (expSum (m + 1)) (expSum m y) y := by
  have : expSum (m + 1) = fun y => (∑ n ∈ Finset.range m, y ^ (n + 1) / ((n + 1).factorial : ℝ)) + 1 := by
    funext y; unfold expSum; rw [Finset.sum_range_succ']; simp
  rw [this]
  refine (HasDerivAt.add_const (1:ℝ) ?_)
  unfold expSum
  refine HasDerivAt.fun_sum fun n _ => ?_
  refine ((hasDerivAt_pow (n + 1) y).div_const _).congr_deriv ?_
  rw [Nat.factorial_succ]
  have hf : (n.factorial : ℝ) ≠ 0 := by positivity
  push_cast
  field_simp

theorem expSum_cont (m : ℕ) : Continuous (expSum m) := by
  unfold expSum; fun_prop

/-- the remainder of the exponential series -/
theorem exp_tail : ∀ (m : ℕ) (y : ℝ), |exp y - expSum m y| ≤ |y| ^ m / (m.factorial : ℝ) * exp (max y 0)
  | 0, y => by
    simp only [expSum, Finset.range_zero, Finset.sum_empty, sub_zero, pow_zero, Nat.factorial_zero, Nat.cast_one, div_one, one_mul]
    rw [abs_of_pos (exp_pos y)]
    exact exp_le_exp.2 (le_max_left _ _)
  | m + 1, y => by
    have hd : ∀ u ∈ Set.uIcc (0:ℝ) 1, HasDerivAt (fun u => exp (y * u) - expSum (m + 1) (y * u)) ((exp (y * u) - expSum m (y * u)) * y) u := by
      intro u _
      have h1 : HasDerivAt (fun u : ℝ => y * u) y u := by simpa using (hasDerivAt_id u).const_mul y
      have h2 := h1.exp.sub ((expSum_deriv m (y * u)).comp u h1)
      exact h2.congr_deriv (by ring)
    have hc : Continuous fun u : ℝ => (exp (y * u) - expSum m (y * u)) * y := by
      have := expSum_cont m
      fun_prop
    have hI := integral_eq_sub_of_hasDerivAt hd (hc.intervalIntegrable _ _)
    have h0 : exp (y * 0) - expSum (m + 1) (y * 0) = 0 := by
      unfold expSum; rw [Finset.sum_range_succ']; simp
    rw [h0, mul_one, sub_zero] at hI
    rw [← hI, ← Real.norm_eq_abs]
    have hb := norm_integral_le_of_norm_le (a := 0) (b := 1) (f := fun u : ℝ => (exp (y * u) - expSum m (y * u)) * y) (g := fun u : ℝ => (|y| ^ (m+1) / (m.factorial : ℝ) * exp (max y 0)) * u ^ m)
      (μ := MeasureTheory.volume) zero_le_one (Filter.Eventually.of_forall fun u hu => by
        rw [norm_mul, Real.norm_eq_abs, Real.norm_eq_abs]
        have h := exp_tail m (y * u)
        have hu0 : 0 ≤ u := hu.1.le
        have hmax : max (y * u) 0 ≤ max y 0 := by
          rcases le_total y 0 with h | h
          · rw [max_eq_right (mul_nonpos_of_nonpos_of_nonneg h hu0)]; exact le_max_right _ _
          · rw [max_eq_left (mul_nonneg h hu0), max_eq_left h]; exact mul_le_of_le_one_right h hu.2
        calc |exp (y * u) - expSum m (y * u)| * |y| ≤ |y * u| ^ m / (m.factorial : ℝ) * exp (max (y * u) 0) * |y| := by gcongr
          _ ≤ |y * u| ^ m / (m.factorial : ℝ) * exp (max y 0) * |y| := by gcongr
          _ = _ := by rw [abs_mul, abs_of_nonneg hu0, mul_pow]; ring) ((by fun_prop : Continuous fun u : ℝ => (|y| ^ (m+1) / (m.factorial : ℝ) * exp (max y 0)) * u ^ m).intervalIntegrable _ _)
    refine hb.trans (le_of_eq ?_)
    rw [integral_const_mul, integral_pow, Nat.factorial_succ]
    have hf : (m.factorial : ℝ) ≠ 0 := by positivity
    push_cast
    simp only [one_pow, zero_pow (Nat.succ_ne_zero m), sub_zero]
    field_simp

/-- a series of Bessel functions is an integral over the angle, term by term -/
theorem bessel_sum {A : ℝ} (hA : A ≠ 0) (B : ℝ) (c : ℕ → ℝ) (m : ℕ) :
    ∑ n ∈ Finset.range m, c n * (B / A) ^ n * sph n A = 1 / 2 * ∫ t in (-1:ℝ)..1, cos (A * t) * ∑ n ∈ Finset.range m, c n * ((B * (1 - t ^ 2) / 2) ^ n / (n.factorial : ℝ)) := by
  simp_rw [Finset.mul_sum]
  rw [integral_finsetSum (fun n _ => (by fun_prop : Continuous fun t : ℝ => cos (A * t) * (c n * ((B * (1 - t ^ 2) / 2) ^ n / (n.factorial : ℝ)))).intervalIntegrable _ _), Finset.mul_sum]
  refine Finset.sum_congr rfl fun n _ => ?_
  rw [sph_poisson hA, poisson]
  have e : ∀ t : ℝ, cos (A * t) * (c n * ((B * (1 - t ^ 2) / 2) ^ n / (n.factorial : ℝ))) = (c n * (B / 2) ^ n / (n.factorial : ℝ)) * ((1 - t ^ 2) ^ n * cos (t * A)) := by
    intro t
    rw [mul_comm A t, show B * (1 - t ^ 2) / 2 = B / 2 * (1 - t ^ 2) by ring, mul_pow]; ring
  simp_rw [e]
  rw [integral_const_mul]
  generalize (∫ t in (-1:ℝ)..1, (1 - t ^ 2) ^ n * cos (t * A)) = I
  have hf : (n.factorial : ℝ) ≠ 0 := by positivity
  rw [div_pow, div_pow, pow_succ]
  field_simp

/-- the sums with coefficients that are quadratic in the order -/
theorem quad_sum (α β γ y : ℝ) (m : ℕ) :
    ∑ n ∈ Finset.range (m + 2), (α + β * n + γ * (n * (n - 1))) * (y ^ n / (n.factorial : ℝ)) = α * expSum (m + 2) y + β * y * expSum (m + 1) y + γ * y ^ 2 * expSum m y := by
  have h1 : ∑ n ∈ Finset.range (m + 2), (n : ℝ) * (y ^ n / (n.factorial : ℝ)) = y * expSum (m + 1) y := by
    rw [Finset.sum_range_succ', expSum, Finset.mul_sum]
    simp only [Nat.cast_zero, zero_mul, add_zero]
    refine Finset.sum_congr rfl fun n _ => ?_
    have hf : (n.factorial : ℝ) ≠ 0 := by positivity
    rw [Nat.factorial_succ]; push_cast; field_simp
    ring
  have h2 : ∑ n ∈ Finset.range (m + 2), (n : ℝ) * (n - 1) * (y ^ n / (n.factorial : ℝ)) = y ^ 2 * expSum m y := by
    rw [Finset.sum_range_succ', Finset.sum_range_succ', expSum, Finset.mul_sum]
    norm_num
    refine Finset.sum_congr rfl fun n _ => ?_
    have hf : (n.factorial : ℝ) ≠ 0 := by positivity
    rw [Nat.factorial_succ, Nat.factorial_succ]; push_cast; field_simp
    ring
  have e : ∀ n ∈ Finset.range (m + 2), (α + β * n + γ * (n * (n - 1))) * (y ^ n / (n.factorial : ℝ)) =
      α * (y ^ n / (n.factorial : ℝ)) + β * (n * (y ^ n / (n.factorial : ℝ))) + γ * ((n : ℝ) * (n - 1) * (y ^ n / (n.factorial : ℝ))) := fun n _ => by ring
  rw [Finset.sum_congr rfl e, Finset.sum_add_distrib, Finset.sum_add_distrib, ← Finset.mul_sum, ← Finset.mul_sum, ← Finset.mul_sum, h1, h2, show ∑ n ∈ Finset.range (m + 2), y ^ n / (n.factorial : ℝ) = expSum (m + 2) y from rfl]
  ring

/-- the error of these sums against the product with the exponential -/
theorem quad_tail (α β γ y : ℝ) (m : ℕ) :
    |(α + β * y + γ * y ^ 2) * exp y - ∑ n ∈ Finset.range (m + 2), (α + β * n + γ * (n * (n - 1))) * (y ^ n / (n.factorial : ℝ))| ≤
      (|α| + (m + 2) * |β| + (m + 2) * (m + 1) * |γ|) * (|y| ^ (m + 2) / ((m + 2).factorial : ℝ)) * exp (max y 0) := by
  rw [quad_sum]
  have e : (α + β * y + γ * y ^ 2) * exp y - (α * expSum (m + 2) y + β * y * expSum (m + 1) y + γ * y ^ 2 * expSum m y) =
      α * (exp y - expSum (m + 2) y) + β * y * (exp y - expSum (m + 1) y) + γ * y ^ 2 * (exp y - expSum m y) := by ring
  rw [e]
  have t0 := exp_tail (m + 2) y
  have t1 := exp_tail (m + 1) y
  have t2 := exp_tail m y
  have hf : (m.factorial : ℝ) ≠ 0 := by positivity
  calc |α * (exp y - expSum (m + 2) y) + β * y * (exp y - expSum (m + 1) y) + γ * y ^ 2 * (exp y - expSum m y)|
      ≤ |α * (exp y - expSum (m + 2) y)| + |β * y * (exp y - expSum (m + 1) y)| + |γ * y ^ 2 * (exp y - expSum m y)| := abs_add_three _ _ _
    _ = |α| * |exp y - expSum (m + 2) y| + |β| * |y| * |exp y - expSum (m + 1) y| + |γ| * |y| ^ 2 * |exp y - expSum m y| := by
        simp only [abs_mul, abs_pow]
    _ ≤ |α| * (|y| ^ (m + 2) / ((m + 2).factorial : ℝ) * exp (max y 0)) + |β| * |y| * (|y| ^ (m + 1) / ((m + 1).factorial : ℝ) * exp (max y 0)) + |γ| * |y| ^ 2 * (|y| ^ m / (m.factorial : ℝ) * exp (max y 0)) := by gcongr
    _ = _ := by
        rw [Nat.factorial_succ (m + 1), Nat.factorial_succ m]
        push_cast
        generalize exp (max y 0) = X
        generalize |y| = Y
        field_simp
        ring

/-- one radius: the series of 16 orders against the exact angular integral -/
theorem node_error {A : ℝ} (hA : A ≠ 0) (k X Y α β γ : ℝ) (m : ℕ) :
    |exp (-(1 / 2) * k ^ 2 * (X + Y)) * ∑ n ∈ Finset.range (m + 2), (α + β * n + γ * (n * (n - 1))) * (k ^ 2 * Y / A) ^ n * sph n A -
      1 / 2 * ∫ t in (-1:ℝ)..1, cos (A * t) * ((α + β * (k ^ 2 * Y * (1 - t ^ 2) / 2) + γ * (k ^ 2 * Y * (1 - t ^ 2) / 2) ^ 2) * exp (-(1 / 2) * k ^ 2 * (X + Y * t ^ 2)))| ≤
      (|α| + (m + 2) * |β| + (m + 2) * (m + 1) * |γ|) * ((k ^ 2 * |Y| / 2) ^ (m + 2) / ((m + 2).factorial : ℝ)) * exp (-(1 / 2) * k ^ 2 * min X (X + Y)) := by
  rw [bessel_sum hA, mul_left_comm, ← integral_const_mul, ← mul_sub]
  rw [← integral_sub ((by fun_prop : Continuous fun t : ℝ => exp (-(1 / 2) * k ^ 2 * (X + Y)) * (cos (A * t) * ∑ n ∈ Finset.range (m + 2), (α + β * n + γ * (n * (n - 1))) * ((k ^ 2 * Y * (1 - t ^ 2) / 2) ^ n / (n.factorial : ℝ)))).intervalIntegrable _ _) ((by fun_prop : Continuous fun t : ℝ => cos (A * t) * ((α + β * (k ^ 2 * Y * (1 - t ^ 2) / 2) + γ * (k ^ 2 * Y * (1 - t ^ 2) / 2) ^ 2) * exp (-(1 / 2) * k ^ 2 * (X + Y * t ^ 2)))).intervalIntegrable _ _)]
  set K := (|α| + (m + 2) * |β| + (m + 2) * (m + 1) * |γ|) * ((k ^ 2 * |Y| / 2) ^ (m + 2) / ((m + 2).factorial : ℝ)) * exp (-(1 / 2) * k ^ 2 * min X (X + Y)) with hK
  have hb := norm_integral_le_of_norm_le_const (a := (-1:ℝ)) (b := 1) (C := K)
    (f := fun t : ℝ => exp (-(1 / 2) * k ^ 2 * (X + Y)) * (cos (A * t) * ∑ n ∈ Finset.range (m + 2), (α + β * n + γ * (n * (n - 1))) * ((k ^ 2 * Y * (1 - t ^ 2) / 2) ^ n / (n.factorial : ℝ))) - cos (A * t) * ((α + β * (k ^ 2 * Y * (1 - t ^ 2) / 2) + γ * (k ^ 2 * Y * (1 - t ^ 2) / 2) ^ 2) * exp (-(1 / 2) * k ^ 2 * (X + Y * t ^ 2)))) (by
      intro t ht
      rw [Set.uIoc_of_le (by norm_num)] at ht
      have ht1 : t ^ 2 ≤ 1 := by nlinarith [ht.1, ht.2]
      have ht0 : 0 ≤ 1 - t ^ 2 := by linarith
      set y := k ^ 2 * Y * (1 - t ^ 2) / 2 with hy
      have hexp : exp (-(1 / 2) * k ^ 2 * (X + Y * t ^ 2)) = exp (-(1 / 2) * k ^ 2 * (X + Y)) * exp y := by
        rw [← exp_add]; congr 1; rw [hy]; ring
      rw [hexp, show exp (-(1 / 2) * k ^ 2 * (X + Y)) * (cos (A * t) * ∑ n ∈ Finset.range (m + 2), (α + β * n + γ * (n * (n - 1))) * (y ^ n / (n.factorial : ℝ))) - cos (A * t) * ((α + β * y + γ * y ^ 2) * (exp (-(1 / 2) * k ^ 2 * (X + Y)) * exp y)) =
        -(cos (A * t) * (exp (-(1 / 2) * k ^ 2 * (X + Y)) * ((α + β * y + γ * y ^ 2) * exp y - ∑ n ∈ Finset.range (m + 2), (α + β * n + γ * (n * (n - 1))) * (y ^ n / (n.factorial : ℝ))))) by ring]
      rw [norm_neg, norm_mul, norm_mul, Real.norm_eq_abs, Real.norm_eq_abs, Real.norm_eq_abs, abs_of_pos (exp_pos (-(1 / 2) * k ^ 2 * (X + Y)))]
      have hq := quad_tail α β γ y m
      have hyb : |y| ≤ k ^ 2 * |Y| / 2 := by
        rw [hy, abs_div, abs_mul, abs_mul, abs_of_nonneg (sq_nonneg k), abs_of_nonneg ht0, abs_of_pos (by norm_num : (0:ℝ) < 2)]
        have : k ^ 2 * |Y| * (1 - t ^ 2) ≤ k ^ 2 * |Y| * 1 := by gcongr; nlinarith [sq_nonneg t]
        linarith
      have he : exp (-(1 / 2) * k ^ 2 * (X + Y)) * exp (max y 0) ≤ exp (-(1 / 2) * k ^ 2 * min X (X + Y)) := by
        rw [← exp_add]
        refine exp_le_exp.2 ?_
        have hk2 : 0 ≤ k ^ 2 := sq_nonneg k
        have hm1 := mul_le_mul_of_nonneg_left (min_le_left X (X + Y)) hk2
        have hm2 := mul_le_mul_of_nonneg_left (min_le_right X (X + Y)) hk2
        rcases le_total y 0 with h | h
        · rw [max_eq_right h]; linarith
        · rw [max_eq_left h]
          by_cases hY : 0 ≤ Y
          · have : 0 ≤ k ^ 2 * Y * t ^ 2 := by positivity
            rw [hy]; nlinarith
          · have : k ^ 2 * Y * (1 - t ^ 2) ≤ 0 := by
              have : k ^ 2 * Y ≤ 0 := mul_nonpos_of_nonneg_of_nonpos hk2 (le_of_not_ge hY)
              exact mul_nonpos_of_nonpos_of_nonneg this ht0
            rw [hy]; linarith
      calc |cos (A * t)| * (exp (-(1 / 2) * k ^ 2 * (X + Y)) * |(α + β * y + γ * y ^ 2) * exp y - ∑ n ∈ Finset.range (m + 2), (α + β * n + γ * (n * (n - 1))) * (y ^ n / (n.factorial : ℝ))|)
          ≤ 1 * (exp (-(1 / 2) * k ^ 2 * (X + Y)) * ((|α| + (m + 2) * |β| + (m + 2) * (m + 1) * |γ|) * (|y| ^ (m + 2) / ((m + 2).factorial : ℝ)) * exp (max y 0))) := by
            gcongr
            exact abs_cos_le_one _
        _ = (|α| + (m + 2) * |β| + (m + 2) * (m + 1) * |γ|) * (|y| ^ (m + 2) / ((m + 2).factorial : ℝ)) * (exp (-(1 / 2) * k ^ 2 * (X + Y)) * exp (max y 0)) := by ring
        _ ≤ K := by rw [hK]; gcongr)
  rw [abs_mul, abs_of_pos (by norm_num : (0:ℝ) < 1 / 2)]
  rw [Real.norm_eq_abs] at hb
  norm_num at hb ⊢
  linarith

end
end Verif.Xi
