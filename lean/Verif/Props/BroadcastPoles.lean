/-
C113: the multipole methods compute the multipoles of the model.
-/
import Verif.Props.Broadcast
import Verif.Props.QuadError

namespace Verif.Bcast

open Verif.Quad Verif.Legendre

noncomputable section

/-- The kernels of the four methods are `(2 ell + 1) L_ell`, `ell = 0, 2, 4, 6`. -/
theorem kern_leg (p : ℕ) (hp : p ≤ 3) (mu : ℝ) : kern p mu = (2 * (2 * p : ℕ) + 1) * leg (2 * p) mu := by
  interval_cases p <;> simp [kern, leg] <;> ring

/-- C113: for two or more `k`, `monopole`, `quadrupole`, `hexadecapole` and `tetrahexadecapole` return, for each `k`, the multipole of the model at that
`k`, up to the error of the Simpson rule; with 41 values of `k` that error has a second-derivative term. -/
theorem C113_multipole_error (p : ℕ) (hp : p ≤ 3) (g : ℝ → ℝ → ℝ) (n : ℕ) (hn : 2 ≤ n) (K : ℕ → ℝ) :
    ∃ R : List ℝ, multipole p g (vec n K) = .ok R ∧ R.length = n ∧
      ∀ i, ∀ hi : i < R.length, ∀ M2 M4, Smooth4 (fun mu => (2 * (2 * p : ℕ) + 1) * leg (2 * p) mu * g (K i) mu) 0 1 M2 M4 →
        |R[i] - halfPole (2 * p) (g (K i))| ≤
          if n = 41 then M2 / (12 * 41 ^ 3) + M4 / (180 * 41 ^ 4) else M4 / (180 * 40 ^ 4) := by
  refine ⟨_, C113_multipole p g n hn K, by simp, fun i hi M2 M4 hf => ?_⟩
  have hh : halfPole (2 * p) (g (K i)) = ∫ mu in (0 : ℝ)..1, (2 * (2 * p : ℕ) + 1) * leg (2 * p) mu * g (K i) mu := by
    rw [halfPole, ← intervalIntegral.integral_const_mul]
    refine intervalIntegral.integral_congr fun mu _ => ?_
    simp only [mul_assoc]
  simp only [List.getElem_map, List.getElem_range, hh, kern_leg p hp]
  split_ifs with h41
  · rw [numMu, if_pos h41]
    have := simps01_error_even 42 (by norm_num) (by norm_num) M2 M4 hf
    norm_num at this ⊢
    exact this
  · rw [numMu, if_neg h41]
    have := simps01_error 41 (by norm_num) (by norm_num) M2 M4 hf
    norm_num at this ⊢
    exact this

/-- A polynomial in `mu²` of degree three, as the matter and halo power without the Alcock-Paczynski effect. -/
def even6 (a0 a2 a4 a6 mu : ℝ) : ℝ := a0 + a2 * mu ^ 2 + a4 * mu ^ 4 + a6 * mu ^ 6

theorem smooth_even6 (a0 a2 a4 a6 : ℝ) :
    Smooth4 (even6 a0 a2 a4 a6) 0 1 (2 * |a2| + 12 * |a4| + 30 * |a6|) (24 * |a4| + 360 * |a6|) := by
  have d : ∀ (n : ℕ) (x : ℝ), HasDerivAt (fun x : ℝ => x ^ n) (n * x ^ (n - 1)) x := fun n x => hasDerivAt_pow n x
  refine ⟨fun x => 2 * a2 * x + 4 * a4 * x ^ 3 + 6 * a6 * x ^ 5, fun x => 2 * a2 + 12 * a4 * x ^ 2 + 30 * a6 * x ^ 4,
    fun x => 24 * a4 * x + 120 * a6 * x ^ 3, fun x => 24 * a4 + 360 * a6 * x ^ 2, ?_, ?_, ?_, ?_, ?_, ?_⟩
  · intro x _
    have := ((((d 2 x).const_mul a2).const_add a0).add ((d 4 x).const_mul a4)).add ((d 6 x).const_mul a6)
    refine (this.congr_deriv ?_).hasDerivWithinAt
    push_cast; norm_num; ring
  · intro x _
    have := (((hasDerivAt_id x).const_mul (2 * a2)).add ((d 3 x).const_mul (4 * a4))).add ((d 5 x).const_mul (6 * a6))
    refine (this.congr_deriv ?_).hasDerivWithinAt
    push_cast; norm_num; ring
  · intro x _
    have := (((d 2 x).const_mul (12 * a4)).const_add (2 * a2)).add ((d 4 x).const_mul (30 * a6))
    refine (this.congr_deriv ?_).hasDerivWithinAt
    push_cast; norm_num; ring
  · intro x _
    have := ((hasDerivAt_id x).const_mul (24 * a4)).add ((d 3 x).const_mul (120 * a6))
    refine (this.congr_deriv ?_).hasDerivWithinAt
    push_cast; norm_num; ring
  all_goals
    intro x hx
    have x0 := hx.1
    have x2 : x ^ 2 ≤ 1 := pow_le_one₀ x0 hx.2
    have x4 : x ^ 4 ≤ 1 := pow_le_one₀ x0 hx.2
    have p2 : 0 ≤ x ^ 2 := by positivity
    have p4 : 0 ≤ x ^ 4 := by positivity
  · have h1 : |12 * a4 * x ^ 2| ≤ 12 * |a4| := by
      rw [abs_mul, abs_mul, abs_of_nonneg p2, abs_of_pos (by norm_num : (0 : ℝ) < 12)]
      nlinarith [abs_nonneg a4]
    have h2 : |30 * a6 * x ^ 4| ≤ 30 * |a6| := by
      rw [abs_mul, abs_mul, abs_of_nonneg p4, abs_of_pos (by norm_num : (0 : ℝ) < 30)]
      nlinarith [abs_nonneg a6]
    have h3 : |2 * a2| = 2 * |a2| := by rw [abs_mul, abs_of_pos (by norm_num : (0 : ℝ) < 2)]
    have := abs_add_le (2 * a2 + 12 * a4 * x ^ 2) (30 * a6 * x ^ 4)
    have := abs_add_le (2 * a2) (12 * a4 * x ^ 2)
    linarith
  · have h2 : |360 * a6 * x ^ 2| ≤ 360 * |a6| := by
      rw [abs_mul, abs_mul, abs_of_nonneg p2, abs_of_pos (by norm_num : (0 : ℝ) < 360)]
      nlinarith [abs_nonneg a6]
    have h3 : |24 * a4| = 24 * |a4| := by rw [abs_mul, abs_of_pos (by norm_num : (0 : ℝ) < 24)]
    have := abs_add_le (24 * a4) (360 * a6 * x ^ 2)
    linarith

/-- C113, the monopole of a model that is a polynomial in `mu` up to `mu^6`: within `6e-8 |a4| + 8e-7 |a6|` of `a0 + a2/3 + a4/5 + a6/7`, but with 41
values of `k` only within `3e-6 |a2| + 2e-5 |a4| + 4e-5 |a6|`. -/
theorem C113_monopole_polynomial (a0 a2 a4 a6 : ℝ → ℝ) (n : ℕ) (hn : 2 ≤ n) (K : ℕ → ℝ) :
    ∃ R : List ℝ, multipole 0 (fun k mu => even6 (a0 k) (a2 k) (a4 k) (a6 k) mu) (vec n K) = .ok R ∧ R.length = n ∧
      ∀ i, ∀ hi : i < R.length, |R[i] - (a0 (K i) + a2 (K i) / 3 + a4 (K i) / 5 + a6 (K i) / 7)| ≤
        if n = 41 then 3e-6 * |a2 (K i)| + 2e-5 * |a4 (K i)| + 4e-5 * |a6 (K i)| else 6e-8 * |a4 (K i)| + 8e-7 * |a6 (K i)| := by
  obtain ⟨R, hR, hl, h⟩ := C113_multipole_error 0 (by norm_num) (fun k mu => even6 (a0 k) (a2 k) (a4 k) (a6 k) mu) n hn K
  refine ⟨R, hR, hl, fun i hi => ?_⟩
  have hh : halfPole (2 * 0) (fun mu => even6 (a0 (K i)) (a2 (K i)) (a4 (K i)) (a6 (K i)) mu) =
      a0 (K i) + a2 (K i) / 3 + a4 (K i) / 5 + a6 (K i) / 7 := by
    have hd : ∀ x ∈ Set.uIcc (0 : ℝ) 1, HasDerivAt (fun x : ℝ => a0 (K i) * x + a2 (K i) / 3 * x ^ 3 + a4 (K i) / 5 * x ^ 5 + a6 (K i) / 7 * x ^ 7)
        (leg (2 * 0) x * even6 (a0 (K i)) (a2 (K i)) (a4 (K i)) (a6 (K i)) x) x := by
      intro x _
      have := ((((hasDerivAt_id x).const_mul (a0 (K i))).add ((hasDerivAt_pow 3 x).const_mul (a2 (K i) / 3))).add
        ((hasDerivAt_pow 5 x).const_mul (a4 (K i) / 5))).add ((hasDerivAt_pow 7 x).const_mul (a6 (K i) / 7))
      refine this.congr_deriv ?_
      simp [leg, even6]
      ring
    rw [halfPole, intervalIntegral.integral_eq_sub_of_hasDerivAt hd (by
      apply Continuous.intervalIntegrable
      simp only [leg, even6, Nat.mul_zero]
      fun_prop)]
    norm_num
  have := h i hi (2 * |a2 (K i)| + 12 * |a4 (K i)| + 30 * |a6 (K i)|) (24 * |a4 (K i)| + 360 * |a6 (K i)|) (by
    have e := smooth_even6 (a0 (K i)) (a2 (K i)) (a4 (K i)) (a6 (K i))
    simpa [leg] using e)
  rw [hh] at this
  refine this.trans ?_
  have p2 := abs_nonneg (a2 (K i))
  have p4 := abs_nonneg (a4 (K i))
  have p6 := abs_nonneg (a6 (K i))
  split_ifs <;> norm_num <;> linarith

/-- C113 fails: the monopole at a given `k` depends on how many `k` are asked for; with 41 the monopole of `mu²` is `1/3 + 1/(6 41³)`, with any other number
(two or more) it is `1/3`. -/
theorem C113_monopole_length_counterexample (n : ℕ) (hn : 2 ≤ n) (K : ℕ → ℝ) :
    multipole 0 (fun _ mu => mu ^ 2) (vec n K) = .ok (List.replicate n (if n = 41 then 1 / 3 + 1 / (6 * 41 ^ 3) else 1 / 3)) := by
  rw [C113_multipole 0 _ n hn K]
  congr 1
  rw [List.eq_replicate_iff]
  refine ⟨by simp, fun b hb => ?_⟩
  obtain ⟨i, -, rfl⟩ := List.mem_map.mp hb
  simp only [kern, one_mul]
  split_ifs with h41
  · rw [numMu, if_pos h41, simps, if_pos (by norm_num), basicSimps, basicSimps]
    have hp : ∀ i, panel (linspace01 42) (fun j => linspace01 42 j ^ 2) i = (linspace01 42 (i + 2) ^ 3 - linspace01 42 i ^ 3) / 3 := by
      intro i
      have := panel_quadratic (linspace01 42) i (by simp only [linspace01]; push_cast; intro h; norm_num at h) (by simp only [linspace01]; push_cast; intro h; norm_num at h) 0 0 1
      simp only [cubic, cubicInt] at this
      convert this using 1
      · congr 1; funext j; ring
      · ring
    simp only [hp]
    norm_num [Finset.sum_range_succ, linspace01]
  · rw [numMu, if_neg h41]
    have := C55_simps_quadratic 41 (by norm_num) (by norm_num) (linspace01 41) (by intro i hi; simp only [linspace01]; push_cast; intro h; norm_num at h) 0 0 1
    rw [cubic_integral] at this
    have e : (fun j => linspace01 41 j ^ 2) = fun j => cubic 0 0 1 0 (linspace01 41 j) := by funext j; simp only [cubic]; ring
    rw [e, this]
    norm_num [cubicInt, linspace01]

end

end Verif.Bcast
