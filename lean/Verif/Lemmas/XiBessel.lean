/-
The spherical Bessel functions of the code: the two branches.
-/
import Verif.Lemmas.Xi
import Verif.Model.Xi

namespace Verif.Xi

theorem close_of {x s p j K R B : ℝ} {n : ℕ} (h1 : |s - p| ≤ R) (h2 : |j - p| ≤ |x|^n*K) (h3 : R ≤ |x|^n*B) : |j - s| ≤ |x|^n*(K + B) := by
  have := abs_sub_le j p s
  rw [abs_sub_comm p s] at this
  linarith

theorem rem_le {x : ℝ} (hx : |x| < 1/10^4) {n m : ℕ} (h : n + m = 14) {C : ℝ} (hC : 0 ≤ C) : |x|^14*C ≤ |x|^n*((1/10^4)^m*C) := by
  rw [← h, pow_add, mul_assoc]
  exact mul_le_mul_of_nonneg_left (mul_le_mul_of_nonneg_right (pow_le_pow_left₀ (abs_nonneg x) hx.le m) hC) (by positivity)

theorem poly_zero (x : ℝ) : (∑ k ∈ Finset.range 14, ((1/2*(-1)^(0/2)*wcoef 0 k*mom 0 k : ℚ):ℝ)*x^k) = (1/1:ℝ)*x^0 + (-1/6:ℝ)*x^2 + (1/120:ℝ)*x^4 + (-1/5040:ℝ)*x^6 + (1/362880:ℝ)*x^8 + (-1/39916800:ℝ)*x^10 + (1/6227020800:ℝ)*x^12 := by
  have q0 : (1/2*(-1)^(0/2)*wcoef 0 0*mom 0 0 : ℚ) = 1/1 := by decide +kernel
  have q1 : (1/2*(-1)^(0/2)*wcoef 0 1*mom 0 1 : ℚ) = 0/1 := by decide +kernel
  have q2 : (1/2*(-1)^(0/2)*wcoef 0 2*mom 0 2 : ℚ) = -1/6 := by decide +kernel
  have q3 : (1/2*(-1)^(0/2)*wcoef 0 3*mom 0 3 : ℚ) = 0/1 := by decide +kernel
  have q4 : (1/2*(-1)^(0/2)*wcoef 0 4*mom 0 4 : ℚ) = 1/120 := by decide +kernel
  have q5 : (1/2*(-1)^(0/2)*wcoef 0 5*mom 0 5 : ℚ) = 0/1 := by decide +kernel
  have q6 : (1/2*(-1)^(0/2)*wcoef 0 6*mom 0 6 : ℚ) = -1/5040 := by decide +kernel
  have q7 : (1/2*(-1)^(0/2)*wcoef 0 7*mom 0 7 : ℚ) = 0/1 := by decide +kernel
  have q8 : (1/2*(-1)^(0/2)*wcoef 0 8*mom 0 8 : ℚ) = 1/362880 := by decide +kernel
  have q9 : (1/2*(-1)^(0/2)*wcoef 0 9*mom 0 9 : ℚ) = 0/1 := by decide +kernel
  have q10 : (1/2*(-1)^(0/2)*wcoef 0 10*mom 0 10 : ℚ) = -1/39916800 := by decide +kernel
  have q11 : (1/2*(-1)^(0/2)*wcoef 0 11*mom 0 11 : ℚ) = 0/1 := by decide +kernel
  have q12 : (1/2*(-1)^(0/2)*wcoef 0 12*mom 0 12 : ℚ) = 1/6227020800 := by decide +kernel
  have q13 : (1/2*(-1)^(0/2)*wcoef 0 13*mom 0 13 : ℚ) = 0/1 := by decide +kernel
  simp only [Finset.sum_range_succ, Finset.sum_range_zero]
  rw [q0, q1, q2, q3, q4, q5, q6, q7, q8, q9, q10, q11, q12, q13]
  push_cast
  ring

theorem near_zero {x : ℝ} (hx : |x| < 1/10^4) : |besselJ0 x - sph 0 x| ≤ 1/10^19*(|x|^0/1) := by
  have hs := sph_series 0 (x := x) (by norm_num at hx ⊢; linarith)
  rw [poly_zero] at hs
  obtain ⟨u, hu⟩ : ∃ u, u = x^2 := ⟨_, rfl⟩
  have hu0 : 0 ≤ u := by rw [hu]; positivity
  have hu1 : u ≤ 1/10^8 := by
    rw [hu, ← sq_abs]
    have := pow_le_pow_left₀ (abs_nonneg x) hx.le 2
    norm_num at this ⊢
    linarith
  have hd : |(-1/362880:ℝ)*u^4 + (1/39916800:ℝ)*u^5 + (-1/6227020800:ℝ)*u^6| ≤ 1/362880*(1/10^8)^4 + 1/39916800*(1/10^8)^5 + 1/6227020800*(1/10^8)^6 := by
    have p4 : u^4 ≤ (1/10^8)^4 := pow_le_pow_left₀ hu0 hu1 4
    have n4 : 0 ≤ u^4 := by positivity
    have p5 : u^5 ≤ (1/10^8)^5 := pow_le_pow_left₀ hu0 hu1 5
    have n5 : 0 ≤ u^5 := by positivity
    have p6 : u^6 ≤ (1/10^8)^6 := pow_le_pow_left₀ hu0 hu1 6
    have n6 : 0 ≤ u^6 := by positivity
    rw [abs_le]
    constructor <;> linarith
  have h2 : |besselJ0 x - ((1/1:ℝ)*x^0 + (-1/6:ℝ)*x^2 + (1/120:ℝ)*x^4 + (-1/5040:ℝ)*x^6 + (1/362880:ℝ)*x^8 + (-1/39916800:ℝ)*x^10 + (1/6227020800:ℝ)*x^12)| ≤ |x|^0*(1/362880*(1/10^8)^4 + 1/39916800*(1/10^8)^5 + 1/6227020800*(1/10^8)^6) := by
    unfold besselJ0
    rw [if_pos hx]
    refine le_trans (le_of_eq ?_) (mul_le_mul_of_nonneg_left hd (by positivity))
    rw [← abs_pow, ← abs_mul, hu]
    congr 1
    ring
  rw [mul_assoc] at hs
  refine (close_of hs h2 (rem_le hx (n := 0) (m := 14) (by norm_num) (by positivity))).trans ?_
  have e : 1/10^19*(|x|^0/1) = |x|^0*(1/10^19/1) := by ring
  rw [e]
  exact mul_le_mul_of_nonneg_left (by norm_num) (by positivity)

theorem far_zero {x : ℝ} (hx : ¬ |x| < 1/10^4) : besselJ0 x = sph 0 x := by
  have h0 : x ≠ 0 := by
    rintro rfl
    norm_num at hx
  unfold besselJ0
  rw [if_neg hx, sph_zero h0]

theorem poly_one (x : ℝ) : (∑ k ∈ Finset.range 14, ((1/2*(-1)^(1/2)*wcoef 1 k*mom 1 k : ℚ):ℝ)*x^k) = (1/3:ℝ)*x^1 + (-1/30:ℝ)*x^3 + (1/840:ℝ)*x^5 + (-1/45360:ℝ)*x^7 + (1/3991680:ℝ)*x^9 + (-1/518918400:ℝ)*x^11 + (1/93405312000:ℝ)*x^13 := by
  have q0 : (1/2*(-1)^(1/2)*wcoef 1 0*mom 1 0 : ℚ) = 0/1 := by decide +kernel
  have q1 : (1/2*(-1)^(1/2)*wcoef 1 1*mom 1 1 : ℚ) = 1/3 := by decide +kernel
  have q2 : (1/2*(-1)^(1/2)*wcoef 1 2*mom 1 2 : ℚ) = 0/1 := by decide +kernel
  have q3 : (1/2*(-1)^(1/2)*wcoef 1 3*mom 1 3 : ℚ) = -1/30 := by decide +kernel
  have q4 : (1/2*(-1)^(1/2)*wcoef 1 4*mom 1 4 : ℚ) = 0/1 := by decide +kernel
  have q5 : (1/2*(-1)^(1/2)*wcoef 1 5*mom 1 5 : ℚ) = 1/840 := by decide +kernel
  have q6 : (1/2*(-1)^(1/2)*wcoef 1 6*mom 1 6 : ℚ) = 0/1 := by decide +kernel
  have q7 : (1/2*(-1)^(1/2)*wcoef 1 7*mom 1 7 : ℚ) = -1/45360 := by decide +kernel
  have q8 : (1/2*(-1)^(1/2)*wcoef 1 8*mom 1 8 : ℚ) = 0/1 := by decide +kernel
  have q9 : (1/2*(-1)^(1/2)*wcoef 1 9*mom 1 9 : ℚ) = 1/3991680 := by decide +kernel
  have q10 : (1/2*(-1)^(1/2)*wcoef 1 10*mom 1 10 : ℚ) = 0/1 := by decide +kernel
  have q11 : (1/2*(-1)^(1/2)*wcoef 1 11*mom 1 11 : ℚ) = -1/518918400 := by decide +kernel
  have q12 : (1/2*(-1)^(1/2)*wcoef 1 12*mom 1 12 : ℚ) = 0/1 := by decide +kernel
  have q13 : (1/2*(-1)^(1/2)*wcoef 1 13*mom 1 13 : ℚ) = 1/93405312000 := by decide +kernel
  simp only [Finset.sum_range_succ, Finset.sum_range_zero]
  rw [q0, q1, q2, q3, q4, q5, q6, q7, q8, q9, q10, q11, q12, q13]
  push_cast
  ring

theorem near_one {x : ℝ} (hx : |x| < 1/10^4) : |besselJ1 x - sph 1 x| ≤ 1/10^19*(|x|^1/3) := by
  have hs := sph_series 1 (x := x) (by norm_num at hx ⊢; linarith)
  rw [poly_one] at hs
  obtain ⟨u, hu⟩ : ∃ u, u = x^2 := ⟨_, rfl⟩
  have hu0 : 0 ≤ u := by rw [hu]; positivity
  have hu1 : u ≤ 1/10^8 := by
    rw [hu, ← sq_abs]
    have := pow_le_pow_left₀ (abs_nonneg x) hx.le 2
    norm_num at this ⊢
    linarith
  have hd : |(-1/3991680:ℝ)*u^4 + (1/518918400:ℝ)*u^5 + (-1/93405312000:ℝ)*u^6| ≤ 1/3991680*(1/10^8)^4 + 1/518918400*(1/10^8)^5 + 1/93405312000*(1/10^8)^6 := by
    have p4 : u^4 ≤ (1/10^8)^4 := pow_le_pow_left₀ hu0 hu1 4
    have n4 : 0 ≤ u^4 := by positivity
    have p5 : u^5 ≤ (1/10^8)^5 := pow_le_pow_left₀ hu0 hu1 5
    have n5 : 0 ≤ u^5 := by positivity
    have p6 : u^6 ≤ (1/10^8)^6 := pow_le_pow_left₀ hu0 hu1 6
    have n6 : 0 ≤ u^6 := by positivity
    rw [abs_le]
    constructor <;> linarith
  have h2 : |besselJ1 x - ((1/3:ℝ)*x^1 + (-1/30:ℝ)*x^3 + (1/840:ℝ)*x^5 + (-1/45360:ℝ)*x^7 + (1/3991680:ℝ)*x^9 + (-1/518918400:ℝ)*x^11 + (1/93405312000:ℝ)*x^13)| ≤ |x|^1*(1/3991680*(1/10^8)^4 + 1/518918400*(1/10^8)^5 + 1/93405312000*(1/10^8)^6) := by
    unfold besselJ1
    rw [if_pos hx]
    refine le_trans (le_of_eq ?_) (mul_le_mul_of_nonneg_left hd (by positivity))
    rw [← abs_pow, ← abs_mul, hu]
    congr 1
    ring
  rw [mul_assoc] at hs
  refine (close_of hs h2 (rem_le hx (n := 1) (m := 13) (by norm_num) (by positivity))).trans ?_
  have e : 1/10^19*(|x|^1/3) = |x|^1*(1/10^19/3) := by ring
  rw [e]
  exact mul_le_mul_of_nonneg_left (by norm_num) (by positivity)

theorem far_one {x : ℝ} (hx : ¬ |x| < 1/10^4) : besselJ1 x = sph 1 x := by
  have h0 : x ≠ 0 := by
    rintro rfl
    norm_num at hx
  unfold besselJ1
  rw [if_neg hx, sph_one h0]

theorem poly_two (x : ℝ) : (∑ k ∈ Finset.range 14, ((1/2*(-1)^(2/2)*wcoef 2 k*mom 2 k : ℚ):ℝ)*x^k) = (1/15:ℝ)*x^2 + (-1/210:ℝ)*x^4 + (1/7560:ℝ)*x^6 + (-1/498960:ℝ)*x^8 + (1/51891840:ℝ)*x^10 + (-1/7783776000:ℝ)*x^12 := by
  have q0 : (1/2*(-1)^(2/2)*wcoef 2 0*mom 2 0 : ℚ) = 0/1 := by decide +kernel
  have q1 : (1/2*(-1)^(2/2)*wcoef 2 1*mom 2 1 : ℚ) = 0/1 := by decide +kernel
  have q2 : (1/2*(-1)^(2/2)*wcoef 2 2*mom 2 2 : ℚ) = 1/15 := by decide +kernel
  have q3 : (1/2*(-1)^(2/2)*wcoef 2 3*mom 2 3 : ℚ) = 0/1 := by decide +kernel
  have q4 : (1/2*(-1)^(2/2)*wcoef 2 4*mom 2 4 : ℚ) = -1/210 := by decide +kernel
  have q5 : (1/2*(-1)^(2/2)*wcoef 2 5*mom 2 5 : ℚ) = 0/1 := by decide +kernel
  have q6 : (1/2*(-1)^(2/2)*wcoef 2 6*mom 2 6 : ℚ) = 1/7560 := by decide +kernel
  have q7 : (1/2*(-1)^(2/2)*wcoef 2 7*mom 2 7 : ℚ) = 0/1 := by decide +kernel
  have q8 : (1/2*(-1)^(2/2)*wcoef 2 8*mom 2 8 : ℚ) = -1/498960 := by decide +kernel
  have q9 : (1/2*(-1)^(2/2)*wcoef 2 9*mom 2 9 : ℚ) = 0/1 := by decide +kernel
  have q10 : (1/2*(-1)^(2/2)*wcoef 2 10*mom 2 10 : ℚ) = 1/51891840 := by decide +kernel
  have q11 : (1/2*(-1)^(2/2)*wcoef 2 11*mom 2 11 : ℚ) = 0/1 := by decide +kernel
  have q12 : (1/2*(-1)^(2/2)*wcoef 2 12*mom 2 12 : ℚ) = -1/7783776000 := by decide +kernel
  have q13 : (1/2*(-1)^(2/2)*wcoef 2 13*mom 2 13 : ℚ) = 0/1 := by decide +kernel
  simp only [Finset.sum_range_succ, Finset.sum_range_zero]
  rw [q0, q1, q2, q3, q4, q5, q6, q7, q8, q9, q10, q11, q12, q13]
  push_cast
  ring

theorem near_two {x : ℝ} (hx : |x| < 1/10^4) : |besselJ2 x - sph 2 x| ≤ 1/10^19*(|x|^2/15) := by
  have hs := sph_series 2 (x := x) (by norm_num at hx ⊢; linarith)
  rw [poly_two] at hs
  obtain ⟨u, hu⟩ : ∃ u, u = x^2 := ⟨_, rfl⟩
  have hu0 : 0 ≤ u := by rw [hu]; positivity
  have hu1 : u ≤ 1/10^8 := by
    rw [hu, ← sq_abs]
    have := pow_le_pow_left₀ (abs_nonneg x) hx.le 2
    norm_num at this ⊢
    linarith
  have hd : |(1/498960:ℝ)*u^3 + (-1/51891840:ℝ)*u^4 + (1/7783776000:ℝ)*u^5| ≤ 1/498960*(1/10^8)^3 + 1/51891840*(1/10^8)^4 + 1/7783776000*(1/10^8)^5 := by
    have p3 : u^3 ≤ (1/10^8)^3 := pow_le_pow_left₀ hu0 hu1 3
    have n3 : 0 ≤ u^3 := by positivity
    have p4 : u^4 ≤ (1/10^8)^4 := pow_le_pow_left₀ hu0 hu1 4
    have n4 : 0 ≤ u^4 := by positivity
    have p5 : u^5 ≤ (1/10^8)^5 := pow_le_pow_left₀ hu0 hu1 5
    have n5 : 0 ≤ u^5 := by positivity
    rw [abs_le]
    constructor <;> linarith
  have h2 : |besselJ2 x - ((1/15:ℝ)*x^2 + (-1/210:ℝ)*x^4 + (1/7560:ℝ)*x^6 + (-1/498960:ℝ)*x^8 + (1/51891840:ℝ)*x^10 + (-1/7783776000:ℝ)*x^12)| ≤ |x|^2*(1/498960*(1/10^8)^3 + 1/51891840*(1/10^8)^4 + 1/7783776000*(1/10^8)^5) := by
    unfold besselJ2
    rw [if_pos hx]
    refine le_trans (le_of_eq ?_) (mul_le_mul_of_nonneg_left hd (by positivity))
    rw [← abs_pow, ← abs_mul, hu]
    congr 1
    ring
  rw [mul_assoc] at hs
  refine (close_of hs h2 (rem_le hx (n := 2) (m := 12) (by norm_num) (by positivity))).trans ?_
  have e : 1/10^19*(|x|^2/15) = |x|^2*(1/10^19/15) := by ring
  rw [e]
  exact mul_le_mul_of_nonneg_left (by norm_num) (by positivity)

theorem far_two {x : ℝ} (hx : ¬ |x| < 1/10^4) : besselJ2 x = sph 2 x := by
  have h0 : x ≠ 0 := by
    rintro rfl
    norm_num at hx
  unfold besselJ2
  rw [if_neg hx, sph_two h0]

theorem poly_three (x : ℝ) : (∑ k ∈ Finset.range 14, ((1/2*(-1)^(3/2)*wcoef 3 k*mom 3 k : ℚ):ℝ)*x^k) = (1/105:ℝ)*x^3 + (-1/1890:ℝ)*x^5 + (1/83160:ℝ)*x^7 + (-1/6486480:ℝ)*x^9 + (1/778377600:ℝ)*x^11 + (-1/132324192000:ℝ)*x^13 := by
  have q0 : (1/2*(-1)^(3/2)*wcoef 3 0*mom 3 0 : ℚ) = 0/1 := by decide +kernel
  have q1 : (1/2*(-1)^(3/2)*wcoef 3 1*mom 3 1 : ℚ) = 0/1 := by decide +kernel
  have q2 : (1/2*(-1)^(3/2)*wcoef 3 2*mom 3 2 : ℚ) = 0/1 := by decide +kernel
  have q3 : (1/2*(-1)^(3/2)*wcoef 3 3*mom 3 3 : ℚ) = 1/105 := by decide +kernel
  have q4 : (1/2*(-1)^(3/2)*wcoef 3 4*mom 3 4 : ℚ) = 0/1 := by decide +kernel
  have q5 : (1/2*(-1)^(3/2)*wcoef 3 5*mom 3 5 : ℚ) = -1/1890 := by decide +kernel
  have q6 : (1/2*(-1)^(3/2)*wcoef 3 6*mom 3 6 : ℚ) = 0/1 := by decide +kernel
  have q7 : (1/2*(-1)^(3/2)*wcoef 3 7*mom 3 7 : ℚ) = 1/83160 := by decide +kernel
  have q8 : (1/2*(-1)^(3/2)*wcoef 3 8*mom 3 8 : ℚ) = 0/1 := by decide +kernel
  have q9 : (1/2*(-1)^(3/2)*wcoef 3 9*mom 3 9 : ℚ) = -1/6486480 := by decide +kernel
  have q10 : (1/2*(-1)^(3/2)*wcoef 3 10*mom 3 10 : ℚ) = 0/1 := by decide +kernel
  have q11 : (1/2*(-1)^(3/2)*wcoef 3 11*mom 3 11 : ℚ) = 1/778377600 := by decide +kernel
  have q12 : (1/2*(-1)^(3/2)*wcoef 3 12*mom 3 12 : ℚ) = 0/1 := by decide +kernel
  have q13 : (1/2*(-1)^(3/2)*wcoef 3 13*mom 3 13 : ℚ) = -1/132324192000 := by decide +kernel
  simp only [Finset.sum_range_succ, Finset.sum_range_zero]
  rw [q0, q1, q2, q3, q4, q5, q6, q7, q8, q9, q10, q11, q12, q13]
  push_cast
  ring

theorem near_three {x : ℝ} (hx : |x| < 1/10^4) : |besselJ3 x - sph 3 x| ≤ 1/10^19*(|x|^3/105) := by
  have hs := sph_series 3 (x := x) (by norm_num at hx ⊢; linarith)
  rw [poly_three] at hs
  obtain ⟨u, hu⟩ : ∃ u, u = x^2 := ⟨_, rfl⟩
  have hu0 : 0 ≤ u := by rw [hu]; positivity
  have hu1 : u ≤ 1/10^8 := by
    rw [hu, ← sq_abs]
    have := pow_le_pow_left₀ (abs_nonneg x) hx.le 2
    norm_num at this ⊢
    linarith
  have hd : |(1/6486480:ℝ)*u^3 + (-1/778377600:ℝ)*u^4 + (1/132324192000:ℝ)*u^5| ≤ 1/6486480*(1/10^8)^3 + 1/778377600*(1/10^8)^4 + 1/132324192000*(1/10^8)^5 := by
    have p3 : u^3 ≤ (1/10^8)^3 := pow_le_pow_left₀ hu0 hu1 3
    have n3 : 0 ≤ u^3 := by positivity
    have p4 : u^4 ≤ (1/10^8)^4 := pow_le_pow_left₀ hu0 hu1 4
    have n4 : 0 ≤ u^4 := by positivity
    have p5 : u^5 ≤ (1/10^8)^5 := pow_le_pow_left₀ hu0 hu1 5
    have n5 : 0 ≤ u^5 := by positivity
    rw [abs_le]
    constructor <;> linarith
  have h2 : |besselJ3 x - ((1/105:ℝ)*x^3 + (-1/1890:ℝ)*x^5 + (1/83160:ℝ)*x^7 + (-1/6486480:ℝ)*x^9 + (1/778377600:ℝ)*x^11 + (-1/132324192000:ℝ)*x^13)| ≤ |x|^3*(1/6486480*(1/10^8)^3 + 1/778377600*(1/10^8)^4 + 1/132324192000*(1/10^8)^5) := by
    unfold besselJ3
    rw [if_pos hx]
    refine le_trans (le_of_eq ?_) (mul_le_mul_of_nonneg_left hd (by positivity))
    rw [← abs_pow, ← abs_mul, hu]
    congr 1
    ring
  rw [mul_assoc] at hs
  refine (close_of hs h2 (rem_le hx (n := 3) (m := 11) (by norm_num) (by positivity))).trans ?_
  have e : 1/10^19*(|x|^3/105) = |x|^3*(1/10^19/105) := by ring
  rw [e]
  exact mul_le_mul_of_nonneg_left (by norm_num) (by positivity)

theorem far_three {x : ℝ} (hx : ¬ |x| < 1/10^4) : besselJ3 x = sph 3 x := by
  have h0 : x ≠ 0 := by
    rintro rfl
    norm_num at hx
  unfold besselJ3
  rw [if_neg hx, sph_three h0]

theorem poly_four (x : ℝ) : (∑ k ∈ Finset.range 14, ((1/2*(-1)^(4/2)*wcoef 4 k*mom 4 k : ℚ):ℝ)*x^k) = (1/945:ℝ)*x^4 + (-1/20790:ℝ)*x^6 + (1/1081080:ℝ)*x^8 + (-1/97297200:ℝ)*x^10 + (1/13232419200:ℝ)*x^12 := by
  have q0 : (1/2*(-1)^(4/2)*wcoef 4 0*mom 4 0 : ℚ) = 0/1 := by decide +kernel
  have q1 : (1/2*(-1)^(4/2)*wcoef 4 1*mom 4 1 : ℚ) = 0/1 := by decide +kernel
  have q2 : (1/2*(-1)^(4/2)*wcoef 4 2*mom 4 2 : ℚ) = 0/1 := by decide +kernel
  have q3 : (1/2*(-1)^(4/2)*wcoef 4 3*mom 4 3 : ℚ) = 0/1 := by decide +kernel
  have q4 : (1/2*(-1)^(4/2)*wcoef 4 4*mom 4 4 : ℚ) = 1/945 := by decide +kernel
  have q5 : (1/2*(-1)^(4/2)*wcoef 4 5*mom 4 5 : ℚ) = 0/1 := by decide +kernel
  have q6 : (1/2*(-1)^(4/2)*wcoef 4 6*mom 4 6 : ℚ) = -1/20790 := by decide +kernel
  have q7 : (1/2*(-1)^(4/2)*wcoef 4 7*mom 4 7 : ℚ) = 0/1 := by decide +kernel
  have q8 : (1/2*(-1)^(4/2)*wcoef 4 8*mom 4 8 : ℚ) = 1/1081080 := by decide +kernel
  have q9 : (1/2*(-1)^(4/2)*wcoef 4 9*mom 4 9 : ℚ) = 0/1 := by decide +kernel
  have q10 : (1/2*(-1)^(4/2)*wcoef 4 10*mom 4 10 : ℚ) = -1/97297200 := by decide +kernel
  have q11 : (1/2*(-1)^(4/2)*wcoef 4 11*mom 4 11 : ℚ) = 0/1 := by decide +kernel
  have q12 : (1/2*(-1)^(4/2)*wcoef 4 12*mom 4 12 : ℚ) = 1/13232419200 := by decide +kernel
  have q13 : (1/2*(-1)^(4/2)*wcoef 4 13*mom 4 13 : ℚ) = 0/1 := by decide +kernel
  simp only [Finset.sum_range_succ, Finset.sum_range_zero]
  rw [q0, q1, q2, q3, q4, q5, q6, q7, q8, q9, q10, q11, q12, q13]
  push_cast
  ring

theorem near_four {x : ℝ} (hx : |x| < 1/10^4) : |besselJ4 x - sph 4 x| ≤ 1/10^19*(|x|^4/945) := by
  have hs := sph_series 4 (x := x) (by norm_num at hx ⊢; linarith)
  rw [poly_four] at hs
  obtain ⟨u, hu⟩ : ∃ u, u = x^2 := ⟨_, rfl⟩
  have hu0 : 0 ≤ u := by rw [hu]; positivity
  have hu1 : u ≤ 1/10^8 := by
    rw [hu, ← sq_abs]
    have := pow_le_pow_left₀ (abs_nonneg x) hx.le 2
    norm_num at this ⊢
    linarith
  have hd : |(-1/1081080:ℝ)*u^2 + (1/97297200:ℝ)*u^3 + (-1/13232419200:ℝ)*u^4| ≤ 1/1081080*(1/10^8)^2 + 1/97297200*(1/10^8)^3 + 1/13232419200*(1/10^8)^4 := by
    have p2 : u^2 ≤ (1/10^8)^2 := pow_le_pow_left₀ hu0 hu1 2
    have n2 : 0 ≤ u^2 := by positivity
    have p3 : u^3 ≤ (1/10^8)^3 := pow_le_pow_left₀ hu0 hu1 3
    have n3 : 0 ≤ u^3 := by positivity
    have p4 : u^4 ≤ (1/10^8)^4 := pow_le_pow_left₀ hu0 hu1 4
    have n4 : 0 ≤ u^4 := by positivity
    rw [abs_le]
    constructor <;> linarith
  have h2 : |besselJ4 x - ((1/945:ℝ)*x^4 + (-1/20790:ℝ)*x^6 + (1/1081080:ℝ)*x^8 + (-1/97297200:ℝ)*x^10 + (1/13232419200:ℝ)*x^12)| ≤ |x|^4*(1/1081080*(1/10^8)^2 + 1/97297200*(1/10^8)^3 + 1/13232419200*(1/10^8)^4) := by
    unfold besselJ4
    rw [if_pos hx]
    refine le_trans (le_of_eq ?_) (mul_le_mul_of_nonneg_left hd (by positivity))
    rw [← abs_pow, ← abs_mul, hu]
    congr 1
    ring
  rw [mul_assoc] at hs
  refine (close_of hs h2 (rem_le hx (n := 4) (m := 10) (by norm_num) (by positivity))).trans ?_
  have e : 1/10^19*(|x|^4/945) = |x|^4*(1/10^19/945) := by ring
  rw [e]
  exact mul_le_mul_of_nonneg_left (by norm_num) (by positivity)

theorem far_four {x : ℝ} (hx : ¬ |x| < 1/10^4) : besselJ4 x = sph 4 x := by
  have h0 : x ≠ 0 := by
    rintro rfl
    norm_num at hx
  unfold besselJ4
  rw [if_neg hx, sph_four h0]

theorem poly_six (x : ℝ) : (∑ k ∈ Finset.range 14, ((1/2*(-1)^(6/2)*wcoef 6 k*mom 6 k : ℚ):ℝ)*x^k) = (1/135135:ℝ)*x^6 + (-1/4054050:ℝ)*x^8 + (1/275675400:ℝ)*x^10 + (-1/31426995600:ℝ)*x^12 := by
  have q0 : (1/2*(-1)^(6/2)*wcoef 6 0*mom 6 0 : ℚ) = 0/1 := by decide +kernel
  have q1 : (1/2*(-1)^(6/2)*wcoef 6 1*mom 6 1 : ℚ) = 0/1 := by decide +kernel
  have q2 : (1/2*(-1)^(6/2)*wcoef 6 2*mom 6 2 : ℚ) = 0/1 := by decide +kernel
  have q3 : (1/2*(-1)^(6/2)*wcoef 6 3*mom 6 3 : ℚ) = 0/1 := by decide +kernel
  have q4 : (1/2*(-1)^(6/2)*wcoef 6 4*mom 6 4 : ℚ) = 0/1 := by decide +kernel
  have q5 : (1/2*(-1)^(6/2)*wcoef 6 5*mom 6 5 : ℚ) = 0/1 := by decide +kernel
  have q6 : (1/2*(-1)^(6/2)*wcoef 6 6*mom 6 6 : ℚ) = 1/135135 := by decide +kernel
  have q7 : (1/2*(-1)^(6/2)*wcoef 6 7*mom 6 7 : ℚ) = 0/1 := by decide +kernel
  have q8 : (1/2*(-1)^(6/2)*wcoef 6 8*mom 6 8 : ℚ) = -1/4054050 := by decide +kernel
  have q9 : (1/2*(-1)^(6/2)*wcoef 6 9*mom 6 9 : ℚ) = 0/1 := by decide +kernel
  have q10 : (1/2*(-1)^(6/2)*wcoef 6 10*mom 6 10 : ℚ) = 1/275675400 := by decide +kernel
  have q11 : (1/2*(-1)^(6/2)*wcoef 6 11*mom 6 11 : ℚ) = 0/1 := by decide +kernel
  have q12 : (1/2*(-1)^(6/2)*wcoef 6 12*mom 6 12 : ℚ) = -1/31426995600 := by decide +kernel
  have q13 : (1/2*(-1)^(6/2)*wcoef 6 13*mom 6 13 : ℚ) = 0/1 := by decide +kernel
  simp only [Finset.sum_range_succ, Finset.sum_range_zero]
  rw [q0, q1, q2, q3, q4, q5, q6, q7, q8, q9, q10, q11, q12, q13]
  push_cast
  ring

theorem near_six {x : ℝ} (hx : |x| < 1/10^4) : |besselJ6 x - sph 6 x| ≤ 1/10^19*(|x|^6/135135) := by
  have hs := sph_series 6 (x := x) (by norm_num at hx ⊢; linarith)
  rw [poly_six] at hs
  obtain ⟨u, hu⟩ : ∃ u, u = x^2 := ⟨_, rfl⟩
  have hu0 : 0 ≤ u := by rw [hu]; positivity
  have hu1 : u ≤ 1/10^8 := by
    rw [hu, ← sq_abs]
    have := pow_le_pow_left₀ (abs_nonneg x) hx.le 2
    norm_num at this ⊢
    linarith
  have hd : |(-1/275675400:ℝ)*u^2 + (1/31426995600:ℝ)*u^3| ≤ 1/275675400*(1/10^8)^2 + 1/31426995600*(1/10^8)^3 := by
    have p2 : u^2 ≤ (1/10^8)^2 := pow_le_pow_left₀ hu0 hu1 2
    have n2 : 0 ≤ u^2 := by positivity
    have p3 : u^3 ≤ (1/10^8)^3 := pow_le_pow_left₀ hu0 hu1 3
    have n3 : 0 ≤ u^3 := by positivity
    rw [abs_le]
    constructor <;> linarith
  have h2 : |besselJ6 x - ((1/135135:ℝ)*x^6 + (-1/4054050:ℝ)*x^8 + (1/275675400:ℝ)*x^10 + (-1/31426995600:ℝ)*x^12)| ≤ |x|^6*(1/275675400*(1/10^8)^2 + 1/31426995600*(1/10^8)^3) := by
    unfold besselJ6
    rw [if_pos hx]
    refine le_trans (le_of_eq ?_) (mul_le_mul_of_nonneg_left hd (by positivity))
    rw [← abs_pow, ← abs_mul, hu]
    congr 1
    ring
  rw [mul_assoc] at hs
  refine (close_of hs h2 (rem_le hx (n := 6) (m := 8) (by norm_num) (by positivity))).trans ?_
  have e : 1/10^19*(|x|^6/135135) = |x|^6*(1/10^19/135135) := by ring
  rw [e]
  exact mul_le_mul_of_nonneg_left (by norm_num) (by positivity)

theorem far_six {x : ℝ} (hx : ¬ |x| < 1/10^4) : besselJ6 x = sph 6 x := by
  have h0 : x ≠ 0 := by
    rintro rfl
    norm_num at hx
  unfold besselJ6
  rw [if_neg hx, sph_six h0]

theorem poly_eight (x : ℝ) : (∑ k ∈ Finset.range 14, ((1/2*(-1)^(8/2)*wcoef 8 k*mom 8 k : ℚ):ℝ)*x^k) = (1/34459425:ℝ)*x^8 + (-1/1309458150:ℝ)*x^10 + (1/109994484600:ℝ)*x^12 := by
  have q0 : (1/2*(-1)^(8/2)*wcoef 8 0*mom 8 0 : ℚ) = 0/1 := by decide +kernel
  have q1 : (1/2*(-1)^(8/2)*wcoef 8 1*mom 8 1 : ℚ) = 0/1 := by decide +kernel
  have q2 : (1/2*(-1)^(8/2)*wcoef 8 2*mom 8 2 : ℚ) = 0/1 := by decide +kernel
  have q3 : (1/2*(-1)^(8/2)*wcoef 8 3*mom 8 3 : ℚ) = 0/1 := by decide +kernel
  have q4 : (1/2*(-1)^(8/2)*wcoef 8 4*mom 8 4 : ℚ) = 0/1 := by decide +kernel
  have q5 : (1/2*(-1)^(8/2)*wcoef 8 5*mom 8 5 : ℚ) = 0/1 := by decide +kernel
  have q6 : (1/2*(-1)^(8/2)*wcoef 8 6*mom 8 6 : ℚ) = 0/1 := by decide +kernel
  have q7 : (1/2*(-1)^(8/2)*wcoef 8 7*mom 8 7 : ℚ) = 0/1 := by decide +kernel
  have q8 : (1/2*(-1)^(8/2)*wcoef 8 8*mom 8 8 : ℚ) = 1/34459425 := by decide +kernel
  have q9 : (1/2*(-1)^(8/2)*wcoef 8 9*mom 8 9 : ℚ) = 0/1 := by decide +kernel
  have q10 : (1/2*(-1)^(8/2)*wcoef 8 10*mom 8 10 : ℚ) = -1/1309458150 := by decide +kernel
  have q11 : (1/2*(-1)^(8/2)*wcoef 8 11*mom 8 11 : ℚ) = 0/1 := by decide +kernel
  have q12 : (1/2*(-1)^(8/2)*wcoef 8 12*mom 8 12 : ℚ) = 1/109994484600 := by decide +kernel
  have q13 : (1/2*(-1)^(8/2)*wcoef 8 13*mom 8 13 : ℚ) = 0/1 := by decide +kernel
  simp only [Finset.sum_range_succ, Finset.sum_range_zero]
  rw [q0, q1, q2, q3, q4, q5, q6, q7, q8, q9, q10, q11, q12, q13]
  push_cast
  ring

theorem near_eight {x : ℝ} (hx : |x| < 1/10^4) : |besselJ8 x - sph 8 x| ≤ 1/10^19*(|x|^8/34459425) := by
  have hs := sph_series 8 (x := x) (by norm_num at hx ⊢; linarith)
  rw [poly_eight] at hs
  obtain ⟨u, hu⟩ : ∃ u, u = x^2 := ⟨_, rfl⟩
  have hu0 : 0 ≤ u := by rw [hu]; positivity
  have hu1 : u ≤ 1/10^8 := by
    rw [hu, ← sq_abs]
    have := pow_le_pow_left₀ (abs_nonneg x) hx.le 2
    norm_num at this ⊢
    linarith
  have hd : |(-1/109994484600:ℝ)*u^2| ≤ 1/109994484600*(1/10^8)^2 := by
    have p2 : u^2 ≤ (1/10^8)^2 := pow_le_pow_left₀ hu0 hu1 2
    have n2 : 0 ≤ u^2 := by positivity
    rw [abs_le]
    constructor <;> linarith
  have h2 : |besselJ8 x - ((1/34459425:ℝ)*x^8 + (-1/1309458150:ℝ)*x^10 + (1/109994484600:ℝ)*x^12)| ≤ |x|^8*(1/109994484600*(1/10^8)^2) := by
    unfold besselJ8
    rw [if_pos hx]
    refine le_trans (le_of_eq ?_) (mul_le_mul_of_nonneg_left hd (by positivity))
    rw [← abs_pow, ← abs_mul, hu]
    congr 1
    ring
  rw [mul_assoc] at hs
  refine (close_of hs h2 (rem_le hx (n := 8) (m := 6) (by norm_num) (by positivity))).trans ?_
  have e : 1/10^19*(|x|^8/34459425) = |x|^8*(1/10^19/34459425) := by ring
  rw [e]
  exact mul_le_mul_of_nonneg_left (by norm_num) (by positivity)

theorem far_eight {x : ℝ} (hx : ¬ |x| < 1/10^4) : besselJ8 x = sph 8 x := by
  have h0 : x ≠ 0 := by
    rintro rfl
    norm_num at hx
  unfold besselJ8
  rw [if_neg hx, sph_eight h0]

end Verif.Xi
