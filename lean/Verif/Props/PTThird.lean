/-
C104: the kernels of `Jmn` are the angular averages of the third-order kernels of standard perturbation theory.

`q` runs over the sphere of radius `q` around the origin, with `k` fixed, and the line of sight at the angle of cosine `μ` to `k`; the formulas hold for `q < 60 k`, beyond that the
code uses other ones (C99).
-/
import Verif.Lemmas.SPT
import Mathlib.Analysis.Complex.ExponentialBounds

namespace Verif.PT

open Verif.SPT Verif.PTSpec Real

/-- The line-of-sight velocity of a mode `p`, `(p·n)/p²`, in units of `1/K` -/
noncomputable def losv (K : ℝ) (n p : V) : ℝ := K * SPT.dot p n / SPT.dot p p

theorem avg_const (c : ℝ) : avg (fun _ => c) = c := by
  have := Real.pi_pos.ne'
  simp only [avg, intervalIntegral.integral_const, smul_eq_mul, sub_zero]
  field_simp

theorem mean_const (F : ℝ → ℝ) : mean (fun x _ => F x) = 1/2 * ∫ x in (-1:ℝ)..1, F x := by simp only [mean, avg_const]

section
variable {K q : ℝ} (hK : 0 < K) (hq : 0 < q) (hne : q ≠ K)
include hK hq hne

theorem ratio_ne : q/K ≠ 1 := by rw [ne_eq, div_eq_one_iff_eq hK.ne']; exact hne

theorem mean_F3 : (q/K)^2 * mean (fun x _ => F3 (kvec K) (qvec q x) (-qvec q x)) = g00x (q/K) := by
  have hr := ratio_ne hK hq hne
  have hr0 := div_pos hq hK
  rw [mean_const]
  have e : ∫ x in (-1:ℝ)..1, F3 (kvec K) (qvec q x) (-qvec q x) = ∫ x in (-1:ℝ)..1, 1/(252*(q/K)^2) *
      (((20*(q/K)^2 + 20*(q/K)^4) + (-42 - 88*(q/K)^2 - 118*(q/K)^4)*x^2 + (152*(q/K)^2 + 56*(q/K)^4)*x^4)/((1 + (q/K)^2 - 2*(q/K)*x)*(1 + (q/K)^2 + 2*(q/K)*x))) := by
    refine intervalIntegral.integral_congr fun x hx => ?_
    rw [Set.uIcc_of_le (by norm_num)] at hx
    simp only [F3_kqq (geo_frame hK hq hne hx)]
    rw [div_mul_div_comm]; congr 1; ring
  rw [e, intervalIntegral.integral_const_mul, integral_two hr hr0 _ _ _ rfl]
  generalize q/K = r at *
  have := hr0.ne'
  have h2 : (1 + r^2) ≠ 0 := by positivity
  simp only [g00x]
  field_simp
  ring

theorem mean_G3 : (q/K)^2 * mean (fun x _ => G3 (kvec K) (qvec q x) (-qvec q x)) = g11x (q/K) := by
  have hr := ratio_ne hK hq hne
  have hr0 := div_pos hq hK
  rw [mean_const]
  have e : ∫ x in (-1:ℝ)..1, G3 (kvec K) (qvec q x) (-qvec q x) = ∫ x in (-1:ℝ)..1, 1/(252*(q/K)^2) *
      (((-12*(q/K)^2 - 12*(q/K)^4) + (-42 - 24*(q/K)^2 - 54*(q/K)^4)*x^2 + (120*(q/K)^2 + 24*(q/K)^4)*x^4)/((1 + (q/K)^2 - 2*(q/K)*x)*(1 + (q/K)^2 + 2*(q/K)*x))) := by
    refine intervalIntegral.integral_congr fun x hx => ?_
    rw [Set.uIcc_of_le (by norm_num)] at hx
    simp only [G3_kqq (geo_frame hK hq hne hx)]
    rw [div_mul_div_comm]; congr 1; ring
  rw [e, intervalIntegral.integral_const_mul, integral_two hr hr0 _ _ _ rfl]
  generalize q/K = r at *
  have := hr0.ne'
  have h2 : (1 + r^2) ≠ 0 := by positivity
  simp only [g11x]
  field_simp
  ring

end

/-- the scalar products with the line of sight -/
theorem dot_los (K q x μ φ : ℝ) : SPT.dot (kvec K) (los μ φ) = K*μ ∧ SPT.dot (qvec q x) (los μ φ) = q*x*μ + q*√(1 - x^2)*√(1 - μ^2)*cos φ := by
  simp only [SPT.dot, kvec, qvec, los]; constructor <;> ring

section
variable {K q x μ : ℝ} (hK : 0 < K) (hq : 0 < q) (hne : q ≠ K) (hx : x ∈ Set.Icc (-1:ℝ) 1)
include hK hq hne hx

/-- the length of `k - q` -/
theorem sq_diff : SPT.dot (kvec K + -qvec q x) (kvec K + -qvec q x) = K^2*(1 + (q/K)^2 - 2*(q/K)*x) := by
  obtain ⟨h1, h2, h3⟩ := dot_frame K q x hx
  have := hK.ne'
  rw [dot_add_left, dot_add_right, dot_add_right, dot_neg_left, dot_neg_left, dot_neg_right, dot_neg_right, SPT.dot_comm (qvec q x) (kvec K), h1, h2, h3]
  field_simp; ring

/-- averages over the azimuth of the velocities of `q` and `k - q` -/
theorem avg_vq : avg (fun φ => losv K (los μ φ) (qvec q x)) = μ*(x/(q/K)) := by
  obtain ⟨h1, h2, h3⟩ := dot_frame K q x hx
  have hK0 := hK.ne'; have hq0 := hq.ne'
  have e : (fun φ => losv K (los μ φ) (qvec q x)) = fun φ => (K*(q*x*μ)/q^2) + (K*(q*√(1 - x^2)*√(1 - μ^2))/q^2)*cos φ + 0*cos φ^2 + 0*cos φ^3 + 0*cos φ^4 := by
    funext φ; rw [losv, h2, (dot_los K q x μ φ).2]; ring
  rw [e, avg_poly]; field_simp; ring

theorem avg_vm : avg (fun φ => losv K (los μ φ) (kvec K + -qvec q x)) = μ*((1 - (q/K)*x)/(1 + (q/K)^2 - 2*(q/K)*x)) := by
  have hd := (geo_frame hK hq hne hx).dm
  have hK0 := hK.ne'
  have hs := sq_diff hK hq hne hx
  obtain ⟨A, hA⟩ : ∃ A, A = 1 + (q/K)^2 - 2*(q/K)*x := ⟨_, rfl⟩
  rw [← hA] at hd hs ⊢
  have e : (fun φ => losv K (los μ φ) (kvec K + -qvec q x)) = fun φ => (K*(K*μ - q*x*μ)/(K^2*A)) + (-(K*(q*√(1 - x^2)*√(1 - μ^2))/(K^2*A)))*cos φ + 0*cos φ^2 + 0*cos φ^3 + 0*cos φ^4 := by
    funext φ; rw [losv, hs, dot_add_left, dot_neg_left, (dot_los K q x μ φ).2, (dot_los K q x μ φ).1]; ring
  rw [e, avg_poly]; field_simp; ring

theorem avg_vq2 (hμ : μ^2 ≤ 1) : avg (fun φ => losv K (los μ φ) (qvec q x) ^ 2) = (x^2*μ^2 + (1 - x^2)*(1 - μ^2)/2)/(q/K)^2 := by
  obtain ⟨h1, h2, h3⟩ := dot_frame K q x hx
  have hK0 := hK.ne'; have hq0 := hq.ne'
  have sx : √(1 - x^2)^2 = 1 - x^2 := Real.sq_sqrt (by obtain ⟨a, b⟩ := hx; nlinarith)
  have sm : √(1 - μ^2)^2 = 1 - μ^2 := Real.sq_sqrt (by linarith)
  have e : (fun φ => losv K (los μ φ) (qvec q x) ^ 2) = fun φ => (K*(q*x*μ)/q^2)^2 + (2*(K*(q*x*μ)/q^2)*(K*(q*√(1 - x^2)*√(1 - μ^2))/q^2))*cos φ +
      (K^2*(q^2*√(1 - x^2)^2*√(1 - μ^2)^2)/q^4)*cos φ^2 + 0*cos φ^3 + 0*cos φ^4 := by
    funext φ; rw [losv, h2, (dot_los K q x μ φ).2]; ring
  rw [e, avg_poly, sx, sm]; field_simp; ring

theorem avg_vqvm (hμ : μ^2 ≤ 1) : avg (fun φ => losv K (los μ φ) (qvec q x) * losv K (los μ φ) (kvec K + -qvec q x)) =
    ((q/K)*x*μ^2 - (q/K)^2*(x^2*μ^2 + (1 - x^2)*(1 - μ^2)/2))/((q/K)^2*(1 + (q/K)^2 - 2*(q/K)*x)) := by
  have hd := (geo_frame hK hq hne hx).dm
  obtain ⟨h1, h2, h3⟩ := dot_frame K q x hx
  have hK0 := hK.ne'; have hq0 := hq.ne'
  have hs := sq_diff hK hq hne hx
  obtain ⟨A, hA⟩ : ∃ A, A = 1 + (q/K)^2 - 2*(q/K)*x := ⟨_, rfl⟩
  rw [← hA] at hd hs ⊢
  have sx : √(1 - x^2)^2 = 1 - x^2 := Real.sq_sqrt (by obtain ⟨a, b⟩ := hx; nlinarith)
  have sm : √(1 - μ^2)^2 = 1 - μ^2 := Real.sq_sqrt (by linarith)
  have e : (fun φ => losv K (los μ φ) (qvec q x) * losv K (los μ φ) (kvec K + -qvec q x)) = fun φ => (K*(q*x*μ)/q^2)*(K*(K*μ - q*x*μ)/(K^2*A)) +
      ((K*(q*√(1 - x^2)*√(1 - μ^2))/q^2)*(K*(K*μ - q*x*μ)/(K^2*A)) - (K*(q*x*μ)/q^2)*(K*(q*√(1 - x^2)*√(1 - μ^2))/(K^2*A)))*cos φ +
      (-(K^2*(q^2*√(1 - x^2)^2*√(1 - μ^2)^2)/(q^2*(K^2*A))))*cos φ^2 + 0*cos φ^3 + 0*cos φ^4 := by
    funext φ; rw [losv, losv, h2, hs, dot_add_left, dot_neg_left, (dot_los K q x μ φ).2, (dot_los K q x μ φ).1]; ring
  rw [e, avg_poly, sx, sm]; field_simp; ring

theorem F2_km : SPT.F2 (kvec K) (-qvec q x) = 5/7 - x/2*((q/K) + 1/(q/K)) + 2/7*x^2 := by rw [F2_kq (geo_frame hK hq hne hx).neg]; ring
theorem G2_km : SPT.G2 (kvec K) (-qvec q x) = 3/7 - x/2*((q/K) + 1/(q/K)) + 4/7*x^2 := by rw [G2_kq (geo_frame hK hq hne hx).neg]; ring
end

theorem avg_mul (c : ℝ) (F : ℝ → ℝ) : avg (fun φ => c * F φ) = c * avg F := by
  simp only [avg, intervalIntegral.integral_const_mul]; ring

section
variable {K q μ : ℝ} (hK : 0 < K) (hq : 0 < q) (hne : q ≠ K)
include hK hq hne

theorem int_FG : ∫ x in (-1:ℝ)..1, (SPT.F2 (kvec K) (-qvec q x) * (x/(q/K)) + SPT.G2 (kvec K) (-qvec q x) * ((1 - (q/K)*x)/(1 + (q/K)^2 - 2*(q/K)*x))) = 6/(q/K)^2 * g10x (q/K) := by
  have hr := ratio_ne hK hq hne
  have hr0 := div_pos hq hK
  have e : ∫ x in (-1:ℝ)..1, (SPT.F2 (kvec K) (-qvec q x) * (x/(q/K)) + SPT.G2 (kvec K) (-qvec q x) * ((1 - (q/K)*x)/(1 + (q/K)^2 - 2*(q/K)*x))) =
      ∫ x in (-1:ℝ)..1, 1/(14*(q/K)^2) * ((6*(q/K)^2 + (3*(q/K) - 3*(q/K)^3)*x + (-7 - 19*(q/K)^2)*x^2 + (18*(q/K) + 10*(q/K)^3)*x^3 + (-8*(q/K)^2)*x^4)/(1 + (q/K)^2 - 2*(q/K)*x)) := by
    refine intervalIntegral.integral_congr fun x hx => ?_
    rw [Set.uIcc_of_le (by norm_num)] at hx
    simp only [F2_km hK hq hne hx, G2_km hK hq hne hx]
    have hd := (geo_frame hK hq hne hx).dm
    generalize q/K = r at *
    have := hr0.ne'
    obtain ⟨A, hA⟩ : ∃ A, A = 1 + r^2 - 2*r*x := ⟨_, rfl⟩
    rw [← hA] at hd ⊢
    field_simp
    rw [hA]
    ring
  rw [e, intervalIntegral.integral_const_mul, integral_one hr hr0 _ _ _ _ _ rfl rfl rfl rfl]
  generalize q/K = r at *
  have := hr0.ne'
  simp only [g10x]
  field_simp
  ring

theorem int_Gvv : ∫ x in (-1:ℝ)..1, SPT.G2 (kvec K) (-qvec q x) *
      (((q/K)*x*μ^2 - (q/K)^2*(x^2*μ^2 + (1 - x^2)*(1 - μ^2)/2))/((q/K)^2*(1 + (q/K)^2 - 2*(q/K)*x))) = 1/(q/K)^2 * (g02x (q/K) + μ^2*g20x (q/K)) := by
  have hr := ratio_ne hK hq hne
  have hr0 := div_pos hq hK
  have e : ∫ x in (-1:ℝ)..1, SPT.G2 (kvec K) (-qvec q x) *
      (((q/K)*x*μ^2 - (q/K)^2*(x^2*μ^2 + (1 - x^2)*(1 - μ^2)/2))/((q/K)^2*(1 + (q/K)^2 - 2*(q/K)*x))) =
      ∫ x in (-1:ℝ)..1, 1/(28*(q/K)^3) * ((-6*(q/K)^3*(1 - μ^2) + (12*(q/K)^2*μ^2 + 7*(1 + (q/K)^2)*(q/K)^2*(1 - μ^2))*x +
        (6*(q/K)^3*(1 - 3*μ^2) - 14*(q/K)*μ^2*(1 + (q/K)^2) - 8*(q/K)^3*(1 - μ^2))*x^2 + (-7*(1 + (q/K)^2)*(q/K)^2*(1 - 3*μ^2) + 16*(q/K)^2*μ^2)*x^3 +
        (8*(q/K)^3*(1 - 3*μ^2))*x^4)/(1 + (q/K)^2 - 2*(q/K)*x)) := by
    refine intervalIntegral.integral_congr fun x hx => ?_
    rw [Set.uIcc_of_le (by norm_num)] at hx
    simp only [G2_km hK hq hne hx]
    have hd := (geo_frame hK hq hne hx).dm
    generalize q/K = r at *
    have := hr0.ne'
    obtain ⟨A, hA⟩ : ∃ A, A = 1 + r^2 - 2*r*x := ⟨_, rfl⟩
    rw [← hA] at hd ⊢
    field_simp
    ring
  rw [e, intervalIntegral.integral_const_mul, integral_one hr hr0 _ _ _ _ _ rfl rfl rfl rfl]
  generalize q/K = r at *
  have := hr0.ne'
  simp only [g02x, g20x]
  field_simp
  ring

end

theorem g01x_eq {r : ℝ} (hr : r ≠ 0) : g01x r = (g00x r + g11x r)/2 := by
  simp only [g00x, g01x, g11x]; field_simp; ring
theorem g10x_eq {r : ℝ} (hr : r ≠ 0) : 3*g00x r = g11x r + 2*g10x r := by
  simp only [g00x, g10x, g11x]; field_simp; ring

/-! ### The statements -/

theorem avg_add {F G : ℝ → ℝ} (hF : Continuous F) (hG : Continuous G) : avg (fun φ => F φ + G φ) = avg F + avg G := by
  simp only [avg]
  rw [intervalIntegral.integral_add (hF.intervalIntegrable _ _) (hG.intervalIntegrable _ _)]; ring

theorem losv_cont (K μ : ℝ) (p : V) : Continuous fun φ => losv K (los μ φ) p := by
  unfold losv SPT.dot los
  fun_prop

theorem mean_congr {F G : ℝ → ℝ → ℝ} (h : ∀ x ∈ Set.Icc (-1:ℝ) 1, avg (F x) = avg (G x)) : mean F = mean G := by
  unfold mean
  congr 1
  refine intervalIntegral.integral_congr fun x hx => h x ?_
  rwa [Set.uIcc_of_le (by norm_num)] at hx

section
variable {K q : ℝ} (hK : 0 < K) (hq : 0 < q) (hne : q ≠ K) (hr : q < 60*K)
include hK hq hne hr

theorem lt60 : q/K < 60 := by rw [div_lt_iff₀ hK]; exact hr

/-- `g00`: the third-order density -/
theorem C104_density : g00 (q/K) = (q/K)^2 * mean (fun x _ => SPT.F3 (kvec K) (qvec q x) (-qvec q x)) := by
  rw [mean_F3 hK hq hne, g00, if_pos (lt60 hK hq hne hr)]

/-- `g11`: the third-order velocity divergence -/
theorem C104_divergence : g11 (q/K) = (q/K)^2 * mean (fun x _ => SPT.G3 (kvec K) (qvec q x) (-qvec q x)) := by
  rw [mean_G3 hK hq hne, g11, if_pos (lt60 hK hq hne hr)]

/-- `g01`: half of each -/
theorem C104_cross : g01 (q/K) = 1/2 * ((q/K)^2 * mean (fun x _ => SPT.F3 (kvec K) (qvec q x) (-qvec q x))) +
    1/2 * ((q/K)^2 * mean (fun x _ => SPT.G3 (kvec K) (qvec q x) (-qvec q x))) := by
  rw [mean_F3 hK hq hne, mean_G3 hK hq hne, g01, if_pos (lt60 hK hq hne hr), g01x_eq (div_pos hq hK).ne']; ring

theorem mean_momentum (μ : ℝ) : mean (fun x φ => SPT.F2 (kvec K) (-qvec q x) * losv K (los μ φ) (qvec q x) + SPT.G2 (kvec K) (-qvec q x) * losv K (los μ φ) (kvec K - qvec q x)) =
    3/(q/K)^2 * (μ * g10x (q/K)) := by
  unfold mean
  have e : ∫ x in (-1:ℝ)..1, avg (fun φ => SPT.F2 (kvec K) (-qvec q x) * losv K (los μ φ) (qvec q x) + SPT.G2 (kvec K) (-qvec q x) * losv K (los μ φ) (kvec K - qvec q x)) =
      ∫ x in (-1:ℝ)..1, μ * (SPT.F2 (kvec K) (-qvec q x) * (x/(q/K)) + SPT.G2 (kvec K) (-qvec q x) * ((1 - (q/K)*x)/(1 + (q/K)^2 - 2*(q/K)*x))) := by
    refine intervalIntegral.integral_congr fun x hx => ?_
    rw [Set.uIcc_of_le (by norm_num)] at hx
    rw [avg_add ((losv_cont _ _ _).const_mul _) ((losv_cont _ _ _).const_mul _), avg_mul, avg_mul, sub_eq_add_neg, avg_vq hK hq hne hx, avg_vm hK hq hne hx]; ring
  rw [e, intervalIntegral.integral_const_mul, int_FG hK hq hne]; ring

/-- `g10`: the momentum of a linear mode carried by the second-order density, and the second-order velocity carried by a linear mode -/
theorem C104_momentum (μ : ℝ) : μ * g10 (q/K) =
    (q/K)^2/3 * mean (fun x φ => SPT.F2 (kvec K) (-qvec q x) * losv K (los μ φ) (qvec q x) + SPT.G2 (kvec K) (-qvec q x) * losv K (los μ φ) (kvec K - qvec q x)) := by
  have := (div_pos hq hK).ne'
  rw [mean_momentum hK hq hne hr, g10, if_pos (lt60 hK hq hne hr)]; field_simp

theorem mean_dispersion {μ : ℝ} (hμ : μ^2 ≤ 1) : mean (fun x φ => SPT.G2 (kvec K) (-qvec q x) * (losv K (los μ φ) (qvec q x) * losv K (los μ φ) (kvec K - qvec q x))) =
    1/(2*(q/K)^2) * (g02x (q/K) + μ^2*g20x (q/K)) := by
  unfold mean
  have e : ∫ x in (-1:ℝ)..1, avg (fun φ => SPT.G2 (kvec K) (-qvec q x) * (losv K (los μ φ) (qvec q x) * losv K (los μ φ) (kvec K - qvec q x))) =
      ∫ x in (-1:ℝ)..1, SPT.G2 (kvec K) (-qvec q x) *
        (((q/K)*x*μ^2 - (q/K)^2*(x^2*μ^2 + (1 - x^2)*(1 - μ^2)/2))/((q/K)^2*(1 + (q/K)^2 - 2*(q/K)*x))) := by
    refine intervalIntegral.integral_congr fun x hx => ?_
    rw [Set.uIcc_of_le (by norm_num)] at hx
    rw [avg_mul, sub_eq_add_neg, avg_vqvm hK hq hne hx hμ]
  rw [e, int_Gvv hK hq hne]
  have := (div_pos hq hK).ne'
  field_simp

/-- `g02` and `g20`: the product of the velocity of a linear mode and the second-order velocity, the coefficients of `1` and `μ²` -/
theorem C104_dispersion {μ : ℝ} (hμ : μ^2 ≤ 1) : g02 (q/K) + μ^2 * g20 (q/K) =
    2*(q/K)^2 * mean (fun x φ => SPT.G2 (kvec K) (-qvec q x) * (losv K (los μ φ) (qvec q x) * losv K (los μ φ) (kvec K - qvec q x))) := by
  have := (div_pos hq hK).ne'
  rw [mean_dispersion hK hq hne hr hμ, g02, g20, if_pos (lt60 hK hq hne hr), if_pos (lt60 hK hq hne hr)]; field_simp

end

/-- The hypotheses are met, and the values are not trivial: at `q = 2k` the average density kernel is not zero. -/
example : (0:ℝ) < 1 ∧ (0:ℝ) < 2 ∧ (2:ℝ) ≠ 1 ∧ (2:ℝ) < 60*1 ∧ mean (fun x _ => SPT.F3 (kvec 1) (qvec 2 x) (-qvec 2 x)) ≠ 0 := by
  refine ⟨by norm_num, by norm_num, by norm_num, by norm_num, fun h => ?_⟩
  have e := C104_density (K := 1) (q := 2) (by norm_num) (by norm_num) (by norm_num) (by norm_num)
  rw [h, mul_zero, g00, if_pos (by norm_num), g00x] at e
  norm_num at e
  have h3 : Real.log 3 = Real.log (3/2) + Real.log 2 := by rw [← Real.log_mul (by norm_num) (by norm_num)]; norm_num
  have h4 : Real.log (3/2) ≤ 3/2 - 1 := Real.log_le_sub_one_of_pos (by norm_num)
  have h5 := Real.log_two_lt_d9
  linarith

end Verif.PT
