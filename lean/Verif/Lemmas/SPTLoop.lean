/- Lemmas for C105: the angular average of the third-order kernel in redshift space. -/
import Verif.Props.PTThird

namespace Verif.SPT

theorem disp_neg (f : ℝ) (n k p : V) : disp f n k (-p) = -disp f n k p := by
  simp only [disp, dot_neg_left, dot_neg_right, neg_neg]; ring

theorem F3_perm (a b c : V) : F3 a b c = F3 a c b ∧ F3 a b c = F3 b a c ∧ F3 a b c = F3 b c a ∧ F3 a b c = F3 c a b ∧ F3 a b c = F3 c b a := by
  simp only [F3, sym3]; refine ⟨?_, ?_, ?_, ?_, ?_⟩ <;> ring
theorem G3_perm (a b c : V) : G3 a b c = G3 a c b ∧ G3 a b c = G3 b a c ∧ G3 a b c = G3 b c a ∧ G3 a b c = G3 c a b ∧ G3 a b c = G3 c b a := by
  simp only [G3, sym3]; refine ⟨?_, ?_, ?_, ?_, ?_⟩ <;> ring

theorem Z3_kqq (f : ℝ) (n k q : V) : Z3 f n k q (-q) = F3 k q (-q) + disp f n k k * G3 k q (-q) +
    1/3*(F2 k (-q) * disp f n k q + G2 k (-q) * disp f n k (k + -q)) + 1/3*(F2 k q * disp f n k (-q) + G2 k q * disp f n k (k + q)) +
    1/3*(G2 k (-q) * (disp f n k q * disp f n k (k + -q))) + 1/3*(G2 k q * (disp f n k (-q) * disp f n k (k + q))) - disp f n k q^2/6*(1 + disp f n k k) := by
  obtain ⟨a1, a2, a3, a4, a5⟩ := F3_perm k q (-q)
  obtain ⟨b1, b2, b3, b4, b5⟩ := G3_perm k q (-q)
  have e1 : k + q + -q = k := by abel
  have e2 : k + -q + q = k := by abel
  have e3 : q + k + -q = k := by abel
  have e4 : q + -q + k = k := by abel
  have e5 : -q + k + q = k := by abel
  have e6 : -q + q + k = k := by abel
  have e7 : q + -q = 0 := by abel
  have e8 : -q + q = 0 := by abel
  simp only [Z3, sym3, Z3r, e1, e2, e3, e4, e5, e6, e7, e8, ← a1, ← a2, ← a3, ← a4, ← a5, ← b1, ← b2, ← b3, ← b4, ← b5, add_comm q k, add_comm (-q) k, F2_comm q k, F2_comm (-q) k,
    G2_comm q k, G2_comm (-q) k, F2_opp, G2_opp, F2_comm (-q) q, G2_comm (-q) q, disp_neg]
  ring

end Verif.SPT

namespace Verif.PT

open Verif.SPT Verif.PTSpec Real

theorem disp_losv {K : ℝ} (f μ φ : ℝ) (p : V) : disp f (los μ φ) (kvec K) p = f*μ * losv K (los μ φ) p := by
  rw [disp, losv, (dot_los K 0 0 μ φ).1]; ring

theorem losv_k {K : ℝ} (hK : 0 < K) (μ φ : ℝ) : losv K (los μ φ) (kvec K) = μ := by
  have := hK.ne'
  rw [losv, (dot_los K 0 0 μ φ).1]; simp only [SPT.dot, kvec]; field_simp; ring

noncomputable section

/-- the integrands in terms of the ratio `r = q/k` and the cosine -/
def eF3 (r x : ℝ) : ℝ := (-42*x^2 + r^2*(20 - 88*x^2 + 152*x^4) + r^4*(20 - 118*x^2 + 56*x^4))/(252*r^2*((1 + r^2 - 2*r*x)*(1 + r^2 + 2*r*x)))
@[inherit_doc eF3] def eG3 (r x : ℝ) : ℝ := (-42*x^2 + r^2*(-12 - 24*x^2 + 120*x^4) + r^4*(-12 - 54*x^2 + 24*x^4))/(252*r^2*((1 + r^2 - 2*r*x)*(1 + r^2 + 2*r*x)))
@[inherit_doc eF3] def eT1 (r x : ℝ) : ℝ := (5/7 - x/2*(r + 1/r) + 2/7*x^2) * (x/r) + (3/7 - x/2*(r + 1/r) + 4/7*x^2) * ((1 - r*x)/(1 + r^2 - 2*r*x))
@[inherit_doc eF3] def eT2 (r μ x : ℝ) : ℝ := (3/7 - x/2*(r + 1/r) + 4/7*x^2) * ((r*x*μ^2 - r^2*(x^2*μ^2 + (1 - x^2)*(1 - μ^2)/2))/(r^2*(1 + r^2 - 2*r*x)))
@[inherit_doc eF3] def eT3 (r μ x : ℝ) : ℝ := (x^2*μ^2 + (1 - x^2)*(1 - μ^2)/2)/r^2

end

section
variable {r : ℝ} (hr : r ≠ 1) (hr0 : 0 < r)
include hr hr0

theorem eF3_cont : ContinuousOn (eF3 r) (Set.uIcc (-1) 1) := by
  unfold eF3
  refine ContinuousOn.div (by fun_prop) (by fun_prop) fun x hx => ?_
  obtain ⟨h1, h2⟩ := sides_ae hr hr0 x hx
  positivity
theorem eG3_cont : ContinuousOn (eG3 r) (Set.uIcc (-1) 1) := by
  unfold eG3
  refine ContinuousOn.div (by fun_prop) (by fun_prop) fun x hx => ?_
  obtain ⟨h1, h2⟩ := sides_ae hr hr0 x hx
  positivity
theorem eT1_cont : ContinuousOn (eT1 r) (Set.uIcc (-1) 1) := by
  unfold eT1
  refine ContinuousOn.add (by fun_prop) (ContinuousOn.mul (by fun_prop) (ContinuousOn.div (by fun_prop) (by fun_prop) fun x hx => ?_))
  exact (sides_ae hr hr0 x hx).1.ne'
theorem eT2_cont (μ : ℝ) : ContinuousOn (eT2 r μ) (Set.uIcc (-1) 1) := by
  unfold eT2
  refine ContinuousOn.mul (by fun_prop) (ContinuousOn.div (by fun_prop) (by fun_prop) fun x hx => ?_)
  have := (sides_ae hr hr0 x hx).1; positivity
omit hr hr0 in
theorem eT3_cont (μ : ℝ) : ContinuousOn (eT3 r μ) (Set.uIcc (-1) 1) := by
  unfold eT3; fun_prop
omit hr hr0 in
theorem neg_cont {F : ℝ → ℝ} (h : ContinuousOn F (Set.uIcc (-1) 1)) : ContinuousOn (fun x => F (-x)) (Set.uIcc (-1) 1) := by
  refine h.comp (by fun_prop) fun x hx => ?_
  rw [Set.uIcc_of_le (by norm_num)] at hx ⊢
  exact ⟨by linarith [hx.2], by linarith [hx.1]⟩
end

section
variable {K q x μ : ℝ} (hK : 0 < K) (hq : 0 < q) (hne : q ≠ K) (hx : x ∈ Set.Icc (-1:ℝ) 1)
include hK hq hne hx

/-- the length of `k + q` -/
theorem sq_sum : SPT.dot (kvec K + qvec q x) (kvec K + qvec q x) = K^2*(1 + (q/K)^2 + 2*(q/K)*x) := by
  obtain ⟨h1, h2, h3⟩ := dot_frame K q x hx
  have := hK.ne'
  rw [dot_add_left, dot_add_right, dot_add_right, SPT.dot_comm (qvec q x) (kvec K), h1, h2, h3]
  field_simp; ring

theorem avg_vp : avg (fun φ => losv K (los μ φ) (kvec K + qvec q x)) = μ*((1 + (q/K)*x)/(1 + (q/K)^2 + 2*(q/K)*x)) := by
  have hd := (geo_frame hK hq hne hx).dp
  have hK0 := hK.ne'
  have hs := sq_sum hK hq hne hx
  obtain ⟨A, hA⟩ : ∃ A, A = 1 + (q/K)^2 + 2*(q/K)*x := ⟨_, rfl⟩
  rw [← hA] at hd hs ⊢
  have e : (fun φ => losv K (los μ φ) (kvec K + qvec q x)) = fun φ => (K*(K*μ + q*x*μ)/(K^2*A)) + (K*(q*√(1 - x^2)*√(1 - μ^2))/(K^2*A))*cos φ + 0*cos φ^2 + 0*cos φ^3 + 0*cos φ^4 := by
    funext φ; rw [losv, hs, dot_add_left, (dot_los K q x μ φ).2, (dot_los K q x μ φ).1]; ring
  rw [e, avg_poly]; field_simp; ring

theorem avg_vqvp (hμ : μ^2 ≤ 1) : avg (fun φ => losv K (los μ φ) (qvec q x) * losv K (los μ φ) (kvec K + qvec q x)) =
    ((q/K)*x*μ^2 + (q/K)^2*(x^2*μ^2 + (1 - x^2)*(1 - μ^2)/2))/((q/K)^2*(1 + (q/K)^2 + 2*(q/K)*x)) := by
  have hd := (geo_frame hK hq hne hx).dp
  obtain ⟨h1, h2, h3⟩ := dot_frame K q x hx
  have hK0 := hK.ne'; have hq0 := hq.ne'
  have hs := sq_sum hK hq hne hx
  obtain ⟨A, hA⟩ : ∃ A, A = 1 + (q/K)^2 + 2*(q/K)*x := ⟨_, rfl⟩
  rw [← hA] at hd hs ⊢
  have sx : √(1 - x^2)^2 = 1 - x^2 := Real.sq_sqrt (by obtain ⟨a, b⟩ := hx; nlinarith)
  have sm : √(1 - μ^2)^2 = 1 - μ^2 := Real.sq_sqrt (by linarith)
  have e : (fun φ => losv K (los μ φ) (qvec q x) * losv K (los μ φ) (kvec K + qvec q x)) = fun φ => (K*(q*x*μ)/q^2)*(K*(K*μ + q*x*μ)/(K^2*A)) +
      ((K*(q*√(1 - x^2)*√(1 - μ^2))/q^2)*(K*(K*μ + q*x*μ)/(K^2*A)) + (K*(q*x*μ)/q^2)*(K*(q*√(1 - x^2)*√(1 - μ^2))/(K^2*A)))*cos φ +
      (K^2*(q^2*√(1 - x^2)^2*√(1 - μ^2)^2)/(q^2*(K^2*A)))*cos φ^2 + 0*cos φ^3 + 0*cos φ^4 := by
    funext φ; rw [losv, losv, h2, hs, dot_add_left, (dot_los K q x μ φ).2, (dot_los K q x μ φ).1]; ring
  rw [e, avg_poly, sx, sm]; field_simp; ring

theorem F2_kp : SPT.F2 (kvec K) (qvec q x) = 5/7 + x/2*((q/K) + 1/(q/K)) + 2/7*x^2 := F2_kq (geo_frame hK hq hne hx)
theorem G2_kp : SPT.G2 (kvec K) (qvec q x) = 3/7 + x/2*((q/K) + 1/(q/K)) + 4/7*x^2 := G2_kq (geo_frame hK hq hne hx)

/-- The azimuthal average of the third-order kernel -/
theorem avg_Z3 (f : ℝ) (hμ : μ^2 ≤ 1) : avg (fun φ => Z3 f (los μ φ) (kvec K) (qvec q x) (-qvec q x)) =
    eF3 (q/K) x + f*μ^2 * eG3 (q/K) x + f*μ^2/3 * eT1 (q/K) x + f*μ^2/3 * eT1 (q/K) (-x) + f^2*μ^2/3 * eT2 (q/K) μ x + f^2*μ^2/3 * eT2 (q/K) μ (-x)
      - f^2*μ^2*(1 + f*μ^2)/6 * eT3 (q/K) μ x := by
  have c := losv_cont K μ
  have e : (fun φ => Z3 f (los μ φ) (kvec K) (qvec q x) (-qvec q x)) = fun φ =>
      (((((((F3 (kvec K) (qvec q x) (-qvec q x) + f*μ^2 * G3 (kvec K) (qvec q x) (-qvec q x)) +
      (f*μ/3 * SPT.F2 (kvec K) (-qvec q x)) * losv K (los μ φ) (qvec q x)) + (f*μ/3 * SPT.G2 (kvec K) (-qvec q x)) * losv K (los μ φ) (kvec K + -qvec q x)) +
      (-(f*μ/3 * SPT.F2 (kvec K) (qvec q x))) * losv K (los μ φ) (qvec q x)) + (f*μ/3 * SPT.G2 (kvec K) (qvec q x)) * losv K (los μ φ) (kvec K + qvec q x)) +
      ((f*μ)^2/3 * SPT.G2 (kvec K) (-qvec q x)) * (losv K (los μ φ) (qvec q x) * losv K (los μ φ) (kvec K + -qvec q x))) +
      (-((f*μ)^2/3 * SPT.G2 (kvec K) (qvec q x))) * (losv K (los μ φ) (qvec q x) * losv K (los μ φ) (kvec K + qvec q x))) +
      (-((f*μ)^2/6*(1 + f*μ^2))) * losv K (los μ φ) (qvec q x) ^ 2 := by
    funext φ
    rw [Z3_kqq, disp_neg, disp_losv, disp_losv, disp_losv, disp_losv, losv_k hK]; ring
  rw [e, avg_add (by fun_prop) (by fun_prop), avg_add (by fun_prop) (by fun_prop), avg_add (by fun_prop) (by fun_prop), avg_add (by fun_prop) (by fun_prop),
    avg_add (by fun_prop) (by fun_prop), avg_add (by fun_prop) (by fun_prop), avg_add (by fun_prop) (by fun_prop)]
  simp only [avg_mul, avg_const]
  rw [avg_vq hK hq hne hx, avg_vm hK hq hne hx, avg_vp hK hq hne hx, avg_vqvm hK hq hne hx hμ, avg_vqvp hK hq hne hx hμ, avg_vq2 hK hq hne hx hμ,
    F2_km hK hq hne hx, G2_km hK hq hne hx, F2_kp hK hq hne hx, G2_kp hK hq hne hx, F3_kqq (geo_frame hK hq hne hx), G3_kqq (geo_frame hK hq hne hx)]
  simp only [eF3, eG3, eT1, eT2, eT3]
  generalize q/K = r
  have a1 : 1 + r^2 - 2*r*(-x) = 1 + r^2 + 2*r*x := by ring
  rw [a1]
  ring
end

section
variable {K q : ℝ} (hK : 0 < K) (hq : 0 < q) (hne : q ≠ K)
include hK hq hne

theorem int_eF3 : ∫ x in (-1:ℝ)..1, eF3 (q/K) x = 2/(q/K)^2 * g00x (q/K) := by
  have h := mean_F3 hK hq hne
  have h0 := (div_pos hq hK).ne'
  rw [mean_const] at h
  rw [← h, intervalIntegral.integral_congr fun x hx => ?_]
  rotate_left
  · exact fun x => F3 (kvec K) (qvec q x) (-qvec q x)
  · rw [Set.uIcc_of_le (by norm_num)] at hx
    exact (F3_kqq (geo_frame hK hq hne hx)).symm
  · field_simp
theorem int_eG3 : ∫ x in (-1:ℝ)..1, eG3 (q/K) x = 2/(q/K)^2 * g11x (q/K) := by
  have h := mean_G3 hK hq hne
  have h0 := (div_pos hq hK).ne'
  rw [mean_const] at h
  rw [← h, intervalIntegral.integral_congr fun x hx => ?_]
  rotate_left
  · exact fun x => G3 (kvec K) (qvec q x) (-qvec q x)
  · rw [Set.uIcc_of_le (by norm_num)] at hx
    exact (G3_kqq (geo_frame hK hq hne hx)).symm
  · field_simp
theorem int_eT1 : ∫ x in (-1:ℝ)..1, eT1 (q/K) x = 6/(q/K)^2 * g10x (q/K) := by
  rw [← int_FG hK hq hne]
  refine intervalIntegral.integral_congr fun x hx => ?_
  rw [Set.uIcc_of_le (by norm_num)] at hx
  simp only [F2_km hK hq hne hx, G2_km hK hq hne hx, eT1]
theorem int_eT2 (μ : ℝ) : ∫ x in (-1:ℝ)..1, eT2 (q/K) μ x = 1/(q/K)^2 * (g02x (q/K) + μ^2*g20x (q/K)) := by
  rw [← int_Gvv hK hq hne]
  refine intervalIntegral.integral_congr fun x hx => ?_
  rw [Set.uIcc_of_le (by norm_num)] at hx
  simp only [G2_km hK hq hne hx, eT2]
omit hne in
theorem int_eT3 (μ : ℝ) : ∫ x in (-1:ℝ)..1, eT3 (q/K) μ x = 2/3/(q/K)^2 := by
  have h0 := (div_pos hq hK).ne'
  have e : ∀ x, eT3 (q/K) μ x = ((1 - μ^2)/2)/(q/K)^2 + ((3*μ^2 - 1)/2)/(q/K)^2 * x^2 := by intro x; simp only [eT3]; ring
  simp only [e]
  rw [intervalIntegral.integral_add (Continuous.intervalIntegrable (by fun_prop) _ _) (Continuous.intervalIntegrable (by fun_prop) _ _), intervalIntegral.integral_const_mul, integral_pow, intervalIntegral.integral_const]
  norm_num
  field_simp
  ring

/-- The average of the third-order kernel over all directions -/
theorem mean_Z3 (f : ℝ) {μ : ℝ} (hμ : μ^2 ≤ 1) : mean (fun x φ => Z3 f (los μ φ) (kvec K) (qvec q x) (-qvec q x)) =
    (g00x (q/K) + f*μ^2*(g11x (q/K) + 2*g10x (q/K)) + f^2*μ^2/3*(g02x (q/K) + μ^2*g20x (q/K)) - f^2*μ^2*(1 + f*μ^2)/18)/(q/K)^2 := by
  have hr := ratio_ne hK hq hne
  have hr0 := div_pos hq hK
  unfold mean
  have e : ∫ x in (-1:ℝ)..1, avg (fun φ => Z3 f (los μ φ) (kvec K) (qvec q x) (-qvec q x)) = ∫ x in (-1:ℝ)..1, (eF3 (q/K) x + f*μ^2 * eG3 (q/K) x + f*μ^2/3 * eT1 (q/K) x +
      f*μ^2/3 * eT1 (q/K) (-x) + f^2*μ^2/3 * eT2 (q/K) μ x + f^2*μ^2/3 * eT2 (q/K) μ (-x) - f^2*μ^2*(1 + f*μ^2)/6 * eT3 (q/K) μ x) := by
    refine intervalIntegral.integral_congr fun x hx => ?_
    rw [Set.uIcc_of_le (by norm_num)] at hx
    exact avg_Z3 hK hq hne hx f hμ
  have c0 : IntervalIntegrable (fun x => eF3 (q/K) x) MeasureTheory.volume (-1) 1 := (eF3_cont hr hr0).intervalIntegrable
  have c1 : IntervalIntegrable (fun x => f*μ^2 * eG3 (q/K) x) MeasureTheory.volume (-1) 1 := (eG3_cont hr hr0).intervalIntegrable.const_mul _
  have c2 : IntervalIntegrable (fun x => f*μ^2/3 * eT1 (q/K) x) MeasureTheory.volume (-1) 1 := (eT1_cont hr hr0).intervalIntegrable.const_mul _
  have c3 : IntervalIntegrable (fun x => f*μ^2/3 * eT1 (q/K) (-x)) MeasureTheory.volume (-1) 1 := (neg_cont (eT1_cont hr hr0)).intervalIntegrable.const_mul _
  have c4 : IntervalIntegrable (fun x => f^2*μ^2/3 * eT2 (q/K) μ x) MeasureTheory.volume (-1) 1 := (eT2_cont hr hr0 μ).intervalIntegrable.const_mul _
  have c5 : IntervalIntegrable (fun x => f^2*μ^2/3 * eT2 (q/K) μ (-x)) MeasureTheory.volume (-1) 1 := (neg_cont (eT2_cont hr hr0 μ)).intervalIntegrable.const_mul _
  have c6 : IntervalIntegrable (fun x => f^2*μ^2*(1 + f*μ^2)/6 * eT3 (q/K) μ x) MeasureTheory.volume (-1) 1 := (eT3_cont μ).intervalIntegrable.const_mul _
  rw [e, intervalIntegral.integral_sub (((((c0.add c1).add c2).add c3).add c4).add c5) c6, intervalIntegral.integral_add ((((c0.add c1).add c2).add c3).add c4) c5,
    intervalIntegral.integral_add (((c0.add c1).add c2).add c3) c4, intervalIntegral.integral_add ((c0.add c1).add c2) c3, intervalIntegral.integral_add (c0.add c1) c2,
    intervalIntegral.integral_add c0 c1]
  simp only [intervalIntegral.integral_const_mul]
  rw [intervalIntegral.integral_comp_neg (fun x => eT1 (q/K) x), intervalIntegral.integral_comp_neg (fun x => eT2 (q/K) μ x), neg_neg, int_eF3 hK hq hne, int_eG3 hK hq hne,
    int_eT1 hK hq hne, int_eT2 hK hq hne, int_eT3 hK hq]
  field_simp
  ring

end

end Verif.PT
