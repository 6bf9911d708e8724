/- Lemmas for C106: angular averages of the kernels of biased tracers in redshift space. -/
import Verif.Lemmas.SPTSecond
import Verif.Spec.SPTBias

namespace Verif.SPT

theorem Y3_kqq (t : Tracer) (f : ℝ) (n k q : V) : Y3 t f n k q (-q) = t.b * F3 k q (-q) + disp f n k k * G3 k q (-q) +
    t.b/3*(F2 k (-q) * disp f n k q + G2 k (-q) * disp f n k (k + -q)) + t.b/3*(F2 k q * disp f n k (-q) + G2 k q * disp f n k (k + q)) +
    1/3*(G2 k (-q) * (disp f n k q * disp f n k (k + -q))) + 1/3*(G2 k q * (disp f n k (-q) * disp f n k (k + q))) - disp f n k q^2/6*(t.b + disp f n k k) := by
  obtain ⟨a1, a2, a3, a4, a5⟩ := F3_perm k q (-q)
  obtain ⟨b1, b2, b3, b4, b5⟩ := G3_perm k q (-q)
  have e1 : k + q + -q = k := by abel
  have e2 : k + -q + q = k := by abel
  have e3 : q + k + -q = k := by abel
  have e4 : q + -q + k = k := by abel
  have e5 : -q + k + q = k := by abel
  have e6 : -q + q + k = k := by abel
  have e7 : q + -q = 0 := by abel
  have e8 : -q + q = 0 := by abel
  simp only [Y3, sym3, Y3r, e1, e2, e3, e4, e5, e6, e7, e8, ← a1, ← a2, ← a3, ← a4, ← a5, ← b1, ← b2, ← b3, ← b4, ← b5, add_comm q k, add_comm (-q) k, F2_comm q k, F2_comm (-q) k,
    G2_comm q k, G2_comm (-q) k, F2_opp, G2_opp, F2_comm (-q) q, G2_comm (-q) q, disp_neg]
  ring

end Verif.SPT

namespace Verif.PT

open Verif.SPT Verif.PTSpec Real MeasureTheory

section
variable {K q x μ : ℝ} (hK : 0 < K) (hq : 0 < q) (hne : q ≠ K) (hx : x ∈ Set.Icc (-1:ℝ) 1)
include hK hq hne hx

theorem avg_Y3 (t : Tracer) (f : ℝ) (hμ : μ^2 ≤ 1) : avg (fun φ => Y3 t f (los μ φ) (kvec K) (qvec q x) (-qvec q x)) =
    t.b * eF3 (q/K) x + f*μ^2 * eG3 (q/K) x + t.b*f*μ^2/3 * eT1 (q/K) x + t.b*f*μ^2/3 * eT1 (q/K) (-x) + f^2*μ^2/3 * eT2 (q/K) μ x + f^2*μ^2/3 * eT2 (q/K) μ (-x)
      - f^2*μ^2*(t.b + f*μ^2)/6 * eT3 (q/K) μ x := by
  have c := losv_cont K μ
  have e : (fun φ => Y3 t f (los μ φ) (kvec K) (qvec q x) (-qvec q x)) = fun φ =>
      (((((((t.b * F3 (kvec K) (qvec q x) (-qvec q x) + f*μ^2 * G3 (kvec K) (qvec q x) (-qvec q x)) +
      (t.b*f*μ/3 * SPT.F2 (kvec K) (-qvec q x)) * losv K (los μ φ) (qvec q x)) + (t.b*f*μ/3 * SPT.G2 (kvec K) (-qvec q x)) * losv K (los μ φ) (kvec K + -qvec q x)) +
      (-(t.b*f*μ/3 * SPT.F2 (kvec K) (qvec q x))) * losv K (los μ φ) (qvec q x)) + (t.b*f*μ/3 * SPT.G2 (kvec K) (qvec q x)) * losv K (los μ φ) (kvec K + qvec q x)) +
      ((f*μ)^2/3 * SPT.G2 (kvec K) (-qvec q x)) * (losv K (los μ φ) (qvec q x) * losv K (los μ φ) (kvec K + -qvec q x))) +
      (-((f*μ)^2/3 * SPT.G2 (kvec K) (qvec q x))) * (losv K (los μ φ) (qvec q x) * losv K (los μ φ) (kvec K + qvec q x))) +
      (-((f*μ)^2/6*(t.b + f*μ^2))) * losv K (los μ φ) (qvec q x) ^ 2 := by
    funext φ
    rw [Y3_kqq, disp_neg, disp_losv, disp_losv, disp_losv, disp_losv, losv_k hK]; ring
  rw [e, avg_add (by fun_prop) (by fun_prop), avg_add (by fun_prop) (by fun_prop), avg_add (by fun_prop) (by fun_prop), avg_add (by fun_prop) (by fun_prop),
    avg_add (by fun_prop) (by fun_prop), avg_add (by fun_prop) (by fun_prop), avg_add (by fun_prop) (by fun_prop)]
  simp only [avg_mul, avg_const]
  rw [avg_vq hK hq hne hx, avg_vm hK hq hne hx, avg_vp hK hq hne hx, avg_vqvm hK hq hne hx hμ, avg_vqvp hK hq hne hx hμ, avg_vq2 hK hq hne hx hμ,
    F2_km hK hq hne hx, G2_km hK hq hne hx, F2_kp hK hq hne hx, G2_kp hK hq hne hx, F3_kqq (geo_frame hK hq hne hx), G3_kqq (geo_frame hK hq hne hx)]
  simp only [eF3, eG3, eT1, eT2, eT3]
  generalize q/K = r
  have a1 : 1 + r^2 - 2*r*(-x) = 1 + r^2 + 2*r*x := by ring
  rw [a1]
  ring
end

section
variable {K q : ℝ} (hK : 0 < K) (hq : 0 < q) (hne : q ≠ K)
include hK hq hne

theorem mean_Y3 (t : Tracer) (f : ℝ) {μ : ℝ} (hμ : μ^2 ≤ 1) : mean (fun x φ => Y3 t f (los μ φ) (kvec K) (qvec q x) (-qvec q x)) =
    (t.b * g00x (q/K) + f*μ^2*(g11x (q/K) + 2*(t.b*g10x (q/K))) + f^2*μ^2/3*(g02x (q/K) + μ^2*g20x (q/K)) - f^2*μ^2*(t.b + f*μ^2)/18)/(q/K)^2 := by
  have hr := ratio_ne hK hq hne
  have hr0 := div_pos hq hK
  unfold mean
  have e : ∫ x in (-1:ℝ)..1, avg (fun φ => Y3 t f (los μ φ) (kvec K) (qvec q x) (-qvec q x)) = ∫ x in (-1:ℝ)..1, (t.b * eF3 (q/K) x + f*μ^2 * eG3 (q/K) x + t.b*f*μ^2/3 * eT1 (q/K) x +
      t.b*f*μ^2/3 * eT1 (q/K) (-x) + f^2*μ^2/3 * eT2 (q/K) μ x + f^2*μ^2/3 * eT2 (q/K) μ (-x) - f^2*μ^2*(t.b + f*μ^2)/6 * eT3 (q/K) μ x) := by
    refine intervalIntegral.integral_congr fun x hx => ?_
    rw [Set.uIcc_of_le (by norm_num)] at hx
    exact avg_Y3 hK hq hne hx t f hμ
  have c0 : IntervalIntegrable (fun x => t.b * eF3 (q/K) x) MeasureTheory.volume (-1) 1 := (eF3_cont hr hr0).intervalIntegrable.const_mul _
  have c1 : IntervalIntegrable (fun x => f*μ^2 * eG3 (q/K) x) MeasureTheory.volume (-1) 1 := (eG3_cont hr hr0).intervalIntegrable.const_mul _
  have c2 : IntervalIntegrable (fun x => t.b*f*μ^2/3 * eT1 (q/K) x) MeasureTheory.volume (-1) 1 := (eT1_cont hr hr0).intervalIntegrable.const_mul _
  have c3 : IntervalIntegrable (fun x => t.b*f*μ^2/3 * eT1 (q/K) (-x)) MeasureTheory.volume (-1) 1 := (neg_cont (eT1_cont hr hr0)).intervalIntegrable.const_mul _
  have c4 : IntervalIntegrable (fun x => f^2*μ^2/3 * eT2 (q/K) μ x) MeasureTheory.volume (-1) 1 := (eT2_cont hr hr0 μ).intervalIntegrable.const_mul _
  have c5 : IntervalIntegrable (fun x => f^2*μ^2/3 * eT2 (q/K) μ (-x)) MeasureTheory.volume (-1) 1 := (neg_cont (eT2_cont hr hr0 μ)).intervalIntegrable.const_mul _
  have c6 : IntervalIntegrable (fun x => f^2*μ^2*(t.b + f*μ^2)/6 * eT3 (q/K) μ x) MeasureTheory.volume (-1) 1 := (eT3_cont μ).intervalIntegrable.const_mul _
  rw [e, intervalIntegral.integral_sub (((((c0.add c1).add c2).add c3).add c4).add c5) c6, intervalIntegral.integral_add ((((c0.add c1).add c2).add c3).add c4) c5,
    intervalIntegral.integral_add (((c0.add c1).add c2).add c3) c4, intervalIntegral.integral_add ((c0.add c1).add c2) c3, intervalIntegral.integral_add (c0.add c1) c2,
    intervalIntegral.integral_add c0 c1]
  simp only [intervalIntegral.integral_const_mul]
  rw [intervalIntegral.integral_comp_neg (fun x => eT1 (q/K) x), intervalIntegral.integral_comp_neg (fun x => eT2 (q/K) μ x), neg_neg, int_eF3 hK hq hne, int_eG3 hK hq hne,
    int_eT1 hK hq hne, int_eT2 hK hq hne, int_eT3 hK hq]
  field_simp
  ring

end

noncomputable section

/-- The average of the product of the second-order kernels of two tracers, in terms of the kernels of the code: without second-order bias … -/
def WL (t t' : Tracer) (f μ u v : ℝ) : ℝ :=
  t.b*t'.b * f00 u v + (t.b + t'.b)*f*μ^2 * f01 u v + f^2*μ^4 * f11 u v + t.b*t'.b*f*μ^2*(f10 u v + f10 u (-v)) + (t.b + t'.b)/2*f^2*μ^4*(f22 u v + f22 u (-v)) +
    (t.b + t'.b)/2*f^2*μ^2/2*(f02 u v + μ^2*f20 u v) + f^3*μ^4/2*(f12 u v + μ^2*f21 u v) + t.b*t'.b*f^2*μ^2/4*((f31 u v + f31 u (-v)) + μ^2*(f13 u v + f13 u (-v))) -
    (t.b + t'.b)/2*f^3*μ^4/4*((f03 u v + f03 u (-v)) + μ^2*(f30 u v + f30 u (-v))) + f^4*μ^4/32*(f23 u v + 2*μ^2*f32 u v + μ^4*f33 u v)
/-- … and to first order in it -/
def WN (t t' : Tracer) (f μ u v : ℝ) : ℝ :=
  (t.b*t'.b2 + t'.b*t.b2)/2 * k00 u v + (t.b*t'.bs + t'.b*t.bs)/2 * k00s u v + (t.b2 + t'.b2)/2*f*μ^2 * k10 u v + (t.bs + t'.bs)/2*f*μ^2 * k10s u v +
    (t.b*t'.b2 + t'.b*t.b2)/4*f*μ^2*(k11 u v + k11 u (-v)) + (t.b*t'.bs + t'.b*t.bs)/4*f*μ^2*(k11s u v + k11s u (-v)) +
    (t.b2 + t'.b2)/4*f^2*μ^2*(k20_a u v + μ^2*k20_b u v) + (t.bs + t'.bs)/4*f^2*μ^2*(k20s_a u v + μ^2*k20s_b u v)

end

section
variable {K q x : ℝ} (hK : 0 < K) (hq : 0 < q) (hx : x ∈ Set.Ioo (-1:ℝ) 1)
include hK hq hx

theorem S2_sides : SPT.S2 (qvec q x) (kvec K - qvec q x) = PTSpec.S2 K (q*x) (q*√(1 - x^2)) := by
  have hr := rho_pos hK hq hx
  have ha := side_a hK hq hx; have hb := side_b hK hq hx
  rw [SPT.S2, dot_qq hK hq hx, dot_dd hK hq hx, dot_qd hK hq hx, PTSpec.S2, cosab, na, nb, ha, hb, Real.sqrt_sq hq.le, Real.sqrt_sq hr.le]
  have := hr.ne'; have := hq.ne'
  field_simp

theorem avg_Y2 (t t' : Tracer) (f : ℝ) {μ : ℝ} (hμ : μ^2 ≤ 1) :
    avg (fun φ => Y2 t f (los μ φ) (qvec q x) (kvec K - qvec q x) * Y2 t' f (los μ φ) (qvec q x) (kvec K - qvec q x) +
      Y2 t f (los μ φ) (qvec q x) (kvec K - qvec q x) * N2 t' (qvec q x) (kvec K - qvec q x) +
      N2 t (qvec q x) (kvec K - qvec q x) * Y2 t' f (los μ φ) (qvec q x) (kvec K - qvec q x)) =
      WL t t' f μ ((q + rho K q x)/K) ((rho K q x - q)/K) + WN t t' f μ ((q + rho K q x)/K) ((rho K q x - q)/K) := by
  have hr := rho_pos hK hq hx
  have ha := side_a hK hq hx; have hb := side_b hK hq hx
  have ha0 : (q*x)^2 + (q*√(1 - x^2))^2 ≠ 0 := by rw [ha]; positivity
  have hb0 : (K - q*x)^2 + (q*√(1 - x^2))^2 ≠ 0 := by rw [hb]; positivity
  have hF := F2_sides hK hq hx; have hG := G2_sides hK hq hx; have hS := S2_sides hK hq hx
  have hlq := losv_q hK hq hx; have hld := losv_d hK hq hx
  have hu := uOf_rho hK hq hx; have hv := vOf_rho hK hq hx
  obtain ⟨α, hα⟩ : ∃ α, α = q*x := ⟨_, rfl⟩
  obtain ⟨β, hβ⟩ : ∃ β, β = q*√(1 - x^2) := ⟨_, rfl⟩
  rw [← hα, ← hβ] at ha0 hb0 hF hG hS hu hv
  simp only [← hα, ← hβ] at hlq hld
  have ha0' : (K - α)^2 + (-β)^2 ≠ 0 := by rw [neg_sq]; exact hb0
  have hb0' : (K - (K - α))^2 + (-β)^2 ≠ 0 := by rw [neg_sq, sub_sub_cancel]; exact ha0
  obtain ⟨s1, s2, s3⟩ := C93_second_order_kernels hK ha0 hb0
  have v1 := C93_velocity_kernel hK ha0 hb0 μ
  have v1' := C93_velocity_kernel hK ha0' hb0' μ
  have v2 := C93_vvdd_kernel hK ha0 hb0 hμ
  have v2' := C93_vvdd_kernel hK ha0' hb0' hμ
  have v3 := C93_dvdv_kernel hK ha0 hb0 hμ
  have v4 := C93_vvdv_kernel hK ha0 hb0 hμ
  have v4' := C93_vvdv_kernel hK ha0' hb0' hμ
  have v5 := C93_vvvv_kernel hK ha0 hb0 hμ
  have tr := tri hK ha0 hb0
  simp only [swap_u, swap_v, swap_va, swap_vb] at v1' v2' v4'
  rw [← hF] at s1
  rw [← hG] at s2
  rw [← hS] at s3
  have c1 := va_cont K α β μ
  have c2 := vb_cont K α β μ
  set F := SPT.F2 (qvec q x) (kvec K - qvec q x) with hFd
  set G := SPT.G2 (qvec q x) (kvec K - qvec q x) with hGd
  set S := SPT.S2 (qvec q x) (kvec K - qvec q x) with hSd
  have hk : qvec q x + (kvec K - qvec q x) = kvec K := by abel
  obtain ⟨E, hE⟩ : ∃ E, E = t.b*F + f*μ^2*G := ⟨_, rfl⟩
  obtain ⟨E', hE'⟩ : ∃ E, E = t'.b*F + f*μ^2*G := ⟨_, rfl⟩
  obtain ⟨n, hn⟩ : ∃ n, n = (t.b2 + t.bs*S)/2 := ⟨_, rfl⟩
  obtain ⟨n', hn'⟩ : ∃ n, n = (t'.b2 + t'.bs*S)/2 := ⟨_, rfl⟩
  obtain ⟨w, hw⟩ : ∃ w, w = f*μ := ⟨_, rfl⟩
  obtain ⟨A1, hA1⟩ : ∃ A, A = w/2*(E*t'.b + E'*t.b + t.b*n' + t'.b*n) := ⟨_, rfl⟩
  have e : (fun φ => Y2 t f (los μ φ) (qvec q x) (kvec K - qvec q x) * Y2 t' f (los μ φ) (qvec q x) (kvec K - qvec q x) +
      Y2 t f (los μ φ) (qvec q x) (kvec K - qvec q x) * N2 t' (qvec q x) (kvec K - qvec q x) +
      N2 t (qvec q x) (kvec K - qvec q x) * Y2 t' f (los μ φ) (qvec q x) (kvec K - qvec q x)) = fun φ => (((((((
      (E*E' + E*n' + n*E') + A1 * va K α β μ φ) + A1 * vb K α β μ φ) +
      (w^2/2*(E + E' + n + n') + t.b*t'.b*w^2/2) * (va K α β μ φ * vb K α β μ φ)) +
      (t.b*t'.b*w^2/4) * va K α β μ φ ^ 2) + (t.b*t'.b*w^2/4) * vb K α β μ φ ^ 2) + ((t.b + t'.b)*w^3/4) * (va K α β μ φ ^ 2 * vb K α β μ φ)) +
      ((t.b + t'.b)*w^3/4) * (vb K α β μ φ ^ 2 * va K α β μ φ)) + (w^4/4) * (va K α β μ φ * vb K α β μ φ)^2 := by
    funext φ
    rw [Y2, Y2, N2, N2]
    simp only [hk, disp_losv, hlq, hld, losv_k hK, ← hFd, ← hGd, ← hSd, hA1, hE, hE', hn, hn', hw]
    ring
  rw [e, avg_add (by fun_prop) (by fun_prop), avg_add (by fun_prop) (by fun_prop), avg_add (by fun_prop) (by fun_prop), avg_add (by fun_prop) (by fun_prop),
    avg_add (by fun_prop) (by fun_prop), avg_add (by fun_prop) (by fun_prop), avg_add (by fun_prop) (by fun_prop), avg_add (by fun_prop) (by fun_prop)]
  simp only [avg_mul, avg_const]
  rw [← hu, ← hv]
  have w4 : avg (fun φ => va K α β μ φ ^ 2 * vb K α β μ φ) = -(PT.f03 (uOf K α β) (vOf K α β) * μ + PT.f30 (uOf K α β) (vOf K α β) * μ^3)/2 := by rw [← v4]; ring
  have w4' : avg (fun φ => vb K α β μ φ ^ 2 * va K α β μ φ) = -(PT.f03 (uOf K α β) (-vOf K α β) * μ + PT.f30 (uOf K α β) (-vOf K α β) * μ^3)/2 := by rw [← v4']; ring
  have w5 : avg (fun φ => (va K α β μ φ * vb K α β μ φ)^2) = (PT.f23 (uOf K α β) (vOf K α β) + 2 * PT.f32 (uOf K α β) (vOf K α β) * μ^2 + PT.f33 (uOf K α β) (vOf K α β) * μ^4)/8 := by
    rw [← v5]; ring
  rw [v1, v1', v2, v2', v3, w4, w4', w5, hA1, hE, hE', hn, hn', hw, ← s1, ← s2, ← s3]
  obtain ⟨p1, p2, p3, p4, p5, p6, p7, p8, p9, p10, p11⟩ := C93_product_kernels (uOf K α β) (vOf K α β) tr.am tr.ap
  obtain ⟨-, -, -, n4, n5, -, -, -, -, n10, n11⟩ := C93_product_kernels (uOf K α β) (-vOf K α β) (by rw [sub_neg_eq_add]; exact tr.ap) (by rw [← sub_eq_add_neg]; exact tr.am)
  have eF : PT.F2 (uOf K α β) (-vOf K α β) = PT.F2 (uOf K α β) (vOf K α β) := by simp [PT.F2]
  have eG : PT.G2 (uOf K α β) (-vOf K α β) = PT.G2 (uOf K α β) (vOf K α β) := by simp [PT.G2]
  have eS : PT.S2 (uOf K α β) (-vOf K α β) = PT.S2 (uOf K α β) (vOf K α β) := by simp [PT.S2]
  have e3 : PT.h03 (uOf K α β) (-vOf K α β) = PT.h03 (uOf K α β) (vOf K α β) := by simp [PT.h03]
  have e4 : PT.h04 (uOf K α β) (-vOf K α β) = PT.h04 (uOf K α β) (vOf K α β) := by simp [PT.h04]
  have k1 (u v : ℝ) : k11s u v = k11 u v * PT.S2 u v := rfl
  rw [WL, WN, p1, p2, p3, p4, p5, p6, p7, p8, p9, p10, p11, n4, n5, n10, n11, eF, eG, e3, e4, k1, k1, eS]
  simp only [k00, k00s, k10, k10s, k20_a, k20_b, k20s_a, k20s_b]
  generalize PT.F2 (uOf K α β) (vOf K α β) = F'
  generalize PT.G2 (uOf K α β) (vOf K α β) = G'
  generalize PT.S2 (uOf K α β) (vOf K α β) = S'
  generalize PT.h03 (uOf K α β) (vOf K α β) = h3
  generalize PT.h04 (uOf K α β) (vOf K α β) = h4
  generalize PT.k11 (uOf K α β) (vOf K α β) = k
  generalize PT.k11 (uOf K α β) (-vOf K α β) = k'
  ring

end

/-- Every kernel of `Kmn` is continuous on a band. -/
theorem kmn_cts {K a b : ℝ} (hK : 0 < K) (ha : 0 < a) {m n p : ℕ} {tid s : Bool} {f : ℝ → ℝ → ℝ} (h : kmnKernel m n tid p = some (f, s)) :
    Cts K a b f ∧ Cts K a b fun u v => f u (-v) := by
  have hF : Cts K a b PT.F2 := by
    simp only [Cts, PT.F2]
    refine ContinuousOn.div (by fun_prop) (by fun_prop) fun p hp => mul_ne_zero (by norm_num) (pow_ne_zero _ (box_ne hK ha hp).2.2)
  have hG : Cts K a b PT.G2 := by
    simp only [Cts, PT.G2]
    exact (ContinuousOn.div (by fun_prop) (by fun_prop) fun p hp => mul_ne_zero (by norm_num) (pow_ne_zero _ (box_ne hK ha hp).2.2)).neg
  have hS : Cts K a b PT.S2 := by
    simp only [Cts, PT.S2]
    refine ContinuousOn.div (by fun_prop) (by fun_prop) fun p hp => mul_ne_zero (by norm_num) (pow_ne_zero _ (box_ne hK ha hp).2.2)
  have h3 : Cts K a b PT.h03 := by
    simp only [Cts, PT.h03]
    refine ContinuousOn.div (by fun_prop) (by fun_prop) fun p hp => pow_ne_zero _ (box_ne hK ha hp).2.2
  have h4 : Cts K a b PT.h04 := by
    simp only [Cts, PT.h04]
    refine ContinuousOn.div (by fun_prop) (by fun_prop) fun p hp => pow_ne_zero _ (box_ne hK ha hp).2.2
  have h1 : Cts K a b PT.k11 := by
    simp only [Cts, PT.k11]
    refine ContinuousOn.div (by fun_prop) (by fun_prop) fun p hp => pow_ne_zero _ (box_ne hK ha hp).1
  have h1' : Cts K a b fun u v => PT.k11 u (-v) := by
    simp only [Cts, PT.k11, sub_neg_eq_add]
    refine ContinuousOn.div (by fun_prop) (by fun_prop) fun p hp => pow_ne_zero _ (box_ne hK ha hp).2.1
  have eF : ∀ u v, PT.F2 u (-v) = PT.F2 u v := fun u v => by simp [PT.F2]
  have eG : ∀ u v, PT.G2 u (-v) = PT.G2 u v := fun u v => by simp [PT.G2]
  have eS : ∀ u v, PT.S2 u (-v) = PT.S2 u v := fun u v => by simp [PT.S2]
  have e3 : ∀ u v, PT.h03 u (-v) = PT.h03 u v := fun u v => by simp [PT.h03]
  have e4 : ∀ u v, PT.h04 u (-v) = PT.h04 u v := fun u v => by simp [PT.h04]
  have k1 (u v : ℝ) : k11s u v = k11 u v * PT.S2 u v := rfl
  have c1 : Cts K a b fun _ _ => 1 := continuousOn_const
  unfold kmnKernel at h
  split at h <;> (try split at h) <;> simp only [Option.some.injEq, Prod.mk.injEq, reduceCtorEq] at h <;> obtain ⟨rfl, -⟩ := h <;> constructor <;>
    (try simp only [k00, k00s, k01, k01s, k02s, k10, k10s, k20_a, k20s_a, k20_b, k20s_b, k1, eF, eG, eS, e3, e4]) <;>
    first | exact hF | exact hG | exact hS | exact h3 | exact h4 | exact h1 | exact h1' | exact c1 | exact ContinuousOn.mul hF hS | exact ContinuousOn.mul hG hS
          | exact ContinuousOn.mul h1 hS | exact ContinuousOn.mul h1' hS | exact ContinuousOn.mul hS h3 | exact ContinuousOn.mul hS h4 | exact ContinuousOn.pow hS 2

end Verif.PT
