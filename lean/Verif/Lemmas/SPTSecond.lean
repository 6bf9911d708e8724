/- Lemmas for C105: the angular average of the square of the second-order kernel in redshift space. -/
import Verif.Lemmas.SPTLoop
import Verif.Lemmas.SPTCoupling
import Verif.Props.PTKernels

namespace Verif.PT

open Verif.SPT Verif.PTSpec Real MeasureTheory

theorem F2_dot {p s : V} (hp : SPT.dot p p ≠ 0) (hs : SPT.dot s s ≠ 0) :
    SPT.F2 p s = 5/7 + SPT.dot p s/2*(1/SPT.dot p p + 1/SPT.dot s s) + 2/7*((SPT.dot p s)^2/(SPT.dot p p * SPT.dot s s)) := by
  simp only [SPT.F2, sym2, F2r, al, be, dot_add_left, dot_add_right, SPT.dot_comm s p]
  field_simp; ring
theorem G2_dot {p s : V} (hp : SPT.dot p p ≠ 0) (hs : SPT.dot s s ≠ 0) :
    SPT.G2 p s = 3/7 + SPT.dot p s/2*(1/SPT.dot p p + 1/SPT.dot s s) + 4/7*((SPT.dot p s)^2/(SPT.dot p p * SPT.dot s s)) := by
  simp only [SPT.G2, sym2, G2r, al, be, dot_add_left, dot_add_right, SPT.dot_comm s p]
  field_simp; ring

noncomputable section

/-- The average of the square of the second-order kernel, in terms of the kernels of the code -/
def W (f μ u v : ℝ) : ℝ :=
  f00 u v + 2*f*μ^2 * f01 u v + f^2*μ^4 * f11 u v + f*μ^2*(f10 u v + f10 u (-v)) + f^2*μ^4*(f22 u v + f22 u (-v)) +
    f^2*μ^2/2*(f02 u v + μ^2*f20 u v) + f^3*μ^4/2*(f12 u v + μ^2*f21 u v) + f^2*μ^2/4*((f31 u v + f31 u (-v)) + μ^2*(f13 u v + f13 u (-v))) -
    f^3*μ^4/4*((f03 u v + f03 u (-v)) + μ^2*(f30 u v + f30 u (-v))) + f^4*μ^4/32*(f23 u v + 2*μ^2*f32 u v + μ^4*f33 u v)

end

section
variable {K q x : ℝ} (hK : 0 < K) (hq : 0 < q) (hx : x ∈ Set.Ioo (-1:ℝ) 1)
include hK hq hx

theorem beta_sq : (q*√(1 - x^2))^2 = q^2*(1 - x^2) := by
  rw [mul_pow, Real.sq_sqrt (by obtain ⟨a, b⟩ := hx; nlinarith)]

theorem rho_sq : (rho K q x)^2 = K^2 + q^2 - 2*K*q*x := Real.sq_sqrt (by obtain ⟨a, b⟩ := hx; nlinarith [sq_nonneg (K - q), mul_pos hK hq])

theorem side_a : (q*x)^2 + (q*√(1 - x^2))^2 = q^2 := by rw [beta_sq hK hq hx]; ring
theorem side_b : (K - q*x)^2 + (q*√(1 - x^2))^2 = (rho K q x)^2 := by rw [beta_sq hK hq hx, rho_sq hK hq hx]; ring

theorem uOf_rho : uOf K (q*x) (q*√(1 - x^2)) = (q + rho K q x)/K := by
  rw [uOf, na, nb, side_a hK hq hx, side_b hK hq hx, Real.sqrt_sq hq.le, Real.sqrt_sq (rho_pos hK hq hx).le, add_comm]
theorem vOf_rho : vOf K (q*x) (q*√(1 - x^2)) = (rho K q x - q)/K := by
  rw [vOf, na, nb, side_a hK hq hx, side_b hK hq hx, Real.sqrt_sq hq.le, Real.sqrt_sq (rho_pos hK hq hx).le]

theorem dot_qq : SPT.dot (qvec q x) (qvec q x) = (q*x)^2 + (q*√(1 - x^2))^2 := by simp only [SPT.dot, qvec]; ring
theorem dot_dd : SPT.dot (kvec K - qvec q x) (kvec K - qvec q x) = (K - q*x)^2 + (q*√(1 - x^2))^2 := by
  simp only [SPT.dot, qvec, kvec, Prod.fst_sub, Prod.snd_sub]; ring
theorem dot_qd : SPT.dot (qvec q x) (kvec K - qvec q x) = PTSpec.dot K (q*x) (q*√(1 - x^2)) := by
  simp only [SPT.dot, qvec, kvec, Prod.fst_sub, Prod.snd_sub, PTSpec.dot]; ring

theorem losv_q (μ φ : ℝ) : losv K (los μ φ) (qvec q x) = va K (q*x) (q*√(1 - x^2)) μ φ := by
  rw [losv, dot_qq hK hq hx, (dot_los K q x μ φ).2, va, an]; ring
theorem losv_d (μ φ : ℝ) : losv K (los μ φ) (kvec K - qvec q x) = vb K (q*x) (q*√(1 - x^2)) μ φ := by
  rw [losv, dot_dd hK hq hx, sub_eq_add_neg (kvec K), dot_add_left, dot_neg_left, (dot_los K q x μ φ).2, (dot_los K q x μ φ).1, vb, bn]; ring

theorem F2_sides : SPT.F2 (qvec q x) (kvec K - qvec q x) = PTSpec.F2 K (q*x) (q*√(1 - x^2)) := by
  have hr := rho_pos hK hq hx
  have ha := side_a hK hq hx; have hb := side_b hK hq hx
  rw [F2_dot (by rw [dot_qq hK hq hx, ha]; positivity) (by rw [dot_dd hK hq hx, hb]; positivity), dot_qq hK hq hx, dot_dd hK hq hx, dot_qd hK hq hx, PTSpec.F2, cosab, na, nb, ha, hb,
    Real.sqrt_sq hq.le, Real.sqrt_sq hr.le]
  have := hr.ne'; have := hq.ne'
  field_simp
  ring
theorem G2_sides : SPT.G2 (qvec q x) (kvec K - qvec q x) = PTSpec.G2 K (q*x) (q*√(1 - x^2)) := by
  have hr := rho_pos hK hq hx
  have ha := side_a hK hq hx; have hb := side_b hK hq hx
  rw [G2_dot (by rw [dot_qq hK hq hx, ha]; positivity) (by rw [dot_dd hK hq hx, hb]; positivity), dot_qq hK hq hx, dot_dd hK hq hx, dot_qd hK hq hx, PTSpec.G2, cosab, na, nb, ha, hb,
    Real.sqrt_sq hq.le, Real.sqrt_sq hr.le]
  have := hr.ne'; have := hq.ne'
  field_simp
  ring

omit hK hq hx in
theorem swap_u (K α β : ℝ) : uOf K (K - α) (-β) = uOf K α β := by simp [uOf, na, nb, add_comm]
omit hK hq hx in
theorem swap_v (K α β : ℝ) : vOf K (K - α) (-β) = -vOf K α β := by simp only [vOf, na, nb, sub_sub_cancel, neg_sq]; ring
omit hK hq hx in
theorem swap_va (K α β μ φ : ℝ) : va K (K - α) (-β) μ φ = vb K α β μ φ := by simp only [va, vb, an, bn, neg_sq]; ring
omit hK hq hx in
theorem swap_vb (K α β μ φ : ℝ) : vb K (K - α) (-β) μ φ = va K α β μ φ := by simp only [va, vb, an, bn, neg_sq, sub_sub_cancel]; ring

omit hK hq hx in
theorem va_cont (K α β μ : ℝ) : Continuous fun φ => va K α β μ φ := by unfold va an; fun_prop
omit hK hq hx in
theorem vb_cont (K α β μ : ℝ) : Continuous fun φ => vb K α β μ φ := by unfold vb bn; fun_prop

theorem avg_Z2 (f : ℝ) {μ : ℝ} (hμ : μ^2 ≤ 1) :
    avg (fun φ => Z2 f (los μ φ) (qvec q x) (kvec K - qvec q x) ^ 2) = W f μ ((q + rho K q x)/K) ((rho K q x - q)/K) := by
  have hr := rho_pos hK hq hx
  have ha := side_a hK hq hx; have hb := side_b hK hq hx
  have ha0 : (q*x)^2 + (q*√(1 - x^2))^2 ≠ 0 := by rw [ha]; positivity
  have hb0 : (K - q*x)^2 + (q*√(1 - x^2))^2 ≠ 0 := by rw [hb]; positivity
  have hF := F2_sides hK hq hx; have hG := G2_sides hK hq hx
  have hlq := losv_q hK hq hx; have hld := losv_d hK hq hx
  have hu := uOf_rho hK hq hx; have hv := vOf_rho hK hq hx
  obtain ⟨α, hα⟩ : ∃ α, α = q*x := ⟨_, rfl⟩
  obtain ⟨β, hβ⟩ : ∃ β, β = q*√(1 - x^2) := ⟨_, rfl⟩
  rw [← hα, ← hβ] at ha0 hb0 hF hG hu hv
  simp only [← hα, ← hβ] at hlq hld
  have ha0' : (K - α)^2 + (-β)^2 ≠ 0 := by rw [neg_sq]; exact hb0
  have hb0' : (K - (K - α))^2 + (-β)^2 ≠ 0 := by rw [neg_sq, sub_sub_cancel]; exact ha0
  obtain ⟨s1, s2, -⟩ := C93_second_order_kernels hK ha0 hb0
  have v1 := C93_velocity_kernel hK ha0 hb0 μ
  have v1' := C93_velocity_kernel hK ha0' hb0' μ
  have v2 := C93_vvdd_kernel hK ha0 hb0 hμ
  have v2' := C93_vvdd_kernel hK ha0' hb0' hμ
  have v3 := C93_dvdv_kernel hK ha0 hb0 hμ
  have v4 := C93_vvdv_kernel hK ha0 hb0 hμ
  have v4' := C93_vvdv_kernel hK ha0' hb0' hμ
  have v5 := C93_vvvv_kernel hK ha0 hb0 hμ
  have t := tri hK ha0 hb0
  simp only [swap_u, swap_v, swap_va, swap_vb] at v1' v2' v4'
  rw [← hF] at s1
  rw [← hG] at s2
  have c1 := va_cont K α β μ
  have c2 := vb_cont K α β μ
  set F := SPT.F2 (qvec q x) (kvec K - qvec q x) with hFd
  set G := SPT.G2 (qvec q x) (kvec K - qvec q x) with hGd
  have hk : qvec q x + (kvec K - qvec q x) = kvec K := by abel
  have e : (fun φ => Z2 f (los μ φ) (qvec q x) (kvec K - qvec q x) ^ 2) = fun φ => (((((((
      (F + f*μ^2*G)^2 + ((F + f*μ^2*G)*(f*μ)) * va K α β μ φ) + ((F + f*μ^2*G)*(f*μ)) * vb K α β μ φ) + ((F + f*μ^2*G)*(f*μ)^2 + (f*μ)^2/2) * (va K α β μ φ * vb K α β μ φ)) +
      ((f*μ)^2/4) * va K α β μ φ ^ 2) + ((f*μ)^2/4) * vb K α β μ φ ^ 2) + ((f*μ)^3/2) * (va K α β μ φ ^ 2 * vb K α β μ φ)) + ((f*μ)^3/2) * (vb K α β μ φ ^ 2 * va K α β μ φ)) +
      ((f*μ)^4/4) * (va K α β μ φ * vb K α β μ φ)^2 := by
    funext φ
    rw [Z2]
    simp only [hk, disp_losv, hlq, hld, losv_k hK, ← hFd, ← hGd]
    ring
  rw [e, avg_add (by fun_prop) (by fun_prop), avg_add (by fun_prop) (by fun_prop), avg_add (by fun_prop) (by fun_prop), avg_add (by fun_prop) (by fun_prop),
    avg_add (by fun_prop) (by fun_prop), avg_add (by fun_prop) (by fun_prop), avg_add (by fun_prop) (by fun_prop), avg_add (by fun_prop) (by fun_prop)]
  simp only [avg_mul, avg_const]
  rw [← hu, ← hv]
  have w4 : avg (fun φ => va K α β μ φ ^ 2 * vb K α β μ φ) = -(PT.f03 (uOf K α β) (vOf K α β) * μ + PT.f30 (uOf K α β) (vOf K α β) * μ^3)/2 := by rw [← v4]; ring
  have w4' : avg (fun φ => vb K α β μ φ ^ 2 * va K α β μ φ) = -(PT.f03 (uOf K α β) (-vOf K α β) * μ + PT.f30 (uOf K α β) (-vOf K α β) * μ^3)/2 := by rw [← v4']; ring
  have w5 : avg (fun φ => (va K α β μ φ * vb K α β μ φ)^2) = (PT.f23 (uOf K α β) (vOf K α β) + 2 * PT.f32 (uOf K α β) (vOf K α β) * μ^2 + PT.f33 (uOf K α β) (vOf K α β) * μ^4)/8 := by
    rw [← v5]; ring
  rw [v1, v1', v2, v2', v3, w4, w4', w5, ← s1, ← s2]
  obtain ⟨p1, p2, p3, p4, p5, p6, p7, p8, p9, p10, p11⟩ := C93_product_kernels (uOf K α β) (vOf K α β) t.am t.ap
  obtain ⟨-, -, -, n4, n5, -, -, -, -, n10, n11⟩ := C93_product_kernels (uOf K α β) (-vOf K α β) (by rw [sub_neg_eq_add]; exact t.ap) (by rw [← sub_eq_add_neg]; exact t.am)
  have eF : PT.F2 (uOf K α β) (-vOf K α β) = PT.F2 (uOf K α β) (vOf K α β) := by simp [PT.F2]
  have eG : PT.G2 (uOf K α β) (-vOf K α β) = PT.G2 (uOf K α β) (vOf K α β) := by simp [PT.G2]
  have e3 : PT.h03 (uOf K α β) (-vOf K α β) = PT.h03 (uOf K α β) (vOf K α β) := by simp [PT.h03]
  have e4 : PT.h04 (uOf K α β) (-vOf K α β) = PT.h04 (uOf K α β) (vOf K α β) := by simp [PT.h04]
  rw [W, p1, p2, p3, p4, p5, p6, p7, p8, p9, p10, p11, n4, n5, n10, n11, eF, eG, e3, e4]
  ring

end

/-! ### Linear combinations of kernels -/

/-- continuity of a kernel on the band, in terms of the sides -/
def Cts (K a b : ℝ) (f : ℝ → ℝ → ℝ) : Prop := ContinuousOn (fun p : ℝ × ℝ => f ((p.1 + p.2)/K) ((p.2 - p.1)/K)) (Set.Icc a b ×ˢ Set.Icc a b)

noncomputable section
/-- the coupling integral of a kernel of the code -/
def L (P : ℝ → ℝ) (K : ℝ) (f : ℝ → ℝ → ℝ) : ℝ := coupling (fun q r => f ((q + r)/K) ((r - q)/K)) P P K 100000
/-- a linear combination of kernels -/
def comb (l : List (ℝ × (ℝ → ℝ → ℝ))) (u v : ℝ) : ℝ := (l.map fun t => t.1 * t.2 u v).sum
end

theorem comb_cts {K a b : ℝ} (l : List (ℝ × (ℝ → ℝ → ℝ))) (h : ∀ t ∈ l, Cts K a b t.2) : Cts K a b (comb l) := by
  induction l with
  | nil => simpa [Cts, comb] using continuousOn_const
  | cons t l ih =>
    have h1 := h t (by simp)
    have h2 := ih fun t ht => h t (by simp [ht])
    have e : comb (t :: l) = fun u v => t.1 * t.2 u v + comb l u v := by funext u v; simp [comb]
    rw [e]
    exact (h1.const_smul t.1).add h2

theorem L_comb {K a b : ℝ} {P : ℝ → ℝ} (hP : Band a b P) (l : List (ℝ × (ℝ → ℝ → ℝ))) (h : ∀ t ∈ l, Cts K a b t.2) :
    L P K (comb l) = (l.map fun t => t.1 * L P K t.2).sum := by
  induction l with
  | nil => simp [L, coupling, comb, pairs]
  | cons t l ih =>
    have h1 := h t (by simp)
    have h2 := comb_cts l fun t ht => h t (by simp [ht])
    rw [List.map_cons, List.sum_cons, ← ih fun t ht => h t (by simp [ht])]
    have i1 := band_pairs hP (w := fun q r => t.2 ((q + r)/K) ((r - q)/K)) h1 _ (measurable_triangle K 100000)
    have i2 := band_pairs hP (w := fun q r => comb l ((q + r)/K) ((r - q)/K)) h2 _ (measurable_triangle K 100000)
    have e : ∀ p, pairs (fun q r => comb (t :: l) ((q + r)/K) ((r - q)/K)) P P p =
        t.1 * pairs (fun q r => t.2 ((q + r)/K) ((r - q)/K)) P P p + pairs (fun q r => comb l ((q + r)/K) ((r - q)/K)) P P p := by
      intro p; simp only [pairs, comb, List.map_cons, List.sum_cons]; ring
    simp only [L, coupling, e]
    rw [integral_add (i1.integrable.const_mul t.1) i2, integral_const_mul]; ring

/-- reflection of the second elliptic coordinate exchanges the two modes -/
theorem L_neg {K a b : ℝ} {P : ℝ → ℝ} (hP : Band a b P) (hK : 0 < K) (hQ : K ≤ 2*100000) {f : ℝ → ℝ → ℝ} (hf : Cts K a b f) (hf' : Cts K a b fun u v => f u (-v)) :
    L P K (fun u v => f u (-v)) = L P K f := by
  have i1 := band_pairs hP (w := fun q r => f ((q + r)/K) ((r - q)/K)) hf _ (measurable_triangle K 100000)
  have i2 := band_pairs hP (w := fun q r => (fun u v => f u (-v)) ((q + r)/K) ((r - q)/K)) hf' _ (measurable_triangle K 100000)
  simp only [L, coupling]
  rw [int2_triangle hK hQ (conv_of_triangle hK hQ i1), int2_triangle hK hQ (f := fun u v => f u (-v)) (conv_of_triangle hK hQ i2)]
  have e := int2_neg (U := Real.log (2*100000/K)) (integrand2 f P P K) (-1) 1
  rw [neg_neg] at e
  rw [← e]
  congr 3
  funext x y
  simp only [integrand2, sub_neg_eq_add, ← sub_eq_add_neg]; ring

theorem box_ne {K a b : ℝ} (hK : 0 < K) (ha : 0 < a) {p : ℝ × ℝ} (hp : p ∈ Set.Icc a b ×ˢ Set.Icc a b) :
    (p.1 + p.2)/K - (p.2 - p.1)/K ≠ 0 ∧ (p.1 + p.2)/K + (p.2 - p.1)/K ≠ 0 ∧ (p.1 + p.2)/K*((p.1 + p.2)/K) - (p.2 - p.1)/K*((p.2 - p.1)/K) ≠ 0 := by
  have h1 : 0 < p.1 := ha.trans_le hp.1.1
  have h2 : 0 < p.2 := ha.trans_le hp.2.1
  have e1 : (p.1 + p.2)/K - (p.2 - p.1)/K = 2*p.1/K := by ring
  have e2 : (p.1 + p.2)/K + (p.2 - p.1)/K = 2*p.2/K := by ring
  have e3 : (p.1 + p.2)/K*((p.1 + p.2)/K) - (p.2 - p.1)/K*((p.2 - p.1)/K) = 4*(p.1*p.2)/(K*K) := by ring
  rw [e1, e2, e3]
  exact ⟨by positivity, by positivity, by positivity⟩

/-- Every kernel of `Imn` is continuous on a band. -/
theorem imn_cts {K a b : ℝ} (hK : 0 < K) (ha : 0 < a) {m n : ℕ} {f : ℝ → ℝ → ℝ} {s : Bool} (h : imnKernel m n = some (f, s)) :
    Cts K a b f ∧ Cts K a b fun u v => f u (-v) := by
  unfold imnKernel at h
  split at h <;> simp only [Option.some.injEq, Prod.mk.injEq, reduceCtorEq] at h <;> obtain ⟨rfl, -⟩ := h <;> constructor <;>
    simp only [Cts, f00, f01, f02, f03, f10, f11, f12, f13, f20, f21, f22, f23, f30, f31, f32, f33, neg_mul_neg, sub_neg_eq_add, ← sub_eq_add_neg] <;>
    (first | refine ContinuousOn.div (by fun_prop) (by fun_prop) fun p hp => ?_ | refine ContinuousOn.neg (ContinuousOn.div (by fun_prop) (by fun_prop) fun p hp => ?_)) <;>
    (obtain ⟨h1, h2, h3⟩ := box_ne hK ha hp
     first | positivity | exact mul_ne_zero (by norm_num) (pow_ne_zero _ h3) | exact pow_ne_zero _ h3 | exact mul_ne_zero (pow_ne_zero _ h1) (pow_ne_zero _ h2)
           | exact mul_ne_zero (pow_ne_zero _ h2) (pow_ne_zero _ h1) | exact mul_ne_zero (mul_ne_zero (by norm_num) (pow_ne_zero _ h1)) (pow_ne_zero _ h2)
           | exact mul_ne_zero (mul_ne_zero (by norm_num) (pow_ne_zero _ h2)) (pow_ne_zero _ h1))

end Verif.PT
