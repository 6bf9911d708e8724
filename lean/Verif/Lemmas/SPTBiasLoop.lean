/- Lemmas for C106: the one-loop spectra of the specification in terms of the integrals of the code. -/
import Verif.Lemmas.SPTBias
import Verif.Props.PTOneLoop

namespace Verif.PT

open Verif.SPT Verif.PTSpec MeasureTheory Set

section
variable {a b k f μ : ℝ} {P : ℝ → ℝ} (h : Band a b P) (ha : 1/100000 < a) (hb : b ≤ 100) (hk : 0 < k) (hμ : μ^2 ≤ 1) (t t' : Tracer)
include hk

theorem Y1_frame : Y1 t f (los μ 0) (kvec k) = t.b + f*μ^2 := by
  rw [Y1, disp_losv, losv_k hk]; ring

include h ha hb hμ

omit hb in
theorem spec_Y3 : 1/(2*Real.pi^2) * ∫ q in Ioi (0:ℝ), q^2 * P q * mean (fun x φ => Y3 t f (los μ φ) (kvec k) (qvec q x) (-qvec q x)) = k^2 * (
      t.b * (1/(2*Real.pi^2)*(∫ q in Icc a b, P q * g00x (q/k))) + f*μ^2*(1/(2*Real.pi^2)*(∫ q in Icc a b, P q * g11x (q/k)) + 2*(t.b*(1/(2*Real.pi^2)*(∫ q in Icc a b, P q * g10x (q/k))))) +
        f^2*μ^2/3*(1/(2*Real.pi^2)*(∫ q in Icc a b, P q * g02x (q/k)) + μ^2*(1/(2*Real.pi^2)*(∫ q in Icc a b, P q * g20x (q/k))))
      - f^2*μ^2*(t.b + f*μ^2)/6*(1/(6*Real.pi^2)*∫ q in Icc a b, P q)) := by
  have ha0 : 0 < a := lt_trans (by norm_num) ha
  obtain ⟨c00, c01, c02, c10, c11, c20⟩ := gx_cont (b := b) hk ha0
  have i00 := (band_mul h c00).integrable.const_mul t.b
  have i02 := (band_mul h c02).integrable.const_mul (f^2*μ^2/3)
  have i10 := (band_mul h c10).integrable.const_mul (f*μ^2*2*t.b)
  have i11 := (band_mul h c11).integrable.const_mul (f*μ^2)
  have i20 := (band_mul h c20).integrable.const_mul (f^2*μ^2/3*μ^2)
  have i1 := (band_integrable h a b).integrable.const_mul (-(f^2*μ^2*(t.b + f*μ^2)/18))
  have e : ∫ q in Ioi (0:ℝ), q^2 * P q * mean (fun x φ => Y3 t f (los μ φ) (kvec k) (qvec q x) (-qvec q x)) =
      k^2 * ∫ q in Icc a b, (((((t.b*(P q * g00x (q/k)) + f*μ^2*(P q * g11x (q/k))) + f*μ^2*2*t.b*(P q * g10x (q/k))) + f^2*μ^2/3*(P q * g02x (q/k))) +
        f^2*μ^2/3*μ^2*(P q * g20x (q/k))) + -(f^2*μ^2*(t.b + f*μ^2)/18)*P q) := by
    have e1 : ∀ q, q^2 * P q * mean (fun x φ => Y3 t f (los μ φ) (kvec k) (qvec q x) (-qvec q x)) =
      P q * (q^2 * mean (fun x φ => Y3 t f (los μ φ) (kvec k) (qvec q x) (-qvec q x))) := fun q => by ring
    simp only [e1]
    rw [band_integral h measurableSet_Ioi fun q hq => ha0.trans_le hq.1, ← integral_const_mul]
    refine setIntegral_congr_ae measurableSet_Icc ?_
    filter_upwards [ae_ne k] with q hq hm
    have hq0 : 0 < q := ha0.trans_le hm.1
    rw [mean_Y3 hk hq0 hq t f hμ]
    have := hk.ne'; have := hq0.ne'
    field_simp
    ring
  rw [e, integral_add6 i00 i11 i10 i02 i20 i1]
  simp only [integral_const_mul]
  have := Real.pi_pos.ne'
  field_simp
  ring

theorem spec_Q22 (hQ : k ≤ 200000) : Q22 t t' f μ P k = 2*t.b*t'.b * L P k f00 + 2*(t.b + t'.b)*f*μ^2*L P k f01 + 2*f^2*μ^4*L P k f11 + 4*t.b*t'.b*f*μ^2*L P k f10 +
    2*(t.b + t'.b)*f^2*μ^4*L P k f22 + (t.b + t'.b)/2*f^2*μ^2*(L P k f02 + μ^2*L P k f20) + f^3*μ^4*(L P k f12 + μ^2*L P k f21) + t.b*t'.b*f^2*μ^2*(L P k f31 + μ^2*L P k f13) -
    (t.b + t'.b)/2*f^3*μ^4*(L P k f03 + μ^2*L P k f30) + f^4*μ^4/16*(L P k f23 + 2*μ^2*L P k f32 + μ^4*L P k f33) +
    (t.b*t'.b2 + t'.b*t.b2) * L P k k00 + (t.b*t'.bs + t'.b*t.bs) * L P k k00s + (t.b2 + t'.b2)*f*μ^2 * L P k k10 + (t.bs + t'.bs)*f*μ^2 * L P k k10s +
    (t.b*t'.b2 + t'.b*t.b2)*f*μ^2 * L P k k11 + (t.b*t'.bs + t'.b*t.bs)*f*μ^2 * L P k k11s +
    (t.b2 + t'.b2)/2*f^2*μ^2*(L P k k20_a + μ^2*L P k k20_b) + (t.bs + t'.bs)/2*f^2*μ^2*(L P k k20s_a + μ^2*L P k k20s_b) := by
  have ha0 : 0 < a := lt_trans (by norm_num) ha
  have hQ' : k ≤ 2*100000 := by linarith
  have hc : ∀ {m n f s}, imnKernel m n = some (f, s) → Cts k a b f ∧ Cts k a b fun u v => f u (-v) := fun h => imn_cts hk ha0 h
  have hd : ∀ {m n tid p f s}, kmnKernel m n tid p = some (f, s) → Cts k a b f ∧ Cts k a b fun u v => f u (-v) := fun h => kmn_cts hk ha0 h
  obtain ⟨c00, -⟩ := hc (m := 0) (n := 0) rfl
  obtain ⟨c01, -⟩ := hc (m := 0) (n := 1) rfl
  obtain ⟨c02, -⟩ := hc (m := 0) (n := 2) rfl
  obtain ⟨c03, n03⟩ := hc (m := 0) (n := 3) rfl
  obtain ⟨c10, n10⟩ := hc (m := 1) (n := 0) rfl
  obtain ⟨c11, -⟩ := hc (m := 1) (n := 1) rfl
  obtain ⟨c12, -⟩ := hc (m := 1) (n := 2) rfl
  obtain ⟨c13, n13⟩ := hc (m := 1) (n := 3) rfl
  obtain ⟨c20, -⟩ := hc (m := 2) (n := 0) rfl
  obtain ⟨c21, -⟩ := hc (m := 2) (n := 1) rfl
  obtain ⟨c22, n22⟩ := hc (m := 2) (n := 2) rfl
  obtain ⟨c23, -⟩ := hc (m := 2) (n := 3) rfl
  obtain ⟨c30, n30⟩ := hc (m := 3) (n := 0) rfl
  obtain ⟨c31, n31⟩ := hc (m := 3) (n := 1) rfl
  obtain ⟨c32, -⟩ := hc (m := 3) (n := 2) rfl
  obtain ⟨c33, -⟩ := hc (m := 3) (n := 3) rfl
  obtain ⟨d00, -⟩ := hd (m := 0) (n := 0) (tid := false) (p := 0) rfl
  obtain ⟨d00s, -⟩ := hd (m := 0) (n := 0) (tid := true) (p := 0) rfl
  obtain ⟨d10, -⟩ := hd (m := 1) (n := 0) (tid := false) (p := 0) rfl
  obtain ⟨d10s, -⟩ := hd (m := 1) (n := 0) (tid := true) (p := 0) rfl
  obtain ⟨d11, e11⟩ := hd (m := 1) (n := 1) (tid := false) (p := 0) rfl
  obtain ⟨d11s, e11s⟩ := hd (m := 1) (n := 1) (tid := true) (p := 0) rfl
  obtain ⟨d20, -⟩ := hd (m := 2) (n := 0) (tid := false) (p := 0) rfl
  obtain ⟨d20s, -⟩ := hd (m := 2) (n := 0) (tid := true) (p := 0) rfl
  obtain ⟨d20b, -⟩ := hd (m := 2) (n := 0) (tid := false) (p := 1) rfl
  obtain ⟨d20sb, -⟩ := hd (m := 2) (n := 0) (tid := true) (p := 1) rfl
  obtain ⟨l, hl⟩ : ∃ l : List (ℝ × (ℝ → ℝ → ℝ)), l = [(t.b*t'.b, f00), ((t.b + t'.b)*f*μ^2, f01), (f^2*μ^4, f11), (t.b*t'.b*f*μ^2, f10), (t.b*t'.b*f*μ^2, fun u v => f10 u (-v)),
    ((t.b + t'.b)/2*f^2*μ^4, f22), ((t.b + t'.b)/2*f^2*μ^4, fun u v => f22 u (-v)),
    ((t.b + t'.b)/2*f^2*μ^2/2, f02), ((t.b + t'.b)/2*f^2*μ^4/2, f20), (f^3*μ^4/2, f12), (f^3*μ^6/2, f21), (t.b*t'.b*f^2*μ^2/4, f31), (t.b*t'.b*f^2*μ^2/4, fun u v => f31 u (-v)),
    (t.b*t'.b*f^2*μ^4/4, f13), (t.b*t'.b*f^2*μ^4/4, fun u v => f13 u (-v)),
    (-((t.b + t'.b)/2*f^3*μ^4/4), f03), (-((t.b + t'.b)/2*f^3*μ^4/4), fun u v => f03 u (-v)), (-((t.b + t'.b)/2*f^3*μ^6/4), f30), (-((t.b + t'.b)/2*f^3*μ^6/4), fun u v => f30 u (-v)),
    (f^4*μ^4/32, f23), (f^4*μ^6/16, f32), (f^4*μ^8/32, f33),
    ((t.b*t'.b2 + t'.b*t.b2)/2, k00), ((t.b*t'.bs + t'.b*t.bs)/2, k00s), ((t.b2 + t'.b2)/2*f*μ^2, k10), ((t.bs + t'.bs)/2*f*μ^2, k10s),
    ((t.b*t'.b2 + t'.b*t.b2)/4*f*μ^2, k11), ((t.b*t'.b2 + t'.b*t.b2)/4*f*μ^2, fun u v => k11 u (-v)), ((t.b*t'.bs + t'.b*t.bs)/4*f*μ^2, k11s),
    ((t.b*t'.bs + t'.b*t.bs)/4*f*μ^2, fun u v => k11s u (-v)), ((t.b2 + t'.b2)/4*f^2*μ^2, k20_a), ((t.b2 + t'.b2)/4*f^2*μ^4, k20_b), ((t.bs + t'.bs)/4*f^2*μ^2, k20s_a),
    ((t.bs + t'.bs)/4*f^2*μ^4, k20s_b)] := ⟨_, rfl⟩
  have hlc : ∀ t ∈ l, Cts k a b t.2 := by
    rw [hl]
    simp only [List.forall_mem_cons, List.not_mem_nil, IsEmpty.forall_iff, implies_true, and_true]
    exact ⟨c00, c01, c11, c10, n10, c22, n22, c02, c20, c12, c21, c31, n31, c13, n13, c03, n03, c30, n30, c23, c32, c33, d00, d00s, d10, d10s, d11, e11, d11s, e11s, d20, d20b, d20s, d20sb⟩
  have hW : ∀ u v, WL t t' f μ u v + WN t t' f μ u v = comb l u v := by
    intro u v
    rw [hl]; simp only [WL, WN, comb, List.map_cons, List.map_nil, List.sum_cons, List.sum_nil]; ring
  have hsph := spherical h ha0 (hb.trans (by norm_num)) hk (w := fun q r => comb l ((q + r)/k) ((r - q)/k)) (comb_cts l hlc)
  have hL := L_comb h l hlc
  have e : Q22 t t' f μ P k = 2 * L P k (comb l) := by
    rw [Q22, L, ← hsph]
    congr 2
    refine setIntegral_congr_fun measurableSet_Ioi fun q hq => ?_
    have hq0 : 0 < q := hq
    simp only [mean]
    congr 2
    rw [intervalIntegral.integral_of_le (by norm_num), intervalIntegral.integral_of_le (by norm_num), integral_Ioc_eq_integral_Ioo, integral_Ioc_eq_integral_Ioo]
    refine setIntegral_congr_fun measurableSet_Ioo fun x hx => ?_
    have hr : Real.sqrt (SPT.dot (kvec k - qvec q x) (kvec k - qvec q x)) = rho k q x := by
      rw [dot_dd hk hq0 hx, side_b hk hq0 hx, Real.sqrt_sq (rho_pos hk hq0 hx).le]
    simp only [hr]
    have e1 : ∀ F : ℝ → ℝ, avg (fun φ => F φ * P (rho k q x)) = P (rho k q x) * avg F := fun F => by
      rw [← avg_mul]; congr 1; funext φ; ring
    rw [e1, avg_Y2 hk hq0 hx t t' f hμ, hW]; ring
  rw [e, hL, hl]
  simp only [List.map_cons, List.map_nil, List.sum_cons, List.sum_nil]
  rw [L_neg h hk hQ' c10 n10, L_neg h hk hQ' c22 n22, L_neg h hk hQ' c31 n31, L_neg h hk hQ' c13 n13, L_neg h hk hQ' c03 n03, L_neg h hk hQ' c30 n30, L_neg h hk hQ' d11 e11,
    L_neg h hk hQ' d11s e11s]
  ring

end

end Verif.PT
