/-
C105: without two-loop terms the dark-matter spectrum is that of one-loop standard perturbation theory in redshift space.
-/
import Verif.Lemmas.SPTSecond
import Verif.Model.PT
import Verif.Props.PTTerms

namespace Verif.PT

open Verif.SPT Verif.PTSpec MeasureTheory Set

/-! ### The integrals `Jmn` -/

theorem log_form {r : ℝ} (hr : 0 < r) : (r*r - 1)^3 * Real.log ((r + 1)/|r - 1|) = (r*r - 1)^2*(r + 1)*((r - 1)*Real.log (r + 1) - (r - 1)*Real.log (r - 1)) := by
  by_cases h : r = 1
  · subst h; norm_num
  · have h1 : r - 1 ≠ 0 := sub_ne_zero.2 h
    rw [Real.log_div (by positivity) (abs_ne_zero.2 h1), Real.log_abs]; ring

/-- the exact kernels are continuous, also at `q = k` -/
theorem gx_cont {k a b : ℝ} (hk : 0 < k) (ha : 0 < a) : ContinuousOn (fun q => g00x (q/k)) (Icc a b) ∧ ContinuousOn (fun q => g01x (q/k)) (Icc a b) ∧
    ContinuousOn (fun q => g02x (q/k)) (Icc a b) ∧ ContinuousOn (fun q => g10x (q/k)) (Icc a b) ∧ ContinuousOn (fun q => g11x (q/k)) (Icc a b) ∧
    ContinuousOn (fun q => g20x (q/k)) (Icc a b) := by
  have hpos : ∀ q ∈ Icc a b, 0 < q/k := fun q hq => div_pos (ha.trans_le hq.1) hk
  have hl : ContinuousOn (fun q => (q/k*(q/k) - 1)^3 * Real.log ((q/k + 1)/|q/k - 1|)) (Icc a b) := by
    refine ContinuousOn.congr (f := fun q => (q/k*(q/k) - 1)^2*(q/k + 1)*((q/k - 1)*Real.log (q/k + 1) - (q/k - 1)*Real.log (q/k - 1))) ?_ fun q hq => log_form (hpos q hq)
    refine ContinuousOn.mul (by fun_prop) (ContinuousOn.sub (ContinuousOn.mul (by fun_prop) (ContinuousOn.log (by fun_prop) fun q hq => ?_)) ?_)
    · have := hpos q hq; positivity
    · exact (Real.continuous_mul_log.comp (f := fun q : ℝ => q/k - 1) (by fun_prop)).continuousOn
  have hi : ContinuousOn (fun q => (q/k)⁻¹) (Icc a b) := ContinuousOn.inv₀ (by fun_prop) fun q hq => (hpos q hq).ne'
  have e0 : ∀ r, g00x r = (1/3024) * (12*(r⁻¹)^2 - 158 + 100*r^2 - 42*r^4 + 3*(r⁻¹)^3*(7*r^2 + 2)*((r*r - 1)^3*Real.log ((r + 1)/|r - 1|))) := by intro r; simp only [g00x]; ring
  have e1 : ∀ r, g01x r = (1/3024) * (24*(r⁻¹)^2 - 202 + 56*r^2 - 30*r^4 + 3*(r⁻¹)^3*(5*r^2 + 4)*((r*r - 1)^3*Real.log ((r + 1)/|r - 1|))) := by intro r; simp only [g01x]; ring
  have e2 : ∀ r, g02x r = (1/224) * (2*(r⁻¹)^2*(r^2 + 1)*(3*r^4 - 14*r^2 + 3) - 3*(r⁻¹)^3*(r^2 - 1)*((r*r - 1)^3*Real.log ((r + 1)/|r - 1|))) := by intro r; simp only [g02x]; ring
  have e3 : ∀ r, g10x r = (1/1008) * (-38 + 48*r^2 - 18*r^4 + 9*r⁻¹*((r*r - 1)^3*Real.log ((r + 1)/|r - 1|))) := by intro r; simp only [g10x]; ring
  have e4 : ∀ r, g11x r = (1/1008) * (12*(r⁻¹)^2 - 82 + 4*r^2 - 6*r^4 + 3*(r⁻¹)^3*(r^2 + 2)*((r*r - 1)^3*Real.log ((r + 1)/|r - 1|))) := by intro r; simp only [g11x]; ring
  have e6 : ∀ r, g20x r = (1/672) * (2*(r⁻¹)^2*(9 - 109*r^2 + 63*r^4 - 27*r^6) + 9*(r⁻¹)^3*(3*r^2 + 1)*((r*r - 1)^3*Real.log ((r + 1)/|r - 1|))) := by intro r; simp only [g20x]; ring
  refine ⟨?_, ?_, ?_, ?_, ?_, ?_⟩
  · simp only [e0]; fun_prop
  · simp only [e1]; fun_prop
  · simp only [e2]; fun_prop
  · simp only [e3]; fun_prop
  · simp only [e4]; fun_prop
  · simp only [e6]; fun_prop

theorem exp_image {c d : ℝ} (hc : 0 < c) (hd : 0 < d) : Real.exp '' Ioc (Real.log c) (Real.log d) = Ioc c d := by
  ext q
  simp only [mem_image, mem_Ioc]
  constructor
  · rintro ⟨x, ⟨h1, h2⟩, rfl⟩
    exact ⟨(Real.log_lt_iff_lt_exp hc).1 h1, (Real.le_log_iff_exp_le hd).1 h2⟩
  · rintro ⟨h1, h2⟩
    have hq := hc.trans h1
    exact ⟨Real.log q, ⟨Real.log_lt_log hc h1, Real.log_le_log hq h2⟩, Real.exp_log hq⟩

theorem ae_ne (k : ℝ) : ∀ᵐ q : ℝ, q ≠ k := by
  rw [ae_iff]; simp

/-- With exact quadrature `Jmn` is the integral of its kernel against the spectrum. -/
theorem jmn_band {a b k : ℝ} {P : ℝ → ℝ} (h : Band a b P) (ha : 1/100000 < a) (hb : b ≤ 100) (hk : 0 < k) (hbk : b < 60*k) {g gx : ℝ → ℝ} (hg : ∀ r < 60, g r = gx r) :
    jmnCompute Num.exact g P k = 1/(2*Real.pi^2) * ∫ q in Icc a b, P q * gx (q/k) := by
  have h1 : Real.log (1/100000) ≤ Real.log QMAX := Real.log_le_log (by norm_num) (by norm_num [QMAX])
  simp only [jmnCompute, not_le.2 hk, if_false, Num.exact]
  rw [intervalIntegral.integral_of_le h1]
  have e := integral_image_eq_integral_abs_deriv_smul (s := Ioc (Real.log (1/100000)) (Real.log QMAX)) measurableSet_Ioc
    (fun x _ => (Real.hasDerivAt_exp x).hasDerivWithinAt) Real.exp_injective.injOn (fun q => P q * g (if q/k = 1 then 1 - 1/10^10 else q/k))
  rw [exp_image (by norm_num) (by norm_num [QMAX])] at e
  have e2 : ∫ x in Ioc (Real.log (1/100000)) (Real.log QMAX), jmnIntegrand g P k x = ∫ q in Ioc (1/100000) QMAX, P q * g (if q/k = 1 then 1 - 1/10^10 else q/k) := by
    rw [e]
    refine setIntegral_congr_fun measurableSet_Ioc fun x _ => ?_
    simp only [jmnIntegrand, smul_eq_mul, abs_of_pos (Real.exp_pos x)]; ring
  rw [e2, band_integral h measurableSet_Ioc fun q hq => ⟨ha.trans_le hq.1, hq.2.trans (hb.trans (by norm_num [QMAX]))⟩]
  rw [mul_assoc 2, show Real.pi*Real.pi = Real.pi^2 by ring]
  congr 1
  refine setIntegral_congr_ae measurableSet_Icc ?_
  filter_upwards [ae_ne k] with q hq hm
  have h2 : q/k ≠ 1 := by rw [ne_eq, div_eq_one_iff_eq hk.ne']; exact hq
  rw [if_neg h2, hg _ (by rw [div_lt_iff₀ hk]; linarith [hm.2])]

/-! ### The loop integrals of the specification -/

theorem integral_add6 {ν : Measure ℝ} {c d e g i j : ℝ → ℝ} (hc : Integrable c ν) (hd : Integrable d ν) (he : Integrable e ν) (hg : Integrable g ν) (hi : Integrable i ν)
    (hj : Integrable j ν) : ∫ q, ((((c q + d q) + e q) + g q) + i q) + j q ∂ν = (∫ q, c q ∂ν) + (∫ q, d q ∂ν) + (∫ q, e q ∂ν) + (∫ q, g q ∂ν) + (∫ q, i q ∂ν) + ∫ q, j q ∂ν := by
  have e1 : ∫ q, ((((c q + d q) + e q) + g q) + i q) + j q ∂ν = (∫ q, (((c q + d q) + e q) + g q) + i q ∂ν) + ∫ q, j q ∂ν := integral_add ((((hc.add hd).add he).add hg).add hi) hj
  have e2 : ∫ q, (((c q + d q) + e q) + g q) + i q ∂ν = (∫ q, ((c q + d q) + e q) + g q ∂ν) + ∫ q, i q ∂ν := integral_add (((hc.add hd).add he).add hg) hi
  have e3 : ∫ q, ((c q + d q) + e q) + g q ∂ν = (∫ q, (c q + d q) + e q ∂ν) + ∫ q, g q ∂ν := integral_add ((hc.add hd).add he) hg
  have e4 : ∫ q, (c q + d q) + e q ∂ν = (∫ q, c q + d q ∂ν) + ∫ q, e q ∂ν := integral_add (hc.add hd) he
  rw [e1, e2, e3, e4, integral_add hc hd]

section
variable {a b k f μ : ℝ} {P : ℝ → ℝ} (h : Band a b P) (ha : 1/100000 < a) (hb : b ≤ 100) (hk : 0 < k) (hμ : μ^2 ≤ 1)
include hk

theorem Z1_frame : Z1 f (los μ 0) (kvec k) = 1 + f*μ^2 := by
  rw [Z1, disp_losv, losv_k hk]; ring

include h ha hb hμ

theorem spec_P13 : SPT.P13 f μ P k = 6*(1 + f*μ^2)*P k*k^2*
      (1/(2*Real.pi^2)*(∫ q in Icc a b, P q * g00x (q/k)) + f*μ^2*(1/(2*Real.pi^2)*(∫ q in Icc a b, P q * g11x (q/k)) + 2*(1/(2*Real.pi^2)*(∫ q in Icc a b, P q * g10x (q/k)))) +
        f^2*μ^2/3*(1/(2*Real.pi^2)*(∫ q in Icc a b, P q * g02x (q/k)) + μ^2*(1/(2*Real.pi^2)*(∫ q in Icc a b, P q * g20x (q/k))))) -
      (1 + f*μ^2)^2*f^2*μ^2*k^2*(1/(6*Real.pi^2)*∫ q in Icc a b, P q)*P k := by
  have ha0 : 0 < a := lt_trans (by norm_num) ha
  obtain ⟨c00, c01, c02, c10, c11, c20⟩ := gx_cont (b := b) hk ha0
  have i00 := (band_mul h c00).integrable
  have i02 := (band_mul h c02).integrable.const_mul (f^2*μ^2/3)
  have i10 := (band_mul h c10).integrable.const_mul (f*μ^2*2)
  have i11 := (band_mul h c11).integrable.const_mul (f*μ^2)
  have i20 := (band_mul h c20).integrable.const_mul (f^2*μ^2/3*μ^2)
  have i1 := (band_integrable h a b).integrable.const_mul (-(f^2*μ^2*(1 + f*μ^2)/18))
  have e : ∫ q in Ioi (0:ℝ), q^2 * P q * mean (fun x φ => Z3 f (los μ φ) (kvec k) (qvec q x) (-qvec q x)) =
      k^2 * ∫ q in Icc a b, (((((P q * g00x (q/k) + f*μ^2*(P q * g11x (q/k))) + f*μ^2*2*(P q * g10x (q/k))) + f^2*μ^2/3*(P q * g02x (q/k))) +
        f^2*μ^2/3*μ^2*(P q * g20x (q/k))) + -(f^2*μ^2*(1 + f*μ^2)/18)*P q) := by
    have e1 : ∀ q, q^2 * P q * mean (fun x φ => Z3 f (los μ φ) (kvec k) (qvec q x) (-qvec q x)) =
      P q * (q^2 * mean (fun x φ => Z3 f (los μ φ) (kvec k) (qvec q x) (-qvec q x))) := fun q => by ring
    simp only [e1]
    rw [band_integral h measurableSet_Ioi fun q hq => ha0.trans_le hq.1, ← integral_const_mul]
    refine setIntegral_congr_ae measurableSet_Icc ?_
    filter_upwards [ae_ne k] with q hq hm
    have hq0 : 0 < q := ha0.trans_le hm.1
    rw [mean_Z3 hk hq0 hq f hμ]
    have := hk.ne'; have := hq0.ne'
    field_simp
    ring
  rw [SPT.P13, Z1_frame hk, e, integral_add6 i00 i11 i10 i02 i20 i1]
  simp only [integral_const_mul]
  have := Real.pi_pos.ne'
  field_simp
  ring

theorem spec_P22 (hQ : k ≤ 200000) : SPT.P22 f μ P k = 2 * L P k f00 + 4*f*μ^2*L P k f01 + 2*f^2*μ^4*L P k f11 + 4*f*μ^2*L P k f10 + 4*f^2*μ^4*L P k f22 +
    f^2*μ^2*(L P k f02 + μ^2*L P k f20) + f^3*μ^4*(L P k f12 + μ^2*L P k f21) + f^2*μ^2*(L P k f31 + μ^2*L P k f13) - f^3*μ^4*(L P k f03 + μ^2*L P k f30) +
    f^4*μ^4/16*(L P k f23 + 2*μ^2*L P k f32 + μ^4*L P k f33) := by
  have ha0 : 0 < a := lt_trans (by norm_num) ha
  have hQ' : k ≤ 2*100000 := by linarith
  have hc : ∀ {m n f s}, imnKernel m n = some (f, s) → Cts k a b f ∧ Cts k a b fun u v => f u (-v) := fun h => imn_cts hk ha0 h
  obtain ⟨c00, -⟩ := hc (m := 0) (n := 0) rfl
  obtain ⟨c01, -⟩ := hc (m := 0) (n := 1) rfl
  obtain ⟨c02, -⟩ := hc (m := 0) (n := 2) rfl
  obtain ⟨c03, n03⟩ := hc (m := 0) (n := 3) rfl
  obtain ⟨c10, n10⟩ := hc (m := 1) (n := 0) rfl
  obtain ⟨c11, -⟩ := hc (m := 1) (n := 1) rfl
  obtain ⟨c12, -⟩ := hc (m := 1) (n := 2) rfl
  obtain ⟨c13, n13⟩ := hc (m := 1) (n := 3) rfl
  obtain ⟨c20, -⟩ := hc (m := 2) (n := 0) rfl
  obtain ⟨c21, -⟩ := hc (m := 2) (n := 1) rfl
  obtain ⟨c22, n22⟩ := hc (m := 2) (n := 2) rfl
  obtain ⟨c23, -⟩ := hc (m := 2) (n := 3) rfl
  obtain ⟨c30, n30⟩ := hc (m := 3) (n := 0) rfl
  obtain ⟨c31, n31⟩ := hc (m := 3) (n := 1) rfl
  obtain ⟨c32, -⟩ := hc (m := 3) (n := 2) rfl
  obtain ⟨c33, -⟩ := hc (m := 3) (n := 3) rfl
  obtain ⟨l, hl⟩ : ∃ l : List (ℝ × (ℝ → ℝ → ℝ)), l = [(1, f00), (2*f*μ^2, f01), (f^2*μ^4, f11), (f*μ^2, f10), (f*μ^2, fun u v => f10 u (-v)), (f^2*μ^4, f22), (f^2*μ^4, fun u v => f22 u (-v)),
    (f^2*μ^2/2, f02), (f^2*μ^4/2, f20), (f^3*μ^4/2, f12), (f^3*μ^6/2, f21), (f^2*μ^2/4, f31), (f^2*μ^2/4, fun u v => f31 u (-v)), (f^2*μ^4/4, f13), (f^2*μ^4/4, fun u v => f13 u (-v)),
    (-(f^3*μ^4/4), f03), (-(f^3*μ^4/4), fun u v => f03 u (-v)), (-(f^3*μ^6/4), f30), (-(f^3*μ^6/4), fun u v => f30 u (-v)), (f^4*μ^4/32, f23), (f^4*μ^6/16, f32), (f^4*μ^8/32, f33)] := ⟨_, rfl⟩
  have hlc : ∀ t ∈ l, Cts k a b t.2 := by
    rw [hl]
    simp only [List.forall_mem_cons, List.not_mem_nil, IsEmpty.forall_iff, implies_true, and_true]
    exact ⟨c00, c01, c11, c10, n10, c22, n22, c02, c20, c12, c21, c31, n31, c13, n13, c03, n03, c30, n30, c23, c32, c33⟩
  have hW : ∀ u v, W f μ u v = comb l u v := by
    intro u v
    rw [hl]; simp only [W, comb, List.map_cons, List.map_nil, List.sum_cons, List.sum_nil]; ring
  have hsph := spherical h ha0 (hb.trans (by norm_num)) hk (w := fun q r => comb l ((q + r)/k) ((r - q)/k)) (comb_cts l hlc)
  have hL := L_comb h l hlc
  have e : SPT.P22 f μ P k = 2 * L P k (comb l) := by
    rw [SPT.P22, L, ← hsph]
    congr 2
    refine setIntegral_congr_fun measurableSet_Ioi fun q hq => ?_
    have hq0 : 0 < q := hq
    simp only [mean]
    congr 2
    rw [intervalIntegral.integral_of_le (by norm_num), intervalIntegral.integral_of_le (by norm_num), integral_Ioc_eq_integral_Ioo, integral_Ioc_eq_integral_Ioo]
    refine setIntegral_congr_fun measurableSet_Ioo fun x hx => ?_
    have hr : Real.sqrt (SPT.dot (kvec k - qvec q x) (kvec k - qvec q x)) = rho k q x := by
      rw [dot_dd hk hq0 hx, side_b hk hq0 hx, Real.sqrt_sq (rho_pos hk hq0 hx).le]
    have e1 : (fun φ => (Z2 f (los μ φ) (qvec q x) (kvec k - qvec q x))^2 * P (Real.sqrt (SPT.dot (kvec k - qvec q x) (kvec k - qvec q x)))) =
      fun φ => P (rho k q x) * (Z2 f (los μ φ) (qvec q x) (kvec k - qvec q x))^2 := by funext φ; rw [hr]; ring
    simp only [e1]
    rw [avg_mul, avg_Z2 hk hq0 hx f hμ, hW]; ring
  rw [e, hL, hl]
  simp only [List.map_cons, List.map_nil, List.sum_cons, List.sum_nil]
  rw [L_neg h hk hQ' c10 n10, L_neg h hk hQ' c22 n22, L_neg h hk hQ' c31 n31, L_neg h hk hQ' c13 n13, L_neg h hk hQ' c03 n03, L_neg h hk hQ' c30 n30]
  ring

end

/-! ### The model -/

theorem L_scale (P : ℝ → ℝ) (n k : ℝ) (w : ℝ → ℝ → ℝ) : L (fun q => n * P q) k w = n^2 * L P k w := by
  simp only [L, coupling]
  have e : ∀ p, pairs (fun q r => w ((q + r)/k) ((r - q)/k)) (fun q => n * P q) (fun q => n * P q) p = n^2 * pairs (fun q r => w ((q + r)/k) ((r - q)/k)) P P p := by
    intro p; simp only [pairs]; ring
  simp only [e, integral_const_mul]; ring

/-- The settings of a one-loop calculation: no two-loop terms, no models or loaded data in place of the perturbation-theory results, no small-scale dispersions, the linear velocity dispersion -/
structure OneLoopSettings (m : Dm) : Prop where
  loop : m.include_2loop = false
  p00 : m.use_P00_model = false
  p01 : m.use_P01_model = false
  p11 : m.use_P11_model = false
  l00 : m.P00_mu0_loaded = none
  l01 : m.P01_mu2_loaded = none
  l112 : m.P11_mu2_loaded = none
  l114 : m.P11_mu4_loaded = none
  sv : m.sigma_v = none
  sv2 : m.sigma_v2 = 0
  sbv2 : m.sigma_bv2 = 0

section
variable {m : Dm} {a b k : ℝ} (h : Band a b m.lin.P) (ha : 1/100000 < a) (hb : b ≤ 100) (hk : 0 < k)
include h ha hb hk

theorem model_I (hQ : k ≤ 200000) {i j : ℕ} {w : ℝ → ℝ → ℝ} {s : Bool} (hw : imnKernel i j = some (w, s)) : m.I Num.exact k i j = L (fun q => m.plin q) k w := by
  have ha0 : 0 < a := lt_trans (by norm_num) ha
  have hi := band_pairs h (w := fun q r => w ((q + r)/k) ((r - q)/k)) (imn_cts hk ha0 hw).1 _ (measurable_triangle k 100000)
  have e : m.I Num.exact k i j = m.norm^2 * (imn Num.exact m.lin.P k i j).getD 0 := rfl
  rw [e, C94_imn_coupling hw hk (by linarith) hi, Option.getD_some]
  exact (L_scale m.lin.P m.norm k w).symm

theorem model_J (hbk : b < 60*k) {i j : ℕ} {g gx : ℝ → ℝ} (hj : jmnKernel i j = some g) (hg : ∀ r < 60, g r = gx r) :
    m.J Num.exact k i j = 1/(2*Real.pi^2) * ∫ q in Icc a b, m.plin q * gx (q/k) := by
  have e : m.J Num.exact k i j = m.norm * (jmn Num.exact m.lin.P k i j).getD 0 := rfl
  rw [e, jmn, hj, Option.map_some, Option.getD_some, jmn_band h ha hb hk hbk hg]
  have e2 : ∀ q, m.plin q * gx (q/k) = m.norm * (m.lin.P q * gx (q/k)) := fun q => by rw [Dm.plin]; ring
  simp only [e2, integral_const_mul]; ring

omit hk in
theorem model_sigma (hs : m.sigma_v = none) : (m.sigmaV Num.exact)^2 = 1/(6*Real.pi^2) * ∫ q in Icc a b, m.plin q := by
  have e1 : ∫ q in (1/100000:ℝ)..100, m.lin.P q = ∫ q in Icc a b, m.lin.P q := by
    rw [intervalIntegral.integral_of_le (by norm_num)]
    have := band_integral h (g := fun _ => 1) (s := Ioc (1/100000) 100) measurableSet_Ioc fun q hq => ⟨ha.trans_le hq.1, hq.2.trans hb⟩
    simpa using this
  have e2 : velocityDispersion Num.exact m.lin.P = 1/(6*Real.pi*Real.pi) * ∫ q in Icc a b, m.lin.P q := by rw [← e1]; rfl
  have hv : 0 ≤ velocityDispersion Num.exact m.lin.P := by
    rw [e2]; exact mul_nonneg (by have := Real.pi_pos; positivity) (integral_nonneg h.nonneg)
  rw [Dm.sigmaV, hs, Option.getD_none, Dm.sigma_lin, mul_pow, Real.sq_sqrt (by unfold Dm.norm; positivity), Real.sq_sqrt hv, e2]
  have e3 : ∀ q, m.plin q = m.norm * m.lin.P q := fun q => rfl
  simp only [e3, integral_const_mul]
  have := Real.pi_pos.ne'
  field_simp

theorem plin_band : Band a b fun q => m.plin q := by
  have hn : 0 ≤ m.norm := by unfold Dm.norm; positivity
  obtain ⟨C, hC⟩ := h.bdd
  exact ⟨h.meas.const_mul _, fun q => mul_nonneg hn (h.nonneg q), ⟨m.norm*C, fun q => mul_le_mul_of_nonneg_left (hC q) hn⟩, fun q hq => h.supp q (right_ne_zero_of_mul hq)⟩

omit ha hb in
/-- `I01 + I10 = 2 I00`: mass conservation -/
theorem L_mass (hB : Band a b fun q => m.plin q) (ha0 : 0 < a) (hQ : k ≤ 200000) : L (fun q => m.plin q) k f01 + L (fun q => m.plin q) k f10 = 2 * L (fun q => m.plin q) k f00 := by
  obtain ⟨c01, -⟩ := imn_cts (b := b) hk ha0 (m := 0) (n := 1) rfl
  obtain ⟨c10, n10⟩ := imn_cts (b := b) hk ha0 (m := 1) (n := 0) rfl
  obtain ⟨c00, -⟩ := imn_cts (b := b) hk ha0 (m := 0) (n := 0) rfl
  obtain ⟨l, hl⟩ : ∃ l : List (ℝ × (ℝ → ℝ → ℝ)), l = [(1, f01), (1/2, f10), (1/2, fun u v => f10 u (-v))] := ⟨_, rfl⟩
  obtain ⟨l', hl'⟩ : ∃ l : List (ℝ × (ℝ → ℝ → ℝ)), l = [(2, f00)] := ⟨_, rfl⟩
  have h1 : L (fun q => m.plin q) k (comb l) = L (fun q => m.plin q) k (comb l') := by
    unfold L
    refine coupling_congr fun q r hq hr => ?_
    rw [hl, hl']
    simp only [comb, List.map_cons, List.map_nil, List.sum_cons, List.sum_nil]
    have hk0 := hk.ne'; have hq0 := hq.ne'; have hr0 := hr.ne'
    have e : ((q + r)/k)*((q + r)/k) - ((r - q)/k)*((r - q)/k) = 4*q*r/k^2 := by field_simp; ring
    have em : (q + r)/k - (r - q)/k = 2*q/k := by ring
    have ep : (q + r)/k + (r - q)/k = 2*r/k := by ring
    simp only [f01, f10, f00, e, em, ep, sub_neg_eq_add, ← sub_eq_add_neg]
    field_simp
    ring
  rw [L_comb hB l, L_comb hB l', hl, hl'] at h1
  · simp only [List.map_cons, List.map_nil, List.sum_cons, List.sum_nil, L_neg hB hk (by linarith) c10 n10] at h1
    linarith
  · rw [hl']; simpa using c00
  · rw [hl]; simpa using ⟨c01, c10, n10⟩

/-- **The dark-matter spectrum without two-loop terms is the redshift-space spectrum of one-loop standard perturbation theory**: `P_mu0`, `P_mu2` and `P_mu4` are the coefficients of `1`,
`μ²` and `μ⁴`; the coefficient of `μ⁶` is made of the terms `P12` and `P22` and the dispersion times the linear spectrum. -/
theorem C105_one_loop (hs : OneLoopSettings m) (hbk : b < 60*k) (hQ : k ≤ 200000) {μ : ℝ} (hμ : μ^2 ≤ 1) :
    SPT.P11 m.f μ (fun q => m.plin q) k + SPT.P13 m.f μ (fun q => m.plin q) k + SPT.P22 m.f μ (fun q => m.plin q) k =
      m.P_mu0 Num.exact k + μ^2 * m.P_mu2 Num.exact k + μ^4 * m.P_mu4 Num.exact k +
      μ^6 * (m.P12_mu6 Num.exact k + m.P22_mu6 Num.exact k - m.f^4*k^2*(m.sigmaV Num.exact)^2 * m.plin k) + μ^8 * (m.f^4/16 * m.I Num.exact k 3 3) := by
  have hB := plin_band h ha hb hk
  have hI : ∀ {i j w s}, imnKernel i j = some (w, s) → m.I Num.exact k i j = L (fun q => m.plin q) k w := fun hw => model_I h ha hb hk hQ hw
  have hJ : ∀ {i j : ℕ} {g gx : ℝ → ℝ}, jmnKernel i j = some g → (∀ r < 60, g r = gx r) → m.J Num.exact k i j = 1/(2*Real.pi^2) * ∫ q in Icc a b, m.plin q * gx (q/k) :=
    fun hj hg => model_J h ha hb hk hbk hj hg
  have j00 := hJ (i := 0) (j := 0) rfl (fun r hr => show g00 r = g00x r from if_pos hr)
  have j02 := hJ (i := 0) (j := 2) rfl (fun r hr => show g02 r = g02x r from if_pos hr)
  have j10 := hJ (i := 1) (j := 0) rfl (fun r hr => show g10 r = g10x r from if_pos hr)
  have j11 := hJ (i := 1) (j := 1) rfl (fun r hr => show g11 r = g11x r from if_pos hr)
  have j20 := hJ (i := 2) (j := 0) rfl (fun r hr => show g20 r = g20x r from if_pos hr)
  have hsig := model_sigma h ha hb hs.sv
  have hZ := Z1_frame (f := m.f) (μ := μ) hk
  have hmass := L_mass h hk hB (lt_trans (by norm_num) ha) hQ
  have hg : (∫ q in Icc a b, m.plin q * g11x (q/k)) + 2*(∫ q in Icc a b, m.plin q * g10x (q/k)) = 3*∫ q in Icc a b, m.plin q * g00x (q/k) := by
    obtain ⟨c00, c01, c02, c10, c11, c20⟩ := gx_cont (b := b) hk (lt_trans (by norm_num) ha)
    rw [← integral_const_mul, ← integral_const_mul, ← integral_add (band_mul hB c11).integrable ((band_mul hB c10).integrable.const_mul 2)]
    refine setIntegral_congr_fun measurableSet_Icc fun q hq => ?_
    have hq0 : 0 < q := lt_of_lt_of_le (lt_trans (by norm_num) ha) hq.1
    have := g10x_eq (div_pos hq0 hk).ne'
    linear_combination -m.plin q * this
  have hsq : ∀ s, s = 0 → m.sigsq Num.exact s = (m.sigmaV Num.exact)^2 := by intro s hs; rw [Dm.sigsq, hs]; simp
  have e0 : m.P_mu0 Num.exact k = m.P00_mu0 Num.exact k := rfl
  have e2 : m.P_mu2 Num.exact k = m.P01_mu2 Num.exact k + m.P11_mu2 Num.exact k + m.P02_mu2 Num.exact k := rfl
  have e4 : m.P_mu4 Num.exact k = m.P11_mu4 Num.exact k + m.P02_mu4 Num.exact k + m.P12_mu4 Num.exact k + m.P22_mu4 Num.exact k + m.P03_mu4 Num.exact k := by
    have : m.P_mu4 Num.exact k = (let P := m.P11_mu4 Num.exact k + m.P02_mu4 Num.exact k + m.P12_mu4 Num.exact k + m.P22_mu4 Num.exact k + m.P03_mu4 Num.exact k;
      if m.include_2loop then P + (m.P13_mu4 Num.exact k + m.P04_mu4 Num.exact k) else P) := rfl
    rw [this, hs.loop]; rfl
  rw [spec_P13 hB ha hb hk hμ, spec_P22 hB ha hb hk hμ hQ, SPT.P11, hZ, e0, e2, e4]
  simp only [Dm.P00_mu0, Dm.P01_mu2, Dm.P02_mu2, Dm.P02_mu2_vel, Dm.P02_mu2_nov, Dm.P02_mu4, Dm.P03_mu4, Dm.P11_mu2, Dm.P11_mu4, Dm.P11_mu4_scalar, Dm.P12_mu4, Dm.P12_mu4_nov, Dm.P12_mu6,
    Dm.P22_mu4, Dm.P22_mu4_nov, Dm.P22_mu6, Dm.P22_mu6_nov, hs.loop, hs.p00, hs.p01, hs.p11, hs.l00, hs.l01, hs.l112, hs.l114, hsq _ hs.sv2, hsq _ hs.sbv2, Bool.false_eq_true, if_false,
    hI (i := 0) (j := 0) rfl, hI (i := 0) (j := 2) rfl, hI (i := 0) (j := 3) rfl, hI (i := 1) (j := 1) rfl, hI (i := 1) (j := 2) rfl, hI (i := 1) (j := 3) rfl,
    hI (i := 2) (j := 0) rfl, hI (i := 2) (j := 1) rfl, hI (i := 2) (j := 2) rfl, hI (i := 2) (j := 3) rfl, hI (i := 3) (j := 0) rfl, hI (i := 3) (j := 1) rfl, hI (i := 3) (j := 2) rfl,
    hI (i := 3) (j := 3) rfl, j00, j02, j10, j11, j20, hsig]
  generalize (∫ q in Icc a b, m.plin q * g00x (q/k)) = G00 at *
  generalize (∫ q in Icc a b, m.plin q * g02x (q/k)) = G02 at *
  generalize (∫ q in Icc a b, m.plin q * g10x (q/k)) = G10 at *
  generalize (∫ q in Icc a b, m.plin q * g11x (q/k)) = G11 at *
  generalize (∫ q in Icc a b, m.plin q * g20x (q/k)) = G20 at *
  generalize (∫ q in Icc a b, m.plin q) = S at *
  linear_combination 4*m.f*μ^2 * hmass + 6*m.plin k*k^2*m.f*μ^2*(1/(2*Real.pi^2)) * hg

end

/-! ### Density and velocity divergence in real space -/

section
variable {a b k : ℝ} {P : ℝ → ℝ} (h : Band a b P) (ha : 1/100000 < a) (hb : b ≤ 100) (hk : 0 < k)
include h ha hb hk

theorem spec_real2 {A B : V → V → ℝ} {w : ℝ → ℝ → ℝ} (hw : Cts k a b w)
    (hAB : ∀ q x, 0 < q → x ∈ Ioo (-1:ℝ) 1 → A (qvec q x) (kvec k - qvec q x) * B (qvec q x) (kvec k - qvec q x) = w ((q + rho k q x)/k) ((rho k q x - q)/k)) :
    1/(2*Real.pi^2) * ∫ q in Set.Ioi (0:ℝ), q^2 * P q *
      mean (fun x _ => A (qvec q x) (kvec k - qvec q x) * B (qvec q x) (kvec k - qvec q x) * P (Real.sqrt (SPT.dot (kvec k - qvec q x) (kvec k - qvec q x)))) = L P k w := by
  have ha0 : 0 < a := lt_trans (by norm_num) ha
  rw [L, ← spherical h ha0 (hb.trans (by norm_num)) hk (w := fun q r => w ((q + r)/k) ((r - q)/k)) hw]
  congr 1
  refine setIntegral_congr_fun measurableSet_Ioi fun q hq => ?_
  have hq0 : 0 < q := hq
  simp only [mean_const]
  congr 2
  rw [intervalIntegral.integral_of_le (by norm_num), intervalIntegral.integral_of_le (by norm_num), integral_Ioc_eq_integral_Ioo, integral_Ioc_eq_integral_Ioo]
  refine setIntegral_congr_fun measurableSet_Ioo fun x hx => ?_
  have hr : Real.sqrt (SPT.dot (kvec k - qvec q x) (kvec k - qvec q x)) = rho k q x := by
    rw [dot_dd hk hq0 hx, side_b hk hq0 hx, Real.sqrt_sq (rho_pos hk hq0 hx).le]
  simp only [hr, hAB q x hq0 hx]

omit hb in
theorem spec_real3 {A B : V → V → V → ℝ} {g : ℝ → ℝ}
    (hAB : ∀ q, 0 < q → q ≠ k → mean (fun x _ => A (kvec k) (qvec q x) (-qvec q x) + B (kvec k) (qvec q x) (-qvec q x)) = 2 * g (q/k)/(q/k)^2) :
    1/(2*Real.pi^2) * ∫ q in Set.Ioi (0:ℝ), q^2 * P q * mean (fun x _ => A (kvec k) (qvec q x) (-qvec q x) + B (kvec k) (qvec q x) (-qvec q x)) =
      2*k^2*(1/(2*Real.pi^2) * ∫ q in Icc a b, P q * g (q/k)) := by
  have ha0 : 0 < a := lt_trans (by norm_num) ha
  have e : ∫ q in Set.Ioi (0:ℝ), q^2 * P q * mean (fun x _ => A (kvec k) (qvec q x) (-qvec q x) + B (kvec k) (qvec q x) (-qvec q x)) = 2*k^2 * ∫ q in Icc a b, P q * g (q/k) := by
    have e1 : ∀ q, q^2 * P q * mean (fun x _ => A (kvec k) (qvec q x) (-qvec q x) + B (kvec k) (qvec q x) (-qvec q x)) =
      P q * (q^2 * mean (fun x _ => A (kvec k) (qvec q x) (-qvec q x) + B (kvec k) (qvec q x) (-qvec q x))) := fun q => by ring
    simp only [e1]
    rw [band_integral h measurableSet_Ioi fun q hq => ha0.trans_le hq.1, ← integral_const_mul]
    refine setIntegral_congr_ae measurableSet_Icc ?_
    filter_upwards [ae_ne k] with q hq hm
    have hq0 : 0 < q := ha0.trans_le hm.1
    rw [hAB q hq0 hq]
    have := hk.ne'; have := hq0.ne'
    field_simp
  rw [e]; ring

end

theorem mean_two {K q : ℝ} (hK : 0 < K) (hq : 0 < q) (hne : q ≠ K) :
    mean (fun x _ => SPT.F3 (kvec K) (qvec q x) (-qvec q x) + SPT.F3 (kvec K) (qvec q x) (-qvec q x)) = 2 * g00x (q/K)/(q/K)^2 ∧
    mean (fun x _ => SPT.F3 (kvec K) (qvec q x) (-qvec q x) + SPT.G3 (kvec K) (qvec q x) (-qvec q x)) = 2 * g01x (q/K)/(q/K)^2 ∧
    mean (fun x _ => SPT.G3 (kvec K) (qvec q x) (-qvec q x) + SPT.G3 (kvec K) (qvec q x) (-qvec q x)) = 2 * g11x (q/K)/(q/K)^2 := by
  have hr := ratio_ne hK hq hne
  have hr0 := div_pos hq hK
  have iF := int_eF3 hK hq hne
  have iG := int_eG3 hK hq hne
  have cF : IntervalIntegrable (eF3 (q/K)) volume (-1) 1 := (eF3_cont hr hr0).intervalIntegrable
  have cG : IntervalIntegrable (eG3 (q/K)) volume (-1) 1 := (eG3_cont hr hr0).intervalIntegrable
  have hF : ∀ x ∈ uIcc (-1:ℝ) 1, SPT.F3 (kvec K) (qvec q x) (-qvec q x) = eF3 (q/K) x := fun x hx => by
    rw [Set.uIcc_of_le (by norm_num)] at hx
    exact F3_kqq (geo_frame hK hq hne hx)
  have hG : ∀ x ∈ uIcc (-1:ℝ) 1, SPT.G3 (kvec K) (qvec q x) (-qvec q x) = eG3 (q/K) x := fun x hx => by
    rw [Set.uIcc_of_le (by norm_num)] at hx
    exact G3_kqq (geo_frame hK hq hne hx)
  have h0 := hr0.ne'
  simp only [mean_const]
  refine ⟨?_, ?_, ?_⟩
  · rw [intervalIntegral.integral_congr (g := fun x => eF3 (q/K) x + eF3 (q/K) x) fun x hx => by simp only [hF x hx], intervalIntegral.integral_add cF cF, iF]; field_simp; ring
  · rw [intervalIntegral.integral_congr (g := fun x => eF3 (q/K) x + eG3 (q/K) x) fun x hx => by simp only [hF x hx, hG x hx], intervalIntegral.integral_add cF cG, iF, iG, g01x_eq h0]
    field_simp
  · rw [intervalIntegral.integral_congr (g := fun x => eG3 (q/K) x + eG3 (q/K) x) fun x hx => by simp only [hG x hx], intervalIntegral.integral_add cG cG, iG]; field_simp; ring

theorem kernel_two {K q x : ℝ} (hK : 0 < K) (hq : 0 < q) (hx : x ∈ Ioo (-1:ℝ) 1) :
    SPT.F2 (qvec q x) (kvec K - qvec q x) * SPT.F2 (qvec q x) (kvec K - qvec q x) = f00 ((q + rho K q x)/K) ((rho K q x - q)/K) ∧
    SPT.F2 (qvec q x) (kvec K - qvec q x) * SPT.G2 (qvec q x) (kvec K - qvec q x) = f01 ((q + rho K q x)/K) ((rho K q x - q)/K) ∧
    SPT.G2 (qvec q x) (kvec K - qvec q x) * SPT.G2 (qvec q x) (kvec K - qvec q x) = f11 ((q + rho K q x)/K) ((rho K q x - q)/K) := by
  have hr := rho_pos hK hq hx
  have ha0 : (q*x)^2 + (q*√(1 - x^2))^2 ≠ 0 := by rw [side_a hK hq hx]; positivity
  have hb0 : (K - q*x)^2 + (q*√(1 - x^2))^2 ≠ 0 := by rw [side_b hK hq hx]; positivity
  obtain ⟨s1, s2, -⟩ := C93_second_order_kernels hK ha0 hb0
  have t := tri hK ha0 hb0
  obtain ⟨p1, p2, p3, -⟩ := C93_product_kernels _ _ t.am t.ap
  rw [F2_sides hK hq hx, G2_sides hK hq hx, ← s1, ← s2, ← uOf_rho hK hq hx, ← vOf_rho hK hq hx, p1, p2, p3]
  exact ⟨by ring, rfl, by ring⟩

/-- **The one-loop spectra of density and velocity divergence in real space** (`Pdd`, `Pdv`, `Pvv` without models): those of standard perturbation theory, a factor `-f` for each velocity. -/
theorem C105_real_space {m : Dm} {a b k : ℝ} (h : Band a b m.lin.P) (ha : 1/100000 < a) (hb : b ≤ 100) (hk : 1/100000 ≤ k) (hk' : k ≤ 10) (hbk : b < 60*k)
    (hv : m.use_Pdv_model = false) (hw : m.use_Pvv_model = false) (hl : m.Pdv_loaded = none) :
    m.Pdd Num.exact k = Pcross SPT.F2 SPT.F2 SPT.F3 SPT.F3 (fun q => m.plin q) k ∧
    m.Pdv Num.exact k = -m.f * Pcross SPT.F2 SPT.G2 SPT.F3 SPT.G3 (fun q => m.plin q) k ∧
    m.Pvv Num.exact k = m.f^2 * Pcross SPT.G2 SPT.G2 SPT.G3 SPT.G3 (fun q => m.plin q) k := by
  have hk0 : 0 < k := lt_of_lt_of_le (by norm_num) hk
  have hQ : k ≤ 200000 := by linarith
  have ha0 : 0 < a := lt_trans (by norm_num) ha
  have hB := plin_band h ha hb hk0
  have hr : ¬(k < 1/100000 ∨ k > 10) := by rw [not_or]; exact ⟨not_lt.2 hk, not_lt.2 hk'⟩
  have key : ∀ (i j : ℕ) {w : ℝ → ℝ → ℝ} {s : Bool} {g gx : ℝ → ℝ}, imnKernel i j = some (w, s) → jmnKernel i j = some g → (∀ r < 60, g r = gx r) →
      m.norm*(m.lin.P k + m.norm * oneLoopEval Num.exact (oneLoopTable Num.exact m.lin.P i j) k) =
        m.plin k + 2 * L (fun q => m.plin q) k w + 3*m.plin k*(2*k^2*(1/(2*Real.pi^2) * ∫ q in Icc a b, m.plin q * gx (q/k))) := by
    intro i j w s g gx hi hj hg
    rw [← model_I h ha hb hk0 hQ hi, ← model_J h ha hb hk0 hbk hj hg]
    have e1 : oneLoopEval Num.exact (oneLoopTable Num.exact m.lin.P i j) k = 2 * (imn Num.exact m.lin.P k i j).getD 0 + 6*k*k * (jmn Num.exact m.lin.P k i j).getD 0 * m.lin.P k := by
      rw [oneLoopEval, if_neg hr]; rfl
    have e2 : m.I Num.exact k i j = m.norm^2 * (imn Num.exact m.lin.P k i j).getD 0 := rfl
    have e3 : m.J Num.exact k i j = m.norm * (jmn Num.exact m.lin.P k i j).getD 0 := rfl
    rw [e1, e2, e3, Dm.plin]; ring
  have hc : ∀ {i j : ℕ} {w : ℝ → ℝ → ℝ} {s : Bool}, imnKernel i j = some (w, s) → Cts k a b w := fun hi => (imn_cts hk0 ha0 hi).1
  refine ⟨?_, ?_, ?_⟩
  · have e : m.Pdd Num.exact k = m.norm*(m.lin.P k + m.norm * oneLoopEval Num.exact (oneLoopTable Num.exact m.lin.P 0 0) k) := rfl
    rw [e, key 0 0 rfl rfl (fun r hr => show g00 r = g00x r from if_pos hr), Pcross, spec_real2 hB ha hb hk0 (hc (i := 0) (j := 0) rfl) fun q x hq hx => (kernel_two hk0 hq hx).1,
      spec_real3 hB ha hk0 fun q hq hne => (mean_two hk0 hq hne).1]
  · have e : m.Pdv Num.exact k = (-m.f)*m.norm*(m.lin.P k + m.norm * oneLoopEval Num.exact (oneLoopTable Num.exact m.lin.P 0 1) k) := by
      show (match m.Pdv_loaded with | some g => g k | none => if m.use_Pdv_model then m.modelPdv k else (-m.f)*m.norm*(m.lin.P k + m.norm * m.Pdv0 Num.exact k)) = _
      rw [hl, hv]; rfl
    rw [e, mul_assoc (-m.f), key 0 1 rfl rfl (fun r hr => show g01 r = g01x r from if_pos hr), Pcross,
      spec_real2 hB ha hb hk0 (hc (i := 0) (j := 1) rfl) fun q x hq hx => (kernel_two hk0 hq hx).2.1, spec_real3 hB ha hk0 fun q hq hne => (mean_two hk0 hq hne).2.1]
  · have e : m.Pvv Num.exact k = m.f^2 * m.norm*(m.lin.P k + m.norm * oneLoopEval Num.exact (oneLoopTable Num.exact m.lin.P 1 1) k) := by
      show (if m.use_Pvv_model then m.modelPvv k else m.f^2 * m.norm*(m.lin.P k + m.norm * m.Pvv0 Num.exact k)) = _
      rw [hw]; rfl
    rw [e, mul_assoc (m.f^2), key 1 1 rfl rfl (fun r hr => show g11 r = g11x r from if_pos hr), Pcross,
      spec_real2 hB ha hb hk0 (hc (i := 1) (j := 1) rfl) fun q x hq hx => (kernel_two hk0 hq hx).2.2, spec_real3 hB ha hk0 fun q hq hne => (mean_two hk0 hq hne).2.2]

theorem box_band {a b : ℝ} : Band a b (boxP a b) := by
  have hm : Measurable (boxP a b) := Measurable.ite (measurableSet_Icc : MeasurableSet (Icc a b)) measurable_const measurable_const
  refine ⟨hm, fun q => ?_, ⟨1, fun q => ?_⟩, fun q hq => ?_⟩
  · unfold boxP; split <;> norm_num
  · unfold boxP; split <;> norm_num
  · by_contra h'; exact hq (if_neg h')

/-- the hypotheses of C105 hold for a spectrum with power and a model whose one-loop spectrum is not zero -/
noncomputable def boxOne : Dm := { boxDm with include_2loop := false }

example : Band 2 (11/5) boxOne.lin.P ∧ OneLoopSettings boxOne ∧ (11/5 : ℝ) < 60*1 ∧ boxOne.use_Pdv_model = false ∧ boxOne.use_Pvv_model = false ∧ boxOne.Pdv_loaded = none ∧
    0 < boxOne.P_mu0 Num.exact 1 :=
  ⟨box_band, ⟨rfl, rfl, rfl, rfl, rfl, rfl, rfl, rfl, rfl, rfl, rfl⟩, by norm_num, rfl, rfl, rfl, boxDm_P00⟩

end Verif.PT
