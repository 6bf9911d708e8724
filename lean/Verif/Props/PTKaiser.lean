/-
C96: on large scales, or for small fluctuations, the spectra have the form of linear theory.

In perturbation theory, as the amplitude of the fluctuations goes to zero at a given wavenumber, the spectrum divided by the linear one goes to the Kaiser factor (1 + f mu²)²
for the matter and (b1 + f mu²)(b1_bar + f mu²) for tracers, with one or two loops.
-/
import Verif.Props.PTTerms
import Mathlib.Topology.Algebra.Order.Field
import Mathlib.Topology.Order.OrderClosed

namespace Verif.PT

open Filter Topology

variable {N : Num}

/-- As s goes to zero from above, F(s)/(s/s8)² goes to A. -/
def Lead (s8 A : ℝ) (F : ℝ → ℝ) : Prop := Tendsto (fun s => F s / (s/s8)^2) (𝓝[>] 0) (𝓝 A)

theorem Lead.add {s8 A B : ℝ} {F G : ℝ → ℝ} (hF : Lead s8 A F) (hG : Lead s8 B G) : Lead s8 (A + B) (fun s => F s + G s) := by
  simp only [Lead, add_div]; exact Tendsto.add hF hG
theorem Lead.cmul {s8 A : ℝ} {F : ℝ → ℝ} (c : ℝ) (hF : Lead s8 A F) : Lead s8 (c*A) (fun s => c * F s) := by
  simp only [Lead, mul_div_assoc]; exact Tendsto.const_mul c hF
theorem Lead.neg {s8 A : ℝ} {F : ℝ → ℝ} (hF : Lead s8 A F) : Lead s8 (-A) (fun s => -F s) := by
  simp only [Lead, neg_div]; exact Tendsto.neg hF
theorem Lead.sub {s8 A B : ℝ} {F G : ℝ → ℝ} (hF : Lead s8 A F) (hG : Lead s8 B G) : Lead s8 (A - B) (fun s => F s - G s) := by
  simp only [Lead, sub_div]; exact Tendsto.sub hF hG
theorem Lead.zero (s8 : ℝ) : Lead s8 0 (fun _ => 0) := by
  simp only [Lead, zero_div]; exact tendsto_const_nhds

theorem small_tendsto (s8 : ℝ) : Tendsto (fun s : ℝ => (s/s8)^2) (𝓝[>] 0) (𝓝 0) := by
  have : Continuous (fun s : ℝ => (s/s8)^2) := by fun_prop
  have h := (this.tendsto 0).mono_left (nhdsWithin_le_nhds (s := Set.Ioi 0))
  simpa using h

theorem small_ne {s8 : ℝ} (h8 : s8 ≠ 0) : ∀ᶠ s in 𝓝[>] (0:ℝ), (s/s8)^2 ≠ 0 := by
  filter_upwards [self_mem_nhdsWithin] with s hs
  exact pow_ne_zero _ (div_ne_zero (ne_of_gt hs) h8)

theorem Lead.norm {s8 : ℝ} (h8 : s8 ≠ 0) (c : ℝ) : Lead s8 c (fun s => (s/s8)^2 * c) := by
  refine tendsto_const_nhds.congr' ?_
  filter_upwards [small_ne h8] with s hs
  rw [mul_div_cancel_left₀ _ hs]
theorem Lead.mul {s8 A B : ℝ} (h8 : s8 ≠ 0) {F G : ℝ → ℝ} (hF : Lead s8 A F) (hG : Lead s8 B G) : Lead s8 0 (fun s => F s * G s) := by
  have h := (Tendsto.mul hF hG).mul (small_tendsto s8)
  rw [mul_zero] at h
  refine h.congr' ?_
  filter_upwards [small_ne h8] with s hs
  field_simp
theorem Lead.quot {s8 A B C : ℝ} (h8 : s8 ≠ 0) {F G H : ℝ → ℝ} (hF : Lead s8 A F) (hG : Lead s8 B G) (hH : Lead s8 C H) (hC : C ≠ 0) :
    Lead s8 (A*B/C) (fun s => (F s / H s) * (G s / H s) * H s) := by
  have h := (Tendsto.mul hF hG).div hH hC
  refine h.congr' ?_
  have hH0 : ∀ᶠ s in 𝓝[>] (0:ℝ), H s / (s/s8)^2 ≠ 0 := Tendsto.eventually_ne hH hC
  filter_upwards [small_ne h8, hH0] with s hs h0
  have : H s ≠ 0 := fun e => h0 (by rw [e, zero_div])
  simp only [Pi.div_apply]
  field_simp
theorem Lead.congr {s8 A B : ℝ} {F G : ℝ → ℝ} (hF : Lead s8 A F) (hA : A = B) (h : ∀ s > 0, F s = G s) : Lead s8 B G := by
  subst hA
  refine Tendsto.congr' ?_ hF
  filter_upwards [self_mem_nhdsWithin] with s hs
  rw [h s hs]

/-- Perturbation theory throughout: no models, no loaded data, dispersions of linear theory -/
structure Pert (m : Dm) : Prop where
  loaded : m.P00_mu0_loaded = none ∧ m.P01_mu2_loaded = none ∧ m.P11_mu2_loaded = none ∧ m.P11_mu4_loaded = none ∧ m.Pdv_loaded = none
  models : m.use_P00_model = false ∧ m.use_P01_model = false ∧ m.use_P11_model = false ∧ m.use_Pdv_model = false ∧ m.use_Pvv_model = false
  small : m.sigma_v = none ∧ m.sigma_v2 = 0 ∧ m.sigma_bv2 = 0 ∧ m.sigma_bv4 = 0
  s8 : 0 < m.lin.s8

/-- The hypotheses hold for the concrete model of C103. -/
example : Pert boxDm := ⟨⟨rfl, rfl, rfl, rfl, rfl⟩, ⟨rfl, rfl, rfl, rfl, rfl⟩, ⟨rfl, rfl, rfl, rfl⟩, one_pos⟩

/-- the same model at another amplitude of the fluctuations -/
def Dm.at8 (m : Dm) (s : ℝ) : Dm := { m with sigma8_z := s }

variable {m : Dm} (hm : Pert m) (k : ℝ)
include hm

theorem lead_plin : Lead m.lin.s8 (m.lin.P k) (fun s => (m.at8 s).plin k) := Lead.norm hm.s8.ne' _
theorem lead_J (a b : ℕ) : ∃ c, Lead m.lin.s8 c (fun s => (m.at8 s).J N k a b) :=
  ⟨_, Lead.norm hm.s8.ne' (N.ispl (fun k => (jmn N m.lin.P k a b).getD 0) k)⟩
theorem lead_pow2 (c : ℝ) : Lead m.lin.s8 0 (fun s => (m.at8 s).norm^2 * c) :=
  (Lead.mul hm.s8.ne' (Lead.norm hm.s8.ne' 1) (Lead.norm hm.s8.ne' c)).congr rfl (fun s _ => by
    simp only [Dm.norm, Dm.at8]; ring)
theorem lead_I (a b : ℕ) : Lead m.lin.s8 0 (fun s => (m.at8 s).I N k a b) := lead_pow2 hm (N.ispl (fun k => (imn N m.lin.P k a b).getD 0) k)
theorem lead_K (a b : ℕ) (t : Bool) (p : ℕ) : Lead m.lin.s8 0 (fun s => (m.at8 s).K N k a b t p) :=
  lead_pow2 hm (N.ispl (fun k => (kmn N m.lin.P k a b t p).getD 0) k)
theorem lead_kurt : Lead m.lin.s8 0 (fun s => (m.at8 s).kurtosis N) := lead_pow2 hm (velocityKurtosis N m.lin.P)
theorem lead_sigk : ∃ c, Lead m.lin.s8 c (fun s => (m.at8 s).sigmasq_k N k) :=
  ⟨_, Lead.norm hm.s8.ne' (N.ispl (fun k => velocityDispersionK N m.lin.P k (1/2)) k)⟩
theorem lead_two (o : OneLoop) (a b : ℕ) : Lead m.lin.s8 0 (fun s => (m.at8 s).two N k o a b) := by
  have n1 := Lead.norm hm.s8.ne' 1
  have h3 (c : ℝ) := Lead.mul hm.s8.ne' n1 (lead_pow2 hm c)
  have h4 (c : ℝ) := Lead.mul hm.s8.ne' n1 (h3 c)
  refine (((lead_pow2 hm (N.ispl (fun k => (o.linear N k a b).getD 0) k)).add (h3 (N.ispl (fun k => (o.cross N k a b).getD 0) k))).add
    (h4 (N.ispl (fun k => (o.oneLoop N k a b).getD 0) k))).congr (by ring) (fun s _ => ?_)
  simp only [Dm.two, Dm.norm, Dm.at8]; ring
theorem lead_sq : ∃ c, Lead m.lin.s8 c (fun s => (m.at8 s).sigmaV N ^ 2) := by
  obtain ⟨hs, _⟩ := hm.small
  refine ⟨_, (Lead.norm hm.s8.ne' ((Real.sqrt (velocityDispersion N m.lin.P))^2)).congr rfl (fun s _ => ?_)⟩
  simp only [Dm.sigmaV, Dm.at8, hs, Option.getD_none, Dm.sigma_lin, Dm.norm]
  rw [mul_pow, Real.sq_sqrt (sq_nonneg (s / m.lin.s8))]
theorem lead_sigsq (x : ℝ) (hx : x = 0) : ∃ c, Lead m.lin.s8 c (fun s => (m.at8 s).sigsq N x) := by
  obtain ⟨c, hc⟩ := lead_sq (N := N) hm
  refine ⟨c, hc.congr rfl (fun s _ => ?_)⟩
  simp only [Dm.sigsq, hx, zero_mul, zero_div]; ring

theorem lead_P00 : Lead m.lin.s8 (m.lin.P k) (fun s => (m.at8 s).P00_mu0 N k) := by
  obtain ⟨c, hJ⟩ := lead_J (N := N) hm k 0 0
  have hp := lead_plin hm k
  refine ((hp.add ((lead_I (N := N) hm k 0 0).cmul 2)).add ((hJ.cmul (6*k^2)).mul hm.s8.ne' hp)).congr (by ring) (fun s _ => ?_)
  simp only [Dm.P00_mu0, Dm.at8, hm.loaded.1, hm.models.1, Bool.false_eq_true, if_false]
theorem lead_P01 : Lead m.lin.s8 (2*m.f*m.lin.P k) (fun s => (m.at8 s).P01_mu2 N k) := by
  obtain ⟨c, hJ⟩ := lead_J (N := N) hm k 0 0
  have hp := lead_plin hm k
  refine ((hp.add (((lead_I (N := N) hm k 0 0).add ((hJ.cmul (3*k^2)).mul hm.s8.ne' hp)).cmul 4)).cmul (2*m.f)).congr (by ring) (fun s _ => ?_)
  simp only [Dm.P01_mu2, Dm.at8, hm.loaded.2.1, hm.models.2.1, Bool.false_eq_true, if_false]
theorem lead_P02nov : Lead m.lin.s8 0 (fun s => (m.at8 s).P02_mu2_nov N k) := by
  obtain ⟨c, hJ⟩ := lead_J (N := N) hm k 0 2
  exact (((lead_I (N := N) hm k 0 2).add ((hJ.cmul (2*k^2)).mul hm.s8.ne' (lead_plin hm k))).cmul (m.f^2)).congr (by ring) (fun s _ => rfl)
theorem lead_P02 : Lead m.lin.s8 0 (fun s => (m.at8 s).P02_mu2 N k) := by
  obtain ⟨c, hs⟩ := lead_sigsq (N := N) hm m.sigma_bv2 hm.small.2.2.1
  have h := lead_P02nov (N := N) hm k
  cases hl : m.include_2loop
  · refine (((hs.cmul (-(m.f*k)^2)).mul hm.s8.ne' (lead_plin hm k)).add h).congr (by ring) (fun s _ => ?_)
    simp [Dm.P02_mu2, Dm.P02_mu2_vel, Dm.at8, hl]
  · refine (((hs.cmul (-(m.f*k)^2)).mul hm.s8.ne' (lead_P00 (N := N) hm k)).add h).congr (by ring) (fun s _ => ?_)
    simp [Dm.P02_mu2, Dm.P02_mu2_vel, Dm.at8, hl]
theorem lead_P02mu4 : Lead m.lin.s8 0 (fun s => (m.at8 s).P02_mu4 N k) := by
  obtain ⟨c, hJ⟩ := lead_J (N := N) hm k 2 0
  exact (((lead_I (N := N) hm k 2 0).add ((hJ.cmul (2*k^2)).mul hm.s8.ne' (lead_plin hm k))).cmul (m.f^2)).congr (by ring) (fun s _ => rfl)
theorem lead_P03 : Lead m.lin.s8 0 (fun s => (m.at8 s).P03_mu4 N k) := by
  obtain ⟨c, hs⟩ := lead_sigsq (N := N) hm m.sigma_v2 hm.small.2.1
  cases hl : m.include_2loop
  · refine ((hs.cmul (-m.f*(m.f*k)^2)).mul hm.s8.ne' (lead_plin hm k)).congr rfl (fun s _ => ?_)
    simp [Dm.P03_mu4, Dm.at8, hl]
  · refine ((hs.cmul (-(1/2)*(m.f*k)^2)).mul hm.s8.ne' (lead_P01 (N := N) hm k)).congr rfl (fun s _ => ?_)
    simp [Dm.P03_mu4, Dm.at8, hl]
theorem lead_P04 : Lead m.lin.s8 0 (fun s => (m.at8 s).P04_mu4 N k) := by
  obtain ⟨c, hs⟩ := lead_sigsq (N := N) hm m.sigma_bv4 hm.small.2.2.2
  have h8 := hm.s8.ne'
  cases hl : m.include_2loop
  · refine (Lead.zero m.lin.s8).congr rfl (fun s _ => ?_)
    simp [Dm.P04_mu4, Dm.at8, hl]
  · refine ((((lead_P00 (N := N) hm k).mul h8 (lead_kurt (N := N) hm)).cmul (1/12*(m.f*k)^4)).add
      (((hs.mul h8 (lead_P02nov (N := N) hm k)).cmul (-(1/2)*(m.f*k)^2)).add (((hs.mul h8 hs).mul h8 (lead_P00 (N := N) hm k)).cmul ((1/4)*(m.f*k)^4)))).congr (by ring)
      (fun s _ => ?_)
    simp only [Dm.P04_mu4, Dm.at8, hl, if_true]; ring
theorem lead_P04mu6 : Lead m.lin.s8 0 (fun s => (m.at8 s).P04_mu6 N k) := by
  obtain ⟨c, hs⟩ := lead_sigsq (N := N) hm m.sigma_bv4 hm.small.2.2.2
  cases hl : m.include_2loop
  · refine (Lead.zero m.lin.s8).congr rfl (fun s _ => ?_)
    simp [Dm.P04_mu6, Dm.at8, hl]
  · refine ((hs.cmul (-(1/2)*(m.f*k)^2)).mul hm.s8.ne' (lead_P02mu4 (N := N) hm k)).congr rfl (fun s _ => ?_)
    simp [Dm.P04_mu6, Dm.at8, hl]
theorem lead_P11mu2 : Lead m.lin.s8 0 (fun s => (m.at8 s).P11_mu2 N k) := by
  cases hl : m.include_2loop
  · refine ((lead_I (N := N) hm k 3 1).cmul (m.f^2)).congr (by ring) (fun s _ => ?_)
    simp [Dm.P11_mu2, Dm.at8, hl, hm.loaded.2.2.1]
  · refine (((lead_two (N := N) hm k (m.vvdd N) 0 1).add (lead_two (N := N) hm k (m.dvdv N) 0 3)).cmul (m.f^2)).congr (by ring) (fun s _ => ?_)
    simp only [Dm.P11_mu2, Dm.at8, hl, hm.loaded.2.2.1, if_true]; rfl
theorem lead_P11mu4 : Lead m.lin.s8 (m.f^2*m.lin.P k) (fun s => (m.at8 s).P11_mu4 N k) := by
  have h8 := hm.s8.ne'
  have hC : Lead m.lin.s8 0 (fun s => if m.include_2loop then (m.at8 s).two N k ((m.at8 s).vvdd N) 0 2 + (m.at8 s).two N k ((m.at8 s).dvdv N) 0 4 else (m.at8 s).I N k 1 3) := by
    cases hl : m.include_2loop
    · simpa using lead_I (N := N) hm k 1 3
    · refine ((lead_two (N := N) hm k (m.vvdd N) 0 2).add (lead_two (N := N) hm k (m.dvdv N) 0 4)).congr (by ring) (fun s _ => ?_)
      simp only [if_true]; rfl
  obtain ⟨c, h1⟩ := lead_J (N := N) hm k 1 1
  obtain ⟨d, h2⟩ := lead_J (N := N) hm k 1 0
  have hp := lead_plin hm k
  have h := (((((lead_I (N := N) hm k 1 1).cmul 2).add ((lead_I (N := N) hm k 2 2).cmul 4)).add (((h1.add (h2.cmul 2)).cmul (6*k^2)).mul h8 hp)))
  refine (((hp.add h).add hC).cmul (m.f^2)).congr (by ring) (fun s _ => ?_)
  simp only [Dm.P11_mu4, Dm.P11_mu4_scalar, Dm.at8, hm.loaded.2.2.2.1, hm.models.2.2.1, Bool.false_eq_true, if_false]; ring
theorem lead_P12nov : Lead m.lin.s8 0 (fun s => (m.at8 s).P12_mu4_nov N k) := by
  obtain ⟨c, hJ⟩ := lead_J (N := N) hm k 0 2
  exact ((((lead_I (N := N) hm k 1 2).sub (lead_I (N := N) hm k 0 3)).add ((hJ.cmul (2*k^2)).mul hm.s8.ne' (lead_plin hm k))).cmul (m.f^3)).congr (by ring) (fun s _ => rfl)
theorem lead_P12 : Lead m.lin.s8 0 (fun s => (m.at8 s).P12_mu4 N k) := by
  obtain ⟨c, hs⟩ := lead_sigsq (N := N) hm m.sigma_bv2 hm.small.2.2.1
  have h := lead_P12nov (N := N) hm k
  cases hl : m.include_2loop
  · refine (((hs.cmul (-m.f*(m.f*k)^2)).mul hm.s8.ne' (lead_plin hm k)).add h).congr (by ring) (fun s _ => ?_)
    simp [Dm.P12_mu4, Dm.at8, hl]
  · refine (((hs.cmul (-(1/2)*(m.f*k)^2)).mul hm.s8.ne' (lead_P01 (N := N) hm k)).add h).congr (by ring) (fun s _ => ?_)
    simp [Dm.P12_mu4, Dm.at8, hl]
theorem lead_P12mu6 : Lead m.lin.s8 0 (fun s => (m.at8 s).P12_mu6 N k) := by
  obtain ⟨c, hJ⟩ := lead_J (N := N) hm k 2 0
  exact ((((lead_I (N := N) hm k 2 1).sub (lead_I (N := N) hm k 3 0)).add ((hJ.cmul (2*k^2)).mul hm.s8.ne' (lead_plin hm k))).cmul (m.f^3)).congr (by ring) (fun s _ => rfl)
theorem lead_P13 : Lead m.lin.s8 0 (fun s => (m.at8 s).P13_mu4 N k) := by
  obtain ⟨c, hs⟩ := lead_sigsq (N := N) hm m.sigma_bv2 hm.small.2.2.1
  cases hl : m.include_2loop
  · refine (Lead.zero m.lin.s8).congr rfl (fun s _ => ?_)
    simp [Dm.P13_mu4, Dm.at8, hl]
  · refine ((hs.cmul (-(m.f*k)^2)).mul hm.s8.ne' (lead_P11mu2 (N := N) hm k)).congr rfl (fun s _ => ?_)
    simp [Dm.P13_mu4, Dm.at8, hl]
theorem lead_P13mu6 (hl : m.include_2loop = true) : Lead m.lin.s8 0 (fun s => ((m.at8 s).P13_mu6 N k).getD 0) := by
  obtain ⟨c, hs⟩ := lead_sigsq (N := N) hm m.sigma_v2 hm.small.2.1
  refine ((hs.cmul (-(m.f*k)^2)).mul hm.s8.ne' (lead_P11mu4 (N := N) hm k)).congr rfl (fun s _ => ?_)
  simp [Dm.P13_mu6, Dm.at8, hl]
theorem lead_P22nov : Lead m.lin.s8 0 (fun s => (m.at8 s).P22_mu4_nov N k) := by
  cases hl : m.include_2loop
  · refine ((lead_I (N := N) hm k 2 3).cmul (1/16*m.f^4)).congr (by ring) (fun s _ => ?_)
    simp [Dm.P22_mu4_nov, Dm.at8, hl]
  · refine ((lead_two (N := N) hm k (m.vvvv N) 2 3).cmul (1/16*m.f^4)).congr (by ring) (fun s _ => ?_)
    simp only [Dm.P22_mu4_nov, Dm.at8, hl, if_true]; rfl
theorem lead_P22 : Lead m.lin.s8 0 (fun s => (m.at8 s).P22_mu4 N k) := by
  have h8 := hm.s8.ne'
  obtain ⟨c, hs⟩ := lead_sigsq (N := N) hm m.sigma_bv2 hm.small.2.2.1
  obtain ⟨d, hJ⟩ := lead_J (N := N) hm k 0 2
  obtain ⟨e, hk⟩ := lead_sigk (N := N) hm k
  have h0 := lead_P00 (N := N) hm k
  cases hl : m.include_2loop
  · refine (lead_P22nov (N := N) hm k).congr rfl (fun s _ => ?_)
    simp [Dm.P22_mu4, Dm.at8, hl]
  · refine ((lead_P22nov (N := N) hm k).add (((((hJ.mul h8 hJ).mul h8 (lead_plin hm k)).cmul ((m.f*k)^4)).add ((hs.mul h8 (lead_P02nov (N := N) hm k)).cmul (-(1/2)*(m.f*k)^2))).add
      ((((hs.mul h8 hs).mul h8 h0).cmul ((1/4)*(m.f*k)^4)).add (((hk.mul h8 hk).mul h8 h0).cmul ((1/2)*(m.f*k)^4))))).congr (by ring) (fun s _ => ?_)
    simp only [Dm.P22_mu4, Dm.at8, hl, if_true]; ring
theorem lead_P22mu6 : Lead m.lin.s8 0 (fun s => (m.at8 s).P22_mu6 N k) := by
  have h8 := hm.s8.ne'
  obtain ⟨c, hs⟩ := lead_sigsq (N := N) hm m.sigma_bv2 hm.small.2.2.1
  obtain ⟨d, hJ⟩ := lead_J (N := N) hm k 0 2
  obtain ⟨e, hJ'⟩ := lead_J (N := N) hm k 2 0
  cases hl : m.include_2loop
  · refine ((lead_I (N := N) hm k 3 2).cmul (1/8*m.f^4)).congr (by ring) (fun s _ => ?_)
    simp [Dm.P22_mu6, Dm.P22_mu6_nov, Dm.at8, hl]
  · refine (((lead_two (N := N) hm k (m.vvvv N) 3 2).cmul (1/8*m.f^4)).add (((hs.mul h8 (lead_P02mu4 (N := N) hm k)).cmul (-(1/2)*(m.f*k)^2)).add
      (((hJ.mul h8 hJ').mul h8 (lead_plin hm k)).cmul (2*(m.f*k)^4)))).congr (by ring) (fun s _ => ?_)
    simp only [Dm.P22_mu6, Dm.P22_mu6_nov, Dm.at8, hl, if_true, Dm.vvvv, Dm.Pvv0]; ring

/-- The dark-matter spectrum, up to mu⁴: for small fluctuations it is the Kaiser spectrum, for every direction, at every node of the grid. -/
theorem C96_dark_matter {grid : Set ℝ} (hN : Nodes N grid) (hk : k ∈ grid) (mu : ℝ) :
    Tendsto (fun s => ((m.at8 s).P_mu0 N k + mu^2 * (m.at8 s).P_mu2 N k + mu^4 * (m.at8 s).P_mu4 N k) / (m.at8 s).norm) (𝓝[>] 0)
      (𝓝 ((1 + m.f*mu^2)^2 * m.lin.P k)) := by
  refine Lead.congr (s8 := m.lin.s8) (((lead_P00 (N := N) hm k).add ((((lead_P01 (N := N) hm k).add (lead_P11mu2 (N := N) hm k)).add (lead_P02 (N := N) hm k)).cmul (mu^2))).add
    ((((((((lead_P11mu4 (N := N) hm k).add (lead_P02mu4 (N := N) hm k)).add (lead_P12 (N := N) hm k)).add (lead_P22 (N := N) hm k)).add (lead_P03 (N := N) hm k)).add
      ((lead_P13 (N := N) hm k).add (lead_P04 (N := N) hm k)))).cmul (mu^4))) (by ring) (fun s _ => ?_)
  simp only [Dm.P_mu0, Dm.P_mu2, Dm.P_mu4, hN.node _ k hk]
  cases hl : m.include_2loop
  · have e : (m.at8 s).include_2loop = false := hl
    have e1 : (m.at8 s).P13_mu4 N k = 0 := by simp [Dm.P13_mu4, e]
    have e2 : (m.at8 s).P04_mu4 N k = 0 := by simp [Dm.P04_mu4, e]
    simp only [e, e1, e2, Bool.false_eq_true, if_false]; ring
  · have e : (m.at8 s).include_2loop = true := hl
    simp only [e, if_true]

/-- The mu⁶ term is of second order. -/
theorem C96_dark_matter_mu6 {grid : Set ℝ} (hN : Nodes N grid) (hk : k ∈ grid) (hl : m.include_2loop = true) :
    Tendsto (fun s => ((m.at8 s).P_mu6 N k).getD 0 / (m.at8 s).norm) (𝓝[>] 0) (𝓝 0) := by
  refine Lead.congr (s8 := m.lin.s8) ((((lead_P12mu6 (N := N) hm k).add (lead_P22mu6 (N := N) hm k)).add (lead_P13mu6 (N := N) hm k hl)).add (lead_P04mu6 (N := N) hm k)) (by ring)
    (fun s _ => ?_)
  have e : (m.at8 s).include_2loop = true := hl
  simp only [Dm.P_mu6, e, if_true, Option.getD_some, hN.node _ k hk]

theorem lead_spectra {grid : Set ℝ} (hN : Nodes N grid) (hk : k ∈ grid) : Lead m.lin.s8 (m.lin.P k) (fun s => (m.at8 s).Pdd N k) ∧
    Lead m.lin.s8 (-m.f*m.lin.P k) (fun s => (m.at8 s).Pdv N k) ∧ Lead m.lin.s8 (m.f^2*m.lin.P k) (fun s => (m.at8 s).Pvv N k) := by
  have h (c : ℝ) : Lead m.lin.s8 (m.lin.P k) (fun s => (m.at8 s).norm * (m.lin.P k + (m.at8 s).norm * c)) :=
    ((Lead.norm hm.s8.ne' (m.lin.P k)).add (lead_pow2 hm c)).congr (by ring) (fun s _ => by simp only [Dm.norm, Dm.at8]; ring)
  refine ⟨(h (m.Pdd0 N k)).congr rfl fun s _ => ?_, ((h (m.Pdv0 N k)).cmul (-m.f)).congr rfl fun s _ => ?_, ((h (m.Pvv0 N k)).cmul (m.f^2)).congr rfl fun s _ => ?_⟩
  · simp only [Dm.Pdd, hN.node _ k hk]; rfl
  · simp only [Dm.Pdv, hN.node _ k hk, Dm.at8, hm.loaded.2.2.2.2, hm.models.2.2.2.1, Bool.false_eq_true, if_false, Dm.norm, Dm.Pdv0]; ring
  · simp only [Dm.Pvv, hN.node _ k hk, Dm.at8, hm.models.2.2.2.2, Bool.false_eq_true, if_false, Dm.norm, Dm.Pvv0]; ring

omit hm

/-- the same model of tracers at another amplitude of the fluctuations -/
def Biased.at8 (m : Biased) (s : ℝ) : Biased := { m with toDm := m.toDm.at8 s }

/-- Tracers: for small fluctuations the spectrum without stochasticity is the Kaiser spectrum of the two biases, for any nonlinear biasing functions and with tidal terms. -/
theorem C96_biased (m : Biased) (hm : Pert m.toDm) {grid : Set ℝ} (hN : Nodes N grid) (hk : k ∈ grid) (hPhm : m.use_Phm_model = false) (hv : m.vel_disp_from_sims = false)
    (hc : m.correct_mu2 = false ∧ m.correct_mu4 = false) (hP : m.lin.P k ≠ 0) (mu : ℝ) :
    Tendsto (fun s => ((m.at8 s).P_mu0 N k - (m.at8 s).stochasticity N k + mu^2 * (m.at8 s).P_mu2 N k + mu^4 * (m.at8 s).P_mu4 N k + mu^6 * (m.at8 s).P_mu6 N k) / (m.at8 s).norm)
      (𝓝[>] 0) (𝓝 ((m.ib1 + m.f*mu^2)*(m.ib1_bar + m.f*mu^2) * m.lin.P k)) := by
  have h8 := hm.s8.ne'
  obtain ⟨hdd, hdv, hvv⟩ := lead_spectra hm k hN hk
  have h00 := lead_P00 (N := N) hm k
  have hK (a b : ℕ) (t : Bool) (p : ℕ) := lead_K (N := N) hm k a b t p
  obtain ⟨cs, hsq⟩ := lead_sq (N := N) hm
  have hsv : ∀ s, (m.at8 s).sv N = (m.toDm.at8 s).sigmaV N := fun s => by simp [Biased.sv, Biased.at8, hv]
  have hsv' : ∀ s, (m.at8 s).sv_bar N = (m.toDm.at8 s).sigmaV N := fun s => by simp [Biased.sv_bar, Biased.at8, hv]
  -- halo-matter spectra
  have hhm : Lead m.lin.s8 (m.ib1 * m.lin.P k) (fun s => (m.at8 s).Phm N k) := by
    refine (((h00.cmul m.ib1).add ((hK 0 0 false 0).cmul (m.b2_00_a m.ib1))).add ((hK 0 0 true 0).cmul m.bs)).congr (by ring) fun s _ => ?_
    simp only [Biased.Phm, hN.node _ k hk, Biased.at8, hPhm, Bool.false_eq_true, if_false]; rfl
  have hhm' : Lead m.lin.s8 (m.ib1_bar * m.lin.P k) (fun s => (m.at8 s).Phm_bar N k) := by
    refine (((h00.cmul m.ib1_bar).add ((hK 0 0 false 0).cmul (m.b2_00_a m.ib1_bar))).add ((hK 0 0 true 0).cmul m.bs_bar)).congr (by ring) fun s _ => ?_
    simp only [Biased.Phm_bar, hN.node _ k hk, Biased.at8, hPhm, Bool.false_eq_true, if_false]; rfl
  have hns := hhm.quot h8 hhm' h00 hP
  have hhh (b2 : ℝ → ℝ) : Lead m.lin.s8 (m.ib1*m.ib1_bar * m.lin.P k) (fun s => (m.at8 s).Phh N k b2) :=
    (((h00.cmul (m.ib1*m.ib1_bar)).add ((hK 0 0 false 0).cmul (m.ib1 * b2 m.ib1_bar + m.ib1_bar * b2 m.ib1))).add
      ((hK 0 0 true 0).cmul (m.bs * b2 m.ib1_bar + m.bs_bar * b2 m.ib1))).congr (by ring) fun s _ => rfl
  have h01 (b2 : ℝ → ℝ) : Lead m.lin.s8 ((m.ib1 + m.ib1_bar) * m.f * m.lin.P k) (fun s => (m.at8 s).P01_ss N k b2) := by
    refine (((((lead_P01 (N := N) hm k).cmul (m.ib1*m.ib1_bar)).add (hdv.cmul (-(m.ib1*(1 - m.ib1_bar) + m.ib1_bar*(1 - m.ib1))))).add
      ((((hK 1 0 false 0).cmul (b2 m.ib1 + b2 m.ib1_bar)).add ((hK 1 0 true 0).cmul (m.bs + m.bs_bar))).cmul m.f)).add
      ((((hK 1 1 false 0).cmul (m.ib1_bar*b2 m.ib1 + m.ib1*b2 m.ib1_bar)).add ((hK 1 1 true 0).cmul (m.ib1_bar*m.bs + m.ib1*m.bs_bar))).cmul m.f)).congr (by ring) fun s _ => ?_
    have e1 : (m.at8 s).ib1 = m.ib1 := rfl
    have e2 : (m.at8 s).ib1_bar = m.ib1_bar := rfl
    have e3 : (m.at8 s).bs = m.bs := rfl
    have e4 : (m.at8 s).bs_bar = m.bs_bar := rfl
    simp only [Biased.P01_ss, e1, e2, e3, e4]
    simp only [Biased.at8, Dm.at8]; ring
  have h112 : Lead m.lin.s8 0 (fun s => (m.at8 s).P11_ss_mu2 N k) := by
    refine (((lead_two (N := N) hm k (m.vvdd N) 0 1).add (lead_two (N := N) hm k (m.dvdv N) 0 3)).cmul ((m.ib1*m.ib1_bar)*m.f^2)).congr (by ring) fun s _ => rfl
  have h114 : Lead m.lin.s8 (m.f^2 * m.lin.P k) (fun s => (m.at8 s).P11_ss_mu4 N k) := by
    refine ((((lead_P11mu4 (N := N) hm k).cmul ((1/2)*(m.ib1 + m.ib1_bar))).add (hvv.cmul (-(1/2)*((m.ib1 - 1) + (m.ib1_bar - 1))))).add
      (((lead_two (N := N) hm k (m.vvdd N) 0 2).add (lead_two (N := N) hm k (m.dvdv N) 0 4)).cmul (m.f^2*(m.ib1*m.ib1_bar - (1/2)*(m.ib1 + m.ib1_bar))))).congr (by ring)
      fun s _ => ?_
    have e1 : (m.at8 s).ib1 = m.ib1 := rfl
    have e2 : (m.at8 s).ib1_bar = m.ib1_bar := rfl
    simp only [Biased.P11_ss_mu4, e1, e2]
    simp only [Biased.at8, Dm.at8, Dm.vvdd, Dm.dvdv, Dm.Pvv0, Dm.Pdd0, Dm.Pdv0]; ring
  have h022 : Lead m.lin.s8 0 (fun s => (m.at8 s).P02_ss_mu2 N k) := by
    refine ((((lead_P02nov (N := N) hm k).cmul ((1/2)*(m.ib1 + m.ib1_bar))).add (((hsq.add hsq).mul h8 (hhh m.b2_00_c)).cmul (-(1/2)*(m.f*k)^2))).add
      ((((hK 2 0 false 0).cmul (m.b2_00_c m.ib1 + m.b2_00_c m.ib1_bar)).add ((hK 2 0 true 0).cmul (m.bs + m.bs_bar))).cmul ((1/2)*m.f^2))).congr (by ring) fun s _ => ?_
    simp only [Biased.P02_ss_mu2, hsv, hsv']
    have e1 : (m.at8 s).ib1 = m.ib1 := rfl
    have e2 : (m.at8 s).ib1_bar = m.ib1_bar := rfl
    have e3 : (m.at8 s).bs = m.bs := rfl
    have e4 : (m.at8 s).bs_bar = m.bs_bar := rfl
    have e5 : (m.at8 s).f = m.f := rfl
    have e6 : (m.at8 s).b2_00_c = m.b2_00_c := rfl
    have e7 : (m.at8 s).toDm = m.toDm.at8 s := rfl
    rw [e1, e2, e3, e4, e5, e6, e7]; ring
  have h024 : Lead m.lin.s8 0 (fun s => (m.at8 s).P02_ss_mu4 N k) := by
    refine (((lead_P02mu4 (N := N) hm k).cmul ((1/2)*(m.ib1 + m.ib1_bar))).add
      ((((hK 2 0 false 1).cmul (m.b2_00_b m.ib1 + m.b2_00_b m.ib1_bar)).add ((hK 2 0 true 1).cmul (m.bs + m.bs_bar))).cmul ((1/2)*m.f^2))).congr (by ring) fun s _ => rfl
  have h12 : Lead m.lin.s8 0 (fun s => (m.at8 s).P12_ss_mu4 N k) := by
    refine (((lead_P12nov (N := N) hm k).sub (((hsq.add hsq).mul h8 (lead_P01 (N := N) hm k)).cmul ((1/2)*(m.f*k)^2*(1/2)))).add
      (((lead_I (N := N) hm k 0 3).cmul (-(1/2)*((m.ib1 - 1) + (m.ib1_bar - 1))*m.f^3)).add
      (((hsq.add hsq).mul h8 ((h01 m.b2_01_b).sub (lead_P01 (N := N) hm k))).cmul (-(1/4)*(m.f*k)^2)))).congr (by ring) fun s _ => ?_
    simp only [Biased.P12_ss_mu4, hsv, hsv']
    have e1 : (m.at8 s).ib1 = m.ib1 := rfl
    have e2 : (m.at8 s).ib1_bar = m.ib1_bar := rfl
    have e5 : (m.at8 s).f = m.f := rfl
    have e6 : (m.at8 s).b2_01_b = m.b2_01_b := rfl
    have e7 : (m.at8 s).toDm = m.toDm.at8 s := rfl
    rw [e1, e2, e5, e6, e7]; ring
  have h03 : Lead m.lin.s8 0 (fun s => (m.at8 s).P03_ss N k) := by
    refine (((hsq.add hsq).mul h8 (h01 m.b2_01_b)).cmul (-(1/4)*(m.f*k)^2)).congr (by ring) fun s _ => ?_
    simp only [Biased.P03_ss, hsv, hsv']
    have e5 : (m.at8 s).f = m.f := rfl
    have e6 : (m.at8 s).b2_01_b = m.b2_01_b := rfl
    rw [e5, e6]; ring
  have h13 : Lead m.lin.s8 0 (fun s => (m.at8 s).P13_ss_mu4 N k) := by
    refine (((hsq.add hsq).mul h8 h112).cmul ((1/2)*(-(m.f*k)^2))).congr (by ring) fun s _ => ?_
    simp only [Biased.P13_ss_mu4, hsv, hsv']
    have e5 : (m.at8 s).f = m.f := rfl
    rw [e5]; ring
  have h22 : Lead m.lin.s8 0 (fun s => (m.at8 s).P22_ss_mu4 N k) := by
    obtain ⟨d, hsk⟩ := lead_sigk (N := N) hm k
    refine ((((lead_P22nov (N := N) hm k).add (((hdd.mul h8 hsk).mul h8 hsk).cmul ((1/2)*(m.f*k)^4*(m.ib1*m.ib1_bar)))).add
      (((hsq.add hsq).mul h8 (lead_P02nov (N := N) hm k)).cmul (-(1/4)*(k*m.f)^2*((1/2)*(m.ib1 + m.ib1_bar))))).add
      ((((hsq.mul h8 hsq).add (hsq.mul h8 hsq)).mul h8 (hhh m.b2_00_d)).cmul ((1/8)*(k*m.f)^4))).congr (by ring) fun s _ => ?_
    simp only [Biased.P22_ss_mu4, hsv, hsv']
    have e1 : (m.at8 s).ib1 = m.ib1 := rfl
    have e2 : (m.at8 s).ib1_bar = m.ib1_bar := rfl
    have e5 : (m.at8 s).f = m.f := rfl
    have e6 : (m.at8 s).b2_00_d = m.b2_00_d := rfl
    have e7 : (m.at8 s).toDm = m.toDm.at8 s := rfl
    rw [e1, e2, e5, e6, e7]; ring
  have h04 : Lead m.lin.s8 0 (fun s => (m.at8 s).P04_ss_mu4 N k) := by
    refine ((((hsq.add hsq).mul h8 (lead_P02nov (N := N) hm k)).cmul (-(1/8)*(m.ib1 + m.ib1_bar)*(m.f*k)^2)).add
      (((hhh m.b2_00_d).mul h8 (((hsq.mul h8 hsq).cmul 3).add (lead_kurt (N := N) hm))).cmul ((1/12)*(m.f*k)^4))).congr (by ring) fun s _ => ?_
    simp only [Biased.P04_ss_mu4, hsv, hsv']
    have e1 : (m.at8 s).ib1 = m.ib1 := rfl
    have e2 : (m.at8 s).ib1_bar = m.ib1_bar := rfl
    have e5 : (m.at8 s).f = m.f := rfl
    have e6 : (m.at8 s).b2_00_d = m.b2_00_d := rfl
    have e7 : (m.at8 s).toDm = m.toDm.at8 s := rfl
    rw [e1, e2, e5, e6, e7]; ring
  have h6 : Lead m.lin.s8 0 (fun s => (m.at8 s).P12_ss_mu6 N k + 1/8*m.f^4 * (m.toDm.at8 s).I N k 3 2) := by
    obtain ⟨d, hJ⟩ := lead_J (N := N) hm k 2 0
    refine (((((lead_I (N := N) hm k 2 1).sub ((lead_I (N := N) hm k 3 0).cmul ((1/2)*(m.ib1 + m.ib1_bar)))).add ((hJ.cmul (2*k^2)).mul h8 (lead_plin hm k))).cmul (m.f^3)).add
      ((lead_I (N := N) hm k 3 2).cmul (1/8*m.f^4))).congr (by ring) fun s _ => rfl
  refine Lead.congr (s8 := m.lin.s8) (((hns.add ((((h01 m.b2_01_a).add h112).add h022).cmul (mu^2))).add
    ((((((((h114.add h024).add h12).add h03).add h22).add h13).add h04)).cmul (mu^4))).add (h6.cmul (mu^6))) ?_ (fun s _ => ?_)
  · field_simp; ring
  · simp only [Biased.P_mu0, Biased.P_mu2, Biased.P_mu4, Biased.P_mu6, hN.node _ k hk]
    have e1 : (m.at8 s).correct_mu2 = false := hc.1
    have e2 : (m.at8 s).correct_mu4 = false := hc.2
    simp only [e1, e2, Bool.false_eq_true, if_false, Biased.P00_ss]
    have e3 : (m.at8 s).P00ns N k = (m.at8 s).Phm N k / (m.toDm.at8 s).P00_mu0 N k * ((m.at8 s).Phm_bar N k / (m.toDm.at8 s).P00_mu0 N k) * (m.toDm.at8 s).P00_mu0 N k := rfl
    rw [e3, add_sub_cancel_right]; rfl

/-- With simulated velocity dispersions, this is false: the dispersion does not go to zero with the fluctuations. -/
theorem C96_sims_velocity (m : Biased) (hm : Pert m.toDm) (hv : m.vel_disp_from_sims = true) (hb : m.use_mean_bias = false) (d : ℝ) (hd : ∀ b s, m.velDisp b s = d) :
    Tendsto (fun s => (m.at8 s).P02_ss_mu2 N k / (m.at8 s).norm) (𝓝[>] 0) (𝓝 (-(m.f*k)^2 * d^2 * (m.b1*m.b1_bar * m.lin.P k))) := by
  have h00 := lead_P00 (N := N) hm k
  have hK (a b : ℕ) (t : Bool) (p : ℕ) := lead_K (N := N) hm k a b t p
  have i1 : m.ib1 = m.b1 := by simp [Biased.ib1, hb]
  have i2 : m.ib1_bar = m.b1_bar := by simp [Biased.ib1_bar, hb]
  have hhh (b2 : ℝ → ℝ) : Lead m.lin.s8 (m.ib1*m.ib1_bar * m.lin.P k) (fun s => (m.at8 s).Phh N k b2) :=
    (((h00.cmul (m.ib1*m.ib1_bar)).add ((hK 0 0 false 0).cmul (m.ib1 * b2 m.ib1_bar + m.ib1_bar * b2 m.ib1))).add
      ((hK 0 0 true 0).cmul (m.bs * b2 m.ib1_bar + m.bs_bar * b2 m.ib1))).congr (by ring) fun s _ => rfl
  refine Lead.congr (s8 := m.lin.s8) ((((lead_P02nov (N := N) hm k).cmul ((1/2)*(m.ib1 + m.ib1_bar))).add ((hhh m.b2_00_c).cmul (-(m.f*k)^2*d^2))).add
      ((((hK 2 0 false 0).cmul (m.b2_00_c m.ib1 + m.b2_00_c m.ib1_bar)).add ((hK 2 0 true 0).cmul (m.bs + m.bs_bar))).cmul ((1/2)*m.f^2))) (by rw [i1, i2]; ring) fun s _ => ?_
  have v1 : (m.at8 s).sv N = d := by simp [Biased.sv, Biased.at8, hv, hd]
  have v2 : (m.at8 s).sv_bar N = d := by simp [Biased.sv_bar, Biased.at8, hv, hd]
  simp only [Biased.P02_ss_mu2, v1, v2]
  have e1 : (m.at8 s).ib1 = m.ib1 := rfl
  have e2 : (m.at8 s).ib1_bar = m.ib1_bar := rfl
  have e3 : (m.at8 s).bs = m.bs := rfl
  have e4 : (m.at8 s).bs_bar = m.bs_bar := rfl
  have e5 : (m.at8 s).f = m.f := rfl
  have e6 : (m.at8 s).b2_00_c = m.b2_00_c := rfl
  have e7 : (m.at8 s).toDm = m.toDm.at8 s := rfl
  rw [e1, e2, e3, e4, e5, e6, e7]; ring

end Verif.PT
