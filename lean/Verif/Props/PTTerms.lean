/-
C97: the cross-spectrum of two tracers does not depend on which one comes first.
C98: tracers with unit bias have the spectrum of the dark matter.
C102: in perturbation theory, P01 is the derivative of P00 along the growth history.
C103: the two halo spectra of the model agree to first order in the nonlinear biases.
-/
import Verif.Props.PTInt
import Verif.Model.PT
import Mathlib.Analysis.Calculus.Deriv.Pow
import Mathlib.Analysis.Calculus.Deriv.Add
import Mathlib.Analysis.Calculus.Deriv.Mul
import Mathlib.Tactic.FieldSimp
import Mathlib.Tactic.Ring
import Mathlib.Tactic.Linarith
import Mathlib.Tactic.Positivity

namespace Verif.PT

variable {N : Num}

/-! ### C97 -/

/-- The same model with the tracers exchanged -/
def Biased.swap (m : Biased) : Biased := { m with b1 := m.b1_bar, b1_bar := m.b1 }

theorem swap_ib1 (m : Biased) : m.swap.ib1 = m.ib1_bar := by simp only [Biased.ib1, Biased.ib1_bar, Biased.swap, mul_comm m.b1_bar]
theorem swap_ib1_bar (m : Biased) : m.swap.ib1_bar = m.ib1 := by simp only [Biased.ib1, Biased.ib1_bar, Biased.swap, mul_comm m.b1_bar]
theorem swap_bs (m : Biased) : m.swap.bs = m.bs_bar := by simp only [Biased.bs, Biased.bs_bar, swap_ib1]; rfl
theorem swap_bs_bar (m : Biased) : m.swap.bs_bar = m.bs := by simp only [Biased.bs, Biased.bs_bar, swap_ib1_bar]; rfl
theorem swap_sv (m : Biased) : m.swap.sv N = m.sv_bar N := by simp only [Biased.sv, Biased.sv_bar, swap_ib1]; rfl
theorem swap_sv_bar (m : Biased) : m.swap.sv_bar N = m.sv N := by simp only [Biased.sv, Biased.sv_bar, swap_ib1_bar]; rfl
theorem swap_Phm (m : Biased) (k : ℝ) : m.swap.Phm N k = m.Phm_bar N k := by simp only [Biased.Phm, Biased.Phm_bar, swap_ib1, swap_bs]; rfl
theorem swap_Phm_bar (m : Biased) (k : ℝ) : m.swap.Phm_bar N k = m.Phm N k := by simp only [Biased.Phm, Biased.Phm_bar, swap_ib1_bar, swap_bs_bar]; rfl
theorem swap_toDm (m : Biased) : m.swap.toDm = m.toDm := rfl
theorem swap_Phh (m : Biased) (k : ℝ) (b2 : ℝ → ℝ) : m.swap.Phh N k b2 = m.Phh N k b2 := by
  simp only [Biased.Phh, swap_ib1, swap_ib1_bar, swap_bs, swap_bs_bar, swap_toDm]; ring
theorem swap_P01 (m : Biased) (k : ℝ) (b2 : ℝ → ℝ) : m.swap.P01_ss N k b2 = m.P01_ss N k b2 := by
  simp only [Biased.P01_ss, swap_ib1, swap_ib1_bar, swap_bs, swap_bs_bar, swap_toDm]; ring
theorem swap_stoch (m : Biased) (k : ℝ) : m.swap.stochasticity N k = m.stochasticity N k := by
  unfold Biased.stochasticity
  congr 1
  change m.gspl _ = m.gspl _
  congr 1
  funext k
  rw [swap_ib1, swap_ib1_bar]
  by_cases h : m.ib1 = m.ib1_bar
  · simp only [h, ne_eq, not_true, if_false]; rfl
  · simp only [ne_eq, h, Ne.symm h, not_false_eq_true, if_true, min_comm m.ib1_bar, max_comm m.ib1_bar]; rfl

/-- Exchanging the tracers changes no term of the spectrum, for any biasing functions, with tidal terms, mean biases, simulated dispersions, corrections and stochasticity. -/
theorem C97_exchange (m : Biased) (k : ℝ) : m.swap.P_mu0 N k = m.P_mu0 N k ∧ m.swap.P_mu2 N k = m.P_mu2 N k ∧
    m.swap.P_mu4 N k = m.P_mu4 N k ∧ m.swap.P_mu6 N k = m.P_mu6 N k := by
  have h2 : ∀ k, m.swap.mu2_correction N k = m.mu2_correction N k := fun k => by
    simp only [Biased.mu2_correction, swap_ib1, swap_ib1_bar, mul_comm m.ib1_bar]; rfl
  have h4 : ∀ k, m.swap.mu4_correction N k = m.mu4_correction N k := fun k => by
    simp only [Biased.mu4_correction, swap_ib1, swap_ib1_bar, mul_comm m.ib1_bar]; rfl
  have h11 : ∀ k, m.swap.P11_ss_mu2 N k = m.P11_ss_mu2 N k := fun k => by
    simp only [Biased.P11_ss_mu2, swap_ib1, swap_ib1_bar, swap_toDm]; ring
  refine ⟨?_, ?_, ?_, ?_⟩
  · have e : ∀ k, m.swap.P00_ss N k = m.P00_ss N k := fun k => by
      simp only [Biased.P00_ss, Biased.P00ns, swap_Phm, swap_Phm_bar, swap_stoch, swap_toDm]; ring
    simp only [Biased.P_mu0, e]
  · have e : ∀ k, m.swap.P02_ss_mu2 N k = m.P02_ss_mu2 N k := fun k => by
      simp only [Biased.P02_ss_mu2, swap_ib1, swap_ib1_bar, swap_bs, swap_bs_bar, swap_sv, swap_sv_bar, swap_Phh, swap_toDm]
      simp only [Biased.swap]; ring
    simp only [Biased.P_mu2, e, h2, h11, swap_P01]; rfl
  · have e1 : ∀ k, m.swap.P11_ss_mu4 N k = m.P11_ss_mu4 N k := fun k => by
      simp only [Biased.P11_ss_mu4, swap_ib1, swap_ib1_bar, swap_toDm]; ring
    have e2 : ∀ k, m.swap.P02_ss_mu4 N k = m.P02_ss_mu4 N k := fun k => by
      simp only [Biased.P02_ss_mu4, swap_ib1, swap_ib1_bar, swap_bs, swap_bs_bar, swap_toDm]
      simp only [Biased.swap]; ring
    have e3 : ∀ k, m.swap.P12_ss_mu4 N k = m.P12_ss_mu4 N k := fun k => by
      simp only [Biased.P12_ss_mu4, swap_ib1, swap_ib1_bar, swap_sv, swap_sv_bar, swap_P01, swap_toDm]
      simp only [Biased.swap]; ring
    have e4 : ∀ k, m.swap.P03_ss N k = m.P03_ss N k := fun k => by
      simp only [Biased.P03_ss, swap_sv, swap_sv_bar, swap_P01, swap_toDm]
      simp only [Biased.swap]; ring
    have e5 : ∀ k, m.swap.P22_ss_mu4 N k = m.P22_ss_mu4 N k := fun k => by
      simp only [Biased.P22_ss_mu4, swap_ib1, swap_ib1_bar, swap_sv, swap_sv_bar, swap_Phh, swap_toDm]
      simp only [Biased.swap]; ring
    have e6 : ∀ k, m.swap.P13_ss_mu4 N k = m.P13_ss_mu4 N k := fun k => by
      simp only [Biased.P13_ss_mu4, swap_sv, swap_sv_bar, h11, swap_toDm]; ring
    have e7 : ∀ k, m.swap.P04_ss_mu4 N k = m.P04_ss_mu4 N k := fun k => by
      simp only [Biased.P04_ss_mu4, swap_ib1, swap_ib1_bar, swap_sv, swap_sv_bar, swap_Phh, swap_toDm]
      simp only [Biased.swap]; ring
    simp only [Biased.P_mu4, e1, e2, e3, e4, e5, e6, e7, h4]; rfl
  · have e : ∀ k, m.swap.P12_ss_mu6 N k = m.P12_ss_mu6 N k := fun k => by
      simp only [Biased.P12_ss_mu6, swap_ib1, swap_ib1_bar, swap_toDm]; ring
    simp only [Biased.P_mu6, e]; rfl

/-! ### C102 -/

/-- Along any growth history of sigma8 with logarithmic rate f, the P01 of perturbation theory is the derivative of the P00 of perturbation theory, for any quadrature and splines. -/
theorem C102_growth (m : Dm) (hm : m.P00_mu0_loaded = none ∧ m.P01_mu2_loaded = none ∧ m.use_P00_model = false ∧ m.use_P01_model = false)
    (S : ℝ → ℝ) (x k : ℝ) (hS : HasDerivAt S (m.f * S x) x) (hx : m.sigma8_z = S x) :
    HasDerivAt (fun t => ({ m with sigma8_z := S t } : Dm).P00_mu0 N k) (m.P01_mu2 N k) x := by
  obtain ⟨h1, h2, h3, h4⟩ := hm
  simp only [Dm.P00_mu0, Dm.P01_mu2, h1, h2, h3, h4, Bool.false_eq_true, if_false, Dm.plin, Dm.I, Dm.J, Dm.norm]
  set i := N.ispl (fun k => (imn N m.lin.P k 0 0).getD 0) k
  set j := N.ispl (fun k => (jmn N m.lin.P k 0 0).getD 0) k
  set p := m.lin.P k
  have hn : HasDerivAt (fun t => (S t / m.lin.s8)^2) (2*m.f*(m.sigma8_z / m.lin.s8)^2) x := by
    rw [hx]
    refine ((hS.div_const m.lin.s8).pow 2).congr_deriv ?_
    push_cast; ring
  have h := ((hn.mul_const p).add (((hn.pow 2).mul_const i).const_mul 2)).add
    ((((hn.mul_const j).const_mul (6*k^2)).mul (hn.mul_const p)))
  refine (h.congr_deriv ?_).congr_of_eventuallyEq (Filter.Eventually.of_forall fun t => ?_)
  · rw [hx]; push_cast; ring
  · simp only [Pi.add_apply, Pi.mul_apply, Pi.pow_apply]

/-! ### Interpolation on a grid -/

/-- The splines on the grid `k` pass through the nodes and depend on the values there only. -/
structure Nodes (N : Num) (grid : Set ℝ) : Prop where
  node : ∀ F, ∀ x ∈ grid, N.kspl F x = F x
  ext : ∀ F G, (∀ x ∈ grid, F x = G x) → N.kspl F = N.kspl G

/-- Exact interpolation is one. -/
theorem nodes_exact : Nodes Num.exact Set.univ := ⟨fun _ _ _ => rfl, fun _ _ h => funext fun x => h x trivial⟩

/-! ### C103 -/

/-- At the nodes, the product `Phm Phm_bar / P00` (the mu⁰ term) and the halo spectrum of the velocity terms with the same nonlinear biases differ by a term of second order in the
nonlinear biases when there are no tidal terms, and in general also by the terms of first order in the tidal bias. -/
theorem C103_halo_spectra (m : Biased) {grid : Set ℝ} (hN : Nodes N grid) {k : ℝ} (hk : k ∈ grid) (hP : m.use_Phm_model = false) (h0 : m.P00_mu0 N k ≠ 0) :
    m.P00ns N k = m.Phh N k m.b2_00_a +
      (m.b2_00_a m.ib1 * m.K N k 0 0 + m.bs * m.K N k 0 0 true) * (m.b2_00_a m.ib1_bar * m.K N k 0 0 + m.bs_bar * m.K N k 0 0 true) / m.P00_mu0 N k +
      (m.ib1 * m.bs_bar + m.ib1_bar * m.bs - (m.bs * m.b2_00_a m.ib1_bar + m.bs_bar * m.b2_00_a m.ib1)) * m.K N k 0 0 true := by
  simp only [Biased.P00ns, Biased.Phm, Biased.Phm_bar, Biased.Phh, hN.node _ k hk, hP, Bool.false_eq_true, if_false]
  field_simp
  ring

/-- Without tidal terms -/
theorem C103_no_tidal_partial (m : Biased) {grid : Set ℝ} (hN : Nodes N grid) {k : ℝ} (hk : k ∈ grid) (hP : m.use_Phm_model = false) (h0 : m.P00_mu0 N k ≠ 0)
    (ht : m.use_tidal_bias = false) :
    m.P00ns N k = m.Phh N k m.b2_00_a + m.b2_00_a m.ib1 * m.b2_00_a m.ib1_bar * (m.K N k 0 0)^2 / m.P00_mu0 N k := by
  rw [C103_halo_spectra m hN hk hP h0]
  simp only [Biased.bs, Biased.bs_bar, ht, Bool.false_eq_true, if_false]
  field_simp
  ring

/-- With tidal terms and no other nonlinear bias, the halo spectrum of the velocity terms has no tidal contribution at all, while the mu⁰ term has one of first order. -/
theorem C103_tidal (m : Biased) {grid : Set ℝ} (hN : Nodes N grid) {k : ℝ} (hk : k ∈ grid) (hP : m.use_Phm_model = false) (h0 : m.P00_mu0 N k ≠ 0)
    (ht : m.use_tidal_bias = true) (hb2 : ∀ b, m.b2_00_a b = 0) (hm : m.use_mean_bias = false) (hb : m.b1 = 2 ∧ m.b1_bar = 2) :
    m.Phh N k m.b2_00_a = 4 * m.P00_mu0 N k ∧
    m.P00ns N k = 4 * m.P00_mu0 N k - 8/7 * m.K N k 0 0 true + 4/49 * (m.K N k 0 0 true)^2 / m.P00_mu0 N k := by
  have e : m.Phh N k m.b2_00_a = 4 * m.P00_mu0 N k := by
    simp only [Biased.Phh, Biased.bs, Biased.bs_bar, Biased.ib1, Biased.ib1_bar, hm, hb.1, hb.2, hb2, Bool.false_eq_true, if_false]; ring
  refine ⟨e, ?_⟩
  rw [C103_halo_spectra m hN hk hP h0, e]
  simp only [Biased.bs, Biased.bs_bar, Biased.ib1, Biased.ib1_bar, hm, ht, hb.1, hb.2, hb2, Bool.false_eq_true, if_false, if_true]
  field_simp
  ring

/-! #### A concrete model: a linear spectrum with power from 2 to 2.2, halos of bias 2 with tidal bias, seen at k = 1 -/

theorem inside2 : Inside 2 (11/5) := by norm_num [Inside]

theorem f00_form (u v : ℝ) : f00 u v = (4 * (4 + 3*v*v + u*u*(3 - 10*v*v))^2 / 49) / (u*u - v*v)^4 := by
  simp only [f00, div_div]
theorem k00s_form (u v : ℝ) : k00s u v = ((8 + 6*(v*v) + u*u*(6 - 20*(v*v)))/7 * ((2 * (6 + u*u*(u*u) - 6*(v*v) + v*v*(v*v) + u*u*(-6 + 4*(v*v))))/3)) / (u*u - v*v)^4 := by
  simp only [k00s, F2, S2, div_mul_div_comm, div_div]
  congr 1; ring

theorem box2_bounds {p : ℝ × ℝ} (hp : p ∈ box 2 (11/5)) : 16 ≤ (p.1 + p.2)*(p.1 + p.2) ∧ (p.2 - p.1)*(p.2 - p.1) ≤ 4/25 ∧ 0 ≤ (p.2 - p.1)*(p.2 - p.1) := by
  obtain ⟨h1, h2⟩ := box_bounds inside2 hp
  exact ⟨by nlinarith, by nlinarith, mul_self_nonneg _⟩

theorem I00_pos : ∃ x, imn Num.exact (boxP 2 (11/5)) 1 0 0 = some x ∧ 0 < x := by
  have hc := box_continuous inside2 4 (N := fun u v => 4 * (4 + 3*v*v + u*u*(3 - 10*v*v))^2 / 49) (by fun_prop) f00_form
  refine ⟨_, C94_imn_coupling (m := 0) (n := 0) rfl one_pos (by norm_num) (box_integrable (w := fun q r => f00 ((q + r)/1) ((r - q)/1)) hc 100000), ?_⟩
  refine box_pos inside2 hc (fun p hp => ?_) (by norm_num)
  obtain ⟨h1, h2, h3⟩ := box2_bounds hp
  rw [f00_form, div_one, div_one]
  have hd : 0 < (p.1 + p.2)*(p.1 + p.2) - (p.2 - p.1)*(p.2 - p.1) := by linarith
  have hn : 0 < 4 + 3*(p.2 - p.1)*(p.2 - p.1) + (p.1 + p.2)*(p.1 + p.2)*(3 - 10*(p.2 - p.1)*(p.2 - p.1)) := by nlinarith
  positivity

theorem K00s_pos : ∃ x, kmn Num.exact (boxP 2 (11/5)) 1 0 0 true 0 = some x ∧ 0 < x := by
  have hc := box_continuous inside2 4 (N := fun u v => (8 + 6*(v*v) + u*u*(6 - 20*(v*v)))/7 * ((2 * (6 + u*u*(u*u) - 6*(v*v) + v*v*(v*v) + u*u*(-6 + 4*(v*v))))/3))
    (by fun_prop) k00s_form
  refine ⟨_, C94_kmn_coupling (m := 0) (n := 0) (part := 0) (t := true) rfl one_pos (by norm_num) (box_integrable (w := fun q r => k00s ((q + r)/1) ((r - q)/1)) hc 100000), ?_⟩
  refine box_pos inside2 hc (fun p hp => ?_) (by norm_num)
  obtain ⟨h1, h2, h3⟩ := box2_bounds hp
  rw [k00s_form, div_one, div_one]
  have hd : 0 < (p.1 + p.2)*(p.1 + p.2) - (p.2 - p.1)*(p.2 - p.1) := by linarith
  set a := (p.1 + p.2)*(p.1 + p.2)
  set b := (p.2 - p.1)*(p.2 - p.1)
  have n1 : 0 < 8 + 6*b + a*(6 - 20*b) := by nlinarith
  have n2 : 0 < 6 + a*a - 6*b + b*b + a*(-6 + 4*b) := by nlinarith [mul_nonneg h3 (by linarith : (0:ℝ) ≤ a)]
  positivity

/-- a model of perturbation theory with this spectrum -/
noncomputable def boxDm : Dm where
  lin := ⟨boxP 2 (11/5), 1⟩
  sigma8_z := 1
  f := 1
  conformalH := 100
  h := 1
  sigma_v := none
  sigma_v2 := 0
  sigma_bv2 := 0
  sigma_bv4 := 0
  include_2loop := true
  use_P00_model := false
  use_P01_model := false
  use_P11_model := false
  use_Pdv_model := false
  use_Pvv_model := false
  hzptP00 _ := 0
  hzptP01 _ := 0
  hzptP11 _ := 0
  modelPdv _ := 0
  modelPvv _ := 0

/-- tracers of linear bias b in it -/
noncomputable def boxBiased (b : ℝ) (tidal : Bool) : Biased where
  toDm := boxDm
  b1 := b
  b1_bar := b
  use_mean_bias := false
  use_tidal_bias := tidal
  vel_disp_from_sims := false
  use_Phm_model := false
  correct_mu2 := false
  correct_mu4 := false
  b2_00_a _ := 0
  b2_00_b _ := 0
  b2_00_c _ := 0
  b2_00_d _ := 0
  b2_01_a _ := 0
  b2_01_b _ := 0
  hzptPhm _ _ := 0
  velDisp _ _ := 0
  autoStoch _ _ _ := 0
  crossStoch _ _ _ _ := 0
  mu2Corr _ _ _ _ := 0
  mu4Corr _ _ _ _ := 0
  gspl F := F

theorem boxDm_P00 : 0 < boxDm.P00_mu0 Num.exact 1 := by
  obtain ⟨x, hx, hpos⟩ := I00_pos
  have hP : boxP 2 (11/5) 1 = 0 := by norm_num [boxP]
  have : boxDm.P00_mu0 Num.exact 1 = 2*x := by
    simp only [Dm.P00_mu0, boxDm, Bool.false_eq_true, if_false, Dm.plin, Dm.norm, Dm.I, Dm.J, hP, mul_zero]
    have e : Num.exact.ispl (fun k => (imn Num.exact (boxP 2 (11/5)) k 0 0).getD 0) 1 = x := by simp only [Num.exact] at hx ⊢; rw [hx]; rfl
    rw [e]; ring
  rw [this]; linarith

/-- The halo spectra do differ at first order in the tidal bias: with b1 = 2 and the tidal bias the code derives from it, there is a spectrum where the mu⁰ term has a tidal
contribution and the velocity terms have none. -/
theorem C103_tidal_counterexample : ∃ m : Biased, m.use_tidal_bias = true ∧ m.use_Phm_model = false ∧ m.P00_mu0 Num.exact 1 ≠ 0 ∧
    m.K Num.exact 1 0 0 true ≠ 0 ∧ m.Phh Num.exact 1 m.b2_00_a = 4 * m.P00_mu0 Num.exact 1 ∧
    m.P00ns Num.exact 1 = 4 * m.P00_mu0 Num.exact 1 - 8/7 * m.K Num.exact 1 0 0 true + 4/49 * (m.K Num.exact 1 0 0 true)^2 / m.P00_mu0 Num.exact 1 := by
  obtain ⟨x, hx, hpos⟩ := K00s_pos
  refine ⟨boxBiased 2 true, rfl, rfl, boxDm_P00.ne', ?_,
    C103_tidal (boxBiased 2 true) nodes_exact (Set.mem_univ 1) rfl boxDm_P00.ne' rfl (fun _ => rfl) rfl ⟨rfl, rfl⟩⟩
  have : (boxBiased 2 true).K Num.exact 1 0 0 true = x := by
    simp only [Dm.K, boxBiased, boxDm, Dm.norm]
    have e : Num.exact.ispl (fun k => (kmn Num.exact (boxP 2 (11/5)) k 0 0 true 0).getD 0) 1 = x := by simp only [Num.exact] at hx ⊢; rw [hx]; rfl
    rw [e]; norm_num
  rw [this]; exact hpos.ne'

/-! ### C98 -/

/-- Tracers with unit bias, no nonlinear bias there, no stochasticity, two-loop terms, dispersions of linear theory, perturbation theory throughout -/
structure Unit (m : Biased) : Prop where
  b1 : m.b1 = 1
  b1_bar : m.b1_bar = 1
  b2_00 : m.b2_00_a 1 = 0 ∧ m.b2_00_b 1 = 0 ∧ m.b2_00_c 1 = 0 ∧ m.b2_00_d 1 = 0
  b2_01 : m.b2_01_a 1 = 0 ∧ m.b2_01_b 1 = 0
  loops : m.include_2loop = true
  phm : m.use_Phm_model = false
  sims : m.vel_disp_from_sims = false
  corr : m.correct_mu2 = false ∧ m.correct_mu4 = false
  small : m.sigma_v2 = 0 ∧ m.sigma_bv2 = 0 ∧ m.sigma_bv4 = 0

/-- The hypotheses hold for a model with power. -/
example : Unit (boxBiased 1 true) ∧ (boxBiased 1 true).P00_mu0 Num.exact 1 ≠ 0 :=
  ⟨⟨rfl, rfl, ⟨rfl, rfl, rfl, rfl⟩, ⟨rfl, rfl⟩, rfl, rfl, rfl, ⟨rfl, rfl⟩, ⟨rfl, rfl, rfl⟩⟩, boxDm_P00.ne'⟩

variable {m : Biased} (hm : Unit m)
include hm

theorem unit_ib1 : m.ib1 = 1 := by simp [Biased.ib1, hm.b1, hm.b1_bar]
theorem unit_ib1_bar : m.ib1_bar = 1 := by simp [Biased.ib1_bar, hm.b1, hm.b1_bar]
theorem unit_bs : m.bs = 0 := by simp [Biased.bs, unit_ib1 hm]
theorem unit_bs_bar : m.bs_bar = 0 := by simp [Biased.bs_bar, unit_ib1_bar hm]
theorem unit_sv : m.sv N = m.sigmaV N := by simp [Biased.sv, hm.sims]
theorem unit_sv_bar : m.sv_bar N = m.sigmaV N := by simp [Biased.sv_bar, hm.sims]
theorem unit_Phh (k : ℝ) {b2 : ℝ → ℝ} (hb : b2 1 = 0) : m.Phh N k b2 = m.P00_mu0 N k := by
  simp [Biased.Phh, unit_ib1 hm, unit_ib1_bar hm, unit_bs hm, unit_bs_bar hm, hb]
theorem unit_P01 (k : ℝ) {b2 : ℝ → ℝ} (hb : b2 1 = 0) : m.P01_ss N k b2 = m.P01_mu2 N k := by
  simp [Biased.P01_ss, unit_ib1 hm, unit_ib1_bar hm, unit_bs hm, unit_bs_bar hm, hb]

/-- mu⁰: the spectrum is that of the matter plus the stochasticity. -/
theorem C98_mu0 {grid : Set ℝ} (hN : Nodes N grid) {k : ℝ} (hk : k ∈ grid) (h0 : m.P00_mu0 N k ≠ 0) :
    m.P_mu0 N k = m.toDm.P_mu0 N k + m.stochasticity N k := by
  simp only [Biased.P_mu0, Dm.P_mu0, Biased.P00_ss, Biased.P00ns, Biased.Phm, Biased.Phm_bar, hN.node _ k hk, hm.phm, unit_ib1 hm, unit_ib1_bar hm, unit_bs hm, unit_bs_bar hm,
    hm.b2_00.1, Bool.false_eq_true, if_false]
  field_simp
  ring

/-- mu²: the spectrum is that of the matter. -/
theorem C98_mu2 (k : ℝ) (hl : m.P11_mu2_loaded = none) : m.P_mu2 N k = m.toDm.P_mu2 N k := by
  simp only [Biased.P_mu2, Dm.P_mu2]
  congr 1; funext k
  simp only [unit_P01 hm k hm.b2_01.1, Biased.P11_ss_mu2, Biased.P02_ss_mu2, unit_Phh hm k hm.b2_00.2.2.1, unit_ib1 hm, unit_ib1_bar hm, unit_bs hm, unit_bs_bar hm, unit_sv hm,
    unit_sv_bar hm, hm.b2_00.2.2.1, hm.corr.1, hm.loops, hl, Dm.P11_mu2, Dm.P02_mu2, Dm.P02_mu2_vel, Dm.sigsq, hm.small.2.1, Bool.false_eq_true, if_false, if_true]
  ring

/-- mu⁴: the terms agree except for one term of the dark-matter spectrum that the tracers lack; `Pdd` and `P00`, which are the same quantity computed in two ways, are kept apart. -/
theorem C98_mu4_partial {grid : Set ℝ} (hN : Nodes N grid) {k : ℝ} (hk : k ∈ grid) (hl : m.P11_mu2_loaded = none) :
    m.P_mu4 N k = m.toDm.P_mu4 N k - (m.f*k)^4 * m.plin k * (m.J N k 0 2)^2 + (1/2)*(m.f*k)^4 * (m.Pdd N k - m.P00_mu0 N k) * (m.sigmasq_k N k)^2 := by
  simp only [Biased.P_mu4, Dm.P_mu4, hN.node _ k hk]
  simp only [unit_P01 hm k hm.b2_01.2, Biased.P11_ss_mu2, Biased.P11_ss_mu4, Biased.P02_ss_mu4, Biased.P12_ss_mu4, Biased.P03_ss, Biased.P22_ss_mu4, Biased.P13_ss_mu4,
    Biased.P04_ss_mu4, unit_Phh hm k hm.b2_00.2.2.2, unit_ib1 hm, unit_ib1_bar hm, unit_bs hm, unit_bs_bar hm, unit_sv hm, unit_sv_bar hm, hm.b2_00.2.1, hm.corr.2, hm.loops, hl,
    Dm.P11_mu2, Dm.P12_mu4, Dm.P03_mu4, Dm.P13_mu4, Dm.P04_mu4, Dm.P22_mu4, Dm.P22_mu4_nov, Dm.sigsq, hm.small.1, hm.small.2.1, hm.small.2.2, Bool.false_eq_true, if_false, if_true]
  ring

/-- mu⁶: of the terms of the dark-matter spectrum, the tracers have that of P12, and that of P22 at one loop only. -/
theorem C98_mu6_partial {grid : Set ℝ} (hN : Nodes N grid) {k : ℝ} (hk : k ∈ grid) :
    ∃ p, m.toDm.P_mu6 N k = some p ∧ m.P_mu6 N k = p - 1/8*m.f^4 * (m.two N k (m.vvvv N) 3 2 - m.I N k 3 2)
      - 2*(m.f*k)^4 * m.plin k * m.J N k 0 2 * m.J N k 2 0 + (m.f*k)^2 * (m.sigmaV N)^2 * (m.P02_mu4 N k + m.P11_mu4 N k) := by
  refine ⟨N.kspl (fun k => m.P12_mu6 N k + m.P22_mu6 N k + (m.P13_mu6 N k).getD 0 + m.P04_mu6 N k) k, by simp only [Dm.P_mu6, hm.loops, if_true], ?_⟩
  simp only [Biased.P_mu6, hN.node _ k hk, Biased.P12_ss_mu6, unit_ib1 hm, unit_ib1_bar hm, Dm.P12_mu6, Dm.P22_mu6, Dm.P22_mu6_nov, Dm.P13_mu6, Dm.P04_mu6, hm.loops, Dm.sigsq,
    hm.small.1, hm.small.2.1, hm.small.2.2, if_true, Option.getD_some]
  ring

omit hm in
/-- With exact numerics, `Pdd` and the `P00` of perturbation theory are the same in the range of the one-loop tables. -/
theorem pdd_eq_p00 (m : Dm) (hl : m.P00_mu0_loaded = none) (hp : m.use_P00_model = false) {k : ℝ} (h1 : 1/100000 ≤ k) (h2 : k ≤ 10) :
    m.Pdd Num.exact k = m.P00_mu0 Num.exact k := by
  have : ¬(k < 1/100000 ∨ k > 10) := by rw [not_or, not_lt, gt_iff_lt, not_lt]; exact ⟨h1, h2⟩
  simp only [Dm.Pdd, Dm.P00_mu0, hl, hp, Bool.false_eq_true, if_false, Dm.Pdd0, oneLoopPdd, oneLoopEval, if_neg this, oneLoopTable, Dm.plin, Dm.I, Dm.J, Num.exact]
  ring

/-- mu⁴ with exact numerics: the spectrum of tracers with unit bias lacks exactly the term `(fk)⁴ P J02²` of `<v²|v²>` of the dark matter. -/
theorem C98_mu4_exact_partial {k : ℝ} (h1 : 1/100000 ≤ k) (h2 : k ≤ 10) (hl : m.P11_mu2_loaded = none) (h0 : m.P00_mu0_loaded = none) (hp : m.use_P00_model = false) :
    m.P_mu4 Num.exact k = m.toDm.P_mu4 Num.exact k - (m.f*k)^4 * m.plin k * (m.J Num.exact k 0 2)^2 := by
  rw [C98_mu4_partial hm nodes_exact (Set.mem_univ k) hl, pdd_eq_p00 m.toDm h0 hp h1 h2]; ring

omit hm in
/-- Without the two-loop terms, the mu⁶ term of the dark matter cannot be evaluated, although `max_mu = 6` is allowed: one of its terms refers to an attribute that does not exist. -/
theorem C98_mu6_counterexample (m : Dm) (h : m.include_2loop = false) (k : ℝ) : m.P_mu6 N k = none ∧ m.P13_mu6 N k = none := by
  simp [Dm.P_mu6, Dm.P13_mu6, h]

end Verif.PT
