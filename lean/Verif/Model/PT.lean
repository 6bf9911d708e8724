/-
Model of the terms of the dark-matter and biased-tracer spectra: `pyRSD/rsd/pt_integrals.py`, `rsd/power/dm/*.py`, `rsd/power/biased/*.py`.

Simplifications.  Real arithmetic: where Python divides by zero or takes the root of a negative number (f = 0, P00 = 0, negative biases) the model has a number and Python raises or
returns NaN.  The spectra of the Halo-Zel'dovich model, the simulation fits and loaded tables are functions in the record.  Caching is not modelled here (C01, C09): an attribute is
its formula at the current parameters.
-/
import Verif.Model.PTKernels

namespace Verif.PT

noncomputable section

/-- `power_lin` at z = 0 and `cosmo.sigma8()` (`power_dm.py:553-575`) -/
structure Lin where
  P : ℝ → ℝ
  s8 : ℝ

/-- The parameters and fixed functions of a `DarkMatterSpectrum` (`power_dm.py:119-155`) -/
structure Dm where
  lin : Lin
  sigma8_z : ℝ
  f : ℝ
  conformalH : ℝ
  h : ℝ
  /-- `none`: not set by the user, defaults to `sigma_lin` (`power_dm.py:455-461`) -/
  sigma_v : Option ℝ
  sigma_v2 : ℝ
  sigma_bv2 : ℝ
  sigma_bv4 : ℝ
  include_2loop : Bool
  use_P00_model : Bool
  use_P01_model : Bool
  use_P11_model : Bool
  use_Pdv_model : Bool
  use_Pvv_model : Bool
  /-- `hzpt.P00`, `hzpt.P01`, `hzpt.P11` and the models of `Pdv` and `Pvv` at the current parameters -/
  hzptP00 : ℝ → ℝ
  hzptP01 : ℝ → ℝ
  hzptP11 : ℝ → ℝ
  modelPdv : ℝ → ℝ
  modelPvv : ℝ → ℝ
  /-- data loaded by `_load` (`sim_loader.py:56-68`) -/
  P00_mu0_loaded : Option (ℝ → ℝ) := none
  P01_mu2_loaded : Option (ℝ → ℝ) := none
  P11_mu2_loaded : Option (ℝ → ℝ) := none
  P11_mu4_loaded : Option (ℝ → ℝ) := none
  Pdv_loaded : Option (ℝ → ℝ) := none

namespace Dm

variable (N : Num) (m : Dm) (k : ℝ)

/-- `_power_norm` (`power_dm.py:569-575`) -/
def norm : ℝ := (m.sigma8_z / m.lin.s8)^2
/-- `normed_power_lin` (`power_dm.py:801-806`) -/
def plin : ℝ := m.norm * m.lin.P k

/-! ### Integrals (`pt_integrals.py`) -/

/-- `J00` … `J20` (`pt_integrals.py:139-176`) -/
def J (a b : ℕ) : ℝ := m.norm * N.ispl (fun k => (jmn N m.lin.P k a b).getD 0) k
/-- `I00` … `I33` (`pt_integrals.py:181-276`) -/
def I (a b : ℕ) : ℝ := m.norm^2 * N.ispl (fun k => (imn N m.lin.P k a b).getD 0) k
/-- `K00` … `K20s_b` (`pt_integrals.py:281-356`) -/
def K (a b : ℕ) (tidal : Bool := false) (part : ℕ := 0) : ℝ := m.norm^2 * N.ispl (fun k => (kmn N m.lin.P k a b tidal part).getD 0) k
/-- `_Pdd_0`, `_Pdv_0`, `_Pvv_0` (`pt_integrals.py:62-82`) -/
def Pdd0 : ℝ → ℝ := oneLoopPdd N m.lin.P
@[inherit_doc Pdd0] def Pdv0 : ℝ → ℝ := oneLoopPdv N m.lin.P
@[inherit_doc Pdd0] def Pvv0 : ℝ → ℝ := oneLoopPvv N m.lin.P
/-- `_Imn1Loop_vvdd` (`pt_integrals.py:120-126`) -/
def vvdd : OneLoop := OneLoop.mk2 m.lin.P (m.Pvv0 N) (m.Pdd0 N)
/-- `_Imn1Loop_dvdv` (`pt_integrals.py:112-118`) -/
def dvdv : OneLoop := OneLoop.mk1 m.lin.P (m.Pdv0 N)
/-- `_Imn1Loop_vvvv` (`pt_integrals.py:128-134`) -/
def vvvv : OneLoop := OneLoop.mk1 m.lin.P (m.Pvv0 N)
/-- The two-loop integrals and their normalisation (`pt_integrals.py:30-40`, `361-421`) -/
def two (o : OneLoop) (a b : ℕ) : ℝ :=
  m.norm^2 * N.ispl (fun k => (o.linear N k a b).getD 0) k + m.norm^3 * N.ispl (fun k => (o.cross N k a b).getD 0) k +
    m.norm^4 * N.ispl (fun k => (o.oneLoop N k a b).getD 0) k
/-- `velocity_kurtosis` (`pt_integrals.py:426-439`) -/
def kurtosis : ℝ := m.norm^2 * velocityKurtosis N m.lin.P
/-- `sigmasq_k` (`pt_integrals.py:441-450`) -/
def sigmasq_k : ℝ := m.norm * N.ispl (fun k => velocityDispersionK N m.lin.P k (1/2)) k
/-- `sigma_lin` (`power_dm.py:577-591`) -/
def sigma_lin : ℝ := Real.sqrt m.norm * Real.sqrt (velocityDispersion N m.lin.P)
/-- `sigma_v` with its default (`power_dm.py:455-461`) -/
def sigmaV : ℝ := m.sigma_v.getD (m.sigma_lin N)
/-- `sigsq_eff` with one of the small-scale dispersions in km/s (e.g. `dm/P02.py:28-31`) -/
def sigsq (s : ℝ) : ℝ := (m.sigmaV N)^2 + (s * m.h / (m.f * m.conformalH))^2

/-! ### Dark-matter terms -/

/-- `P00_mu0.total` (`dm/P00.py:7-25`) -/
def P00_mu0 : ℝ := match m.P00_mu0_loaded with
  | some g => g k
  | none =>
    if m.use_P00_model then m.hzptP00 k
    else
      let P11 := m.plin k
      let P22 := 2 * m.I N k 0 0
      let P13 := 6*k^2 * m.J N k 0 0 * P11
      P11 + P22 + P13

/-- `P01_mu2.total` (`dm/P01.py:7-26`) -/
def P01_mu2 : ℝ := match m.P01_mu2_loaded with
  | some g => g k
  | none =>
    if m.use_P01_model then m.hzptP01 k
    else 2*m.f*(m.plin k + 4*(m.I N k 0 0 + 3*k^2 * m.J N k 0 0 * m.plin k))

/-- `P02_mu2.no_velocity` (`dm/P02.py:7-18`) -/
def P02_mu2_nov : ℝ := m.f^2 * (m.I N k 0 2 + 2*k^2 * m.J N k 0 2 * m.plin k)
/-- `P02_mu2.with_velocity` (`dm/P02.py:20-36`) -/
def P02_mu2_vel : ℝ :=
  if m.include_2loop then -(m.f*k)^2 * m.sigsq N m.sigma_bv2 * m.P00_mu0 N k
  else -(m.f*k)^2 * m.sigsq N m.sigma_bv2 * m.plin k
/-- `P02_mu2.total` (`dm/P02.py:38-39`) -/
def P02_mu2 : ℝ := m.P02_mu2_vel N k + m.P02_mu2_nov N k
/-- `P02_mu4` (`dm/P02.py:41-54`) -/
def P02_mu4 : ℝ := m.f^2 * (m.I N k 2 0 + 2*k^2 * m.J N k 2 0 * m.plin k)

/-- `P03_mu4` (`dm/P03.py:7-25`) -/
def P03_mu4 : ℝ :=
  if m.include_2loop then -(1/2)*(m.f*k)^2 * m.sigsq N m.sigma_v2 * m.P01_mu2 N k
  else -m.f*(m.f*k)^2 * m.sigsq N m.sigma_v2 * m.plin k

/-- `P04_mu4` (`dm/P04.py:7-32`) -/
def P04_mu4 : ℝ :=
  (if m.include_2loop then 1/12*(m.f*k)^4 * m.P00_mu0 N k * m.kurtosis N else 0) +
  (if m.include_2loop then
    -(1/2)*(m.f*k)^2 * m.sigsq N m.sigma_bv4 * m.P02_mu2_nov N k + (1/4)*(m.f*k)^4 * (m.sigsq N m.sigma_bv4)^2 * m.P00_mu0 N k else 0)
/-- `P04_mu6` (`dm/P04.py:34-51`) -/
def P04_mu6 : ℝ := if m.include_2loop then -(1/2)*(m.f*k)^2 * m.sigsq N m.sigma_bv4 * m.P02_mu4 N k else 0

/-- `P11_mu2` (`dm/P11.py:7-26`) -/
def P11_mu2 : ℝ := match m.P11_mu2_loaded with
  | some g => g k
  | none =>
    if m.include_2loop then m.f^2 * (m.two N k (m.vvdd N) 0 1 + m.two N k (m.dvdv N) 0 3)
    else m.f^2 * m.I N k 3 1
/-- `P11_mu4.scalar` (`dm/P11.py:35-54`); `vector` is minus that of mu2 (line 32-33) -/
def P11_mu4_scalar : ℝ :=
  let C11 := if m.include_2loop then m.two N k (m.vvdd N) 0 2 + m.two N k (m.dvdv N) 0 4 else m.I N k 1 3
  let part2 := 2*m.I N k 1 1 + 4*m.I N k 2 2 + 6*k^2 * (m.J N k 1 1 + 2*m.J N k 1 0) * m.plin k
  m.f^2 * (m.plin k + part2 + C11) - -m.P11_mu2 N k
/-- `P11_mu4.total` (`dm/P11.py:56-70`) -/
def P11_mu4 : ℝ := match m.P11_mu4_loaded with
  | some g => g k
  | none =>
    if m.use_P11_model then m.hzptP11 k - m.f^2 * m.I N k 3 1
    else m.P11_mu4_scalar N k + -m.P11_mu2 N k

/-- `P12_mu4.no_velocity` (`dm/P12.py:7-18`) -/
def P12_mu4_nov : ℝ := m.f^3 * (m.I N k 1 2 - m.I N k 0 3 + 2*k^2 * m.J N k 0 2 * m.plin k)
/-- `P12_mu4.total` (`dm/P12.py:20-37`) -/
def P12_mu4 : ℝ :=
  (if m.include_2loop then -(1/2)*(m.f*k)^2 * m.sigsq N m.sigma_bv2 * m.P01_mu2 N k
   else -m.f*(m.f*k)^2 * m.sigsq N m.sigma_bv2 * m.plin k) + m.P12_mu4_nov N k
/-- `P12_mu6` (`dm/P12.py:39-54`) -/
def P12_mu6 : ℝ := m.f^3 * (m.I N k 2 1 - m.I N k 3 0 + 2*k^2 * m.J N k 2 0 * m.plin k)

/-- `P13_mu4` (`dm/P13.py:7-23`) -/
def P13_mu4 : ℝ := if m.include_2loop then -(m.f*k)^2 * m.sigsq N m.sigma_bv2 * m.P11_mu2 N k else 0
/-- `P13_mu6` (`dm/P13.py:25-47`): without two-loop terms it evaluates `self.normed_power_lin`, which an `AngularTerm` does not have (`AttributeError`) -/
def P13_mu6 : Option ℝ := if m.include_2loop then some (-(m.f*k)^2 * m.sigsq N m.sigma_v2 * m.P11_mu4 N k) else none

/-- `P22_mu4.no_velocity` (`dm/P22.py:7-19`) -/
def P22_mu4_nov : ℝ := if m.include_2loop then 1/16*m.f^4 * m.two N k (m.vvvv N) 2 3 else 1/16*m.f^4 * m.I N k 2 3
/-- `P22_mu4.total` (`dm/P22.py:21-53`) -/
def P22_mu4 : ℝ :=
  if m.include_2loop then
    let sq := m.sigsq N m.sigma_bv2
    let extra_vv := (m.f*k)^4 * m.plin k * (m.J N k 0 2)^2
    let extra_vdv := -(1/2)*(m.f*k)^2 * sq * m.P02_mu2_nov N k
    let extra1 := (1/4)*(m.f*k)^4 * sq^2 * m.P00_mu0 N k
    let extra2 := (1/2)*(m.f*k)^4 * m.P00_mu0 N k * (m.sigmasq_k N k)^2
    m.P22_mu4_nov N k + (extra_vv + extra_vdv + extra1 + extra2)
  else m.P22_mu4_nov N k
/-- `P22_mu6.no_velocity` (`dm/P22.py:60-71`) -/
def P22_mu6_nov : ℝ := if m.include_2loop then 1/8*m.f^4 * m.two N k (m.vvvv N) 3 2 else 1/8*m.f^4 * m.I N k 3 2
/-- `P22_mu6.total` (`dm/P22.py:73-96`) -/
def P22_mu6 : ℝ :=
  if m.include_2loop then
    let extra_vdv := -(1/2)*(m.f*k)^2 * m.sigsq N m.sigma_bv2 * m.P02_mu4 N k
    let extra_vv := 2*(m.f*k)^4 * m.plin k * m.J N k 0 2 * m.J N k 2 0
    m.P22_mu6_nov N k + (extra_vdv + extra_vv)
  else m.P22_mu6_nov N k

/-! ### The sums (`power_dm.py:816-886`), splines on the grid `k` -/

/-- `P_mu0` (`power_dm.py:816-822`) -/
def P_mu0 : ℝ := N.kspl (fun k => m.P00_mu0 N k) k
/-- `P_mu2` (`power_dm.py:824-830`) -/
def P_mu2 : ℝ := N.kspl (fun k => m.P01_mu2 N k + m.P11_mu2 N k + m.P02_mu2 N k) k
/-- `P_mu4` (`power_dm.py:832-841`) -/
def P_mu4 : ℝ := N.kspl (fun k =>
  let P := m.P11_mu4 N k + m.P02_mu4 N k + m.P12_mu4 N k + m.P22_mu4 N k + m.P03_mu4 N k
  if m.include_2loop then P + (m.P13_mu4 N k + m.P04_mu4 N k) else P) k
/-- `P_mu6` (`power_dm.py:843-851`) -/
def P_mu6 : Option ℝ :=
  if m.include_2loop then some (N.kspl (fun k => m.P12_mu6 N k + m.P22_mu6 N k + (m.P13_mu6 N k).getD 0 + m.P04_mu6 N k) k) else none

/-- `Pdd` (`power_dm.py:853-859`) -/
def Pdd : ℝ := N.kspl (fun k => m.norm*(m.lin.P k + m.norm * m.Pdd0 N k)) k
/-- `Pdv` (`power_dm.py:861-878`) -/
def Pdv : ℝ := N.kspl (fun k => match m.Pdv_loaded with
  | some g => g k
  | none => if m.use_Pdv_model then m.modelPdv k else (-m.f)*m.norm*(m.lin.P k + m.norm * m.Pdv0 N k)) k
/-- `Pvv` (`power_dm.py:880-889`) -/
def Pvv : ℝ := N.kspl (fun k => if m.use_Pvv_model then m.modelPvv k else m.f^2 * m.norm*(m.lin.P k + m.norm * m.Pvv0 N k)) k

end Dm

/-! ### Biased tracers -/

/-- The parameters and fixed functions of a `BiasedSpectrum` (`power_biased.py:27-60`) -/
structure Biased extends Dm where
  b1 : ℝ
  b1_bar : ℝ
  use_mean_bias : Bool
  use_tidal_bias : Bool
  vel_disp_from_sims : Bool
  use_Phm_model : Bool
  correct_mu2 : Bool
  correct_mu4 : Bool
  /-- nonlinear biases as functions of the linear bias (`nonlinear_biasing.py`) -/
  b2_00_a : ℝ → ℝ
  b2_00_b : ℝ → ℝ
  b2_00_c : ℝ → ℝ
  b2_00_d : ℝ → ℝ
  b2_01_a : ℝ → ℝ
  b2_01_b : ℝ → ℝ
  /-- `hzpt.Phm(b1, k)` -/
  hzptPhm : ℝ → ℝ → ℝ
  /-- simulation fits: velocity dispersion `(b1, sigma8_z)`, stochasticity `(b1, sigma8_z, k)` and `(b1_1, b1_2, sigma8_z, k)`, corrections `(b1, sigma8_z, k, f)` -/
  velDisp : ℝ → ℝ → ℝ
  autoStoch : ℝ → ℝ → ℝ → ℝ
  crossStoch : ℝ → ℝ → ℝ → ℝ → ℝ
  mu2Corr : ℝ → ℝ → ℝ → ℝ → ℝ
  mu4Corr : ℝ → ℝ → ℝ → ℝ → ℝ
  /-- the spline through the 20 nodes of the stochasticity (`power_biased.py:361`, `370`) -/
  gspl : (ℝ → ℝ) → ℝ → ℝ

namespace Biased

variable (N : Num) (m : Biased) (k : ℝ)

/-- `_ib1` (`power_biased.py:227-235`) -/
def ib1 : ℝ := if m.use_mean_bias then Real.sqrt (m.b1*m.b1_bar) else m.b1
/-- `_ib1_bar` (`power_biased.py:237-245`) -/
def ib1_bar : ℝ := if m.use_mean_bias then Real.sqrt (m.b1*m.b1_bar) else m.b1_bar
/-- `bs` (`power_biased.py:247-255`) -/
def bs : ℝ := if m.use_tidal_bias then -2/7*(m.ib1 - 1) else 0
/-- `bs_bar` (`power_biased.py:257-265`) -/
def bs_bar : ℝ := if m.use_tidal_bias then -2/7*(m.ib1_bar - 1) else 0
/-- `sigmav_halo` (`power_biased.py:276-284`) -/
def sv : ℝ := if m.vel_disp_from_sims then m.velDisp m.ib1 m.sigma8_z else m.sigmaV N
/-- `sigmav_halo_bar` (`power_biased.py:286-294`) -/
def sv_bar : ℝ := if m.vel_disp_from_sims then m.velDisp m.ib1_bar m.sigma8_z else m.sigmaV N

/-- `Phm` (`power_biased.py:319-335`) -/
def Phm : ℝ := N.kspl (fun k => if m.use_Phm_model then m.hzptPhm m.ib1 k
  else m.ib1 * m.P00_mu0 N k + m.b2_00_a m.ib1 * m.K N k 0 0 + m.bs * m.K N k 0 0 true) k
/-- `Phm_bar` (`power_biased.py:337-353`) -/
def Phm_bar : ℝ := N.kspl (fun k => if m.use_Phm_model then m.hzptPhm m.ib1_bar k
  else m.ib1_bar * m.P00_mu0 N k + m.b2_00_a m.ib1_bar * m.K N k 0 0 + m.bs_bar * m.K N k 0 0 true) k

/-- `stochasticity` (`power_biased.py:355-378`) -/
def stochasticity : ℝ := N.kspl (m.gspl (fun k =>
  if m.ib1 ≠ m.ib1_bar then m.crossStoch (min m.ib1 m.ib1_bar) (max m.ib1 m.ib1_bar) m.sigma8_z k else m.autoStoch m.ib1 m.sigma8_z k)) k

/-- `Phh_mu0` (`biased/P00.py:3-14`) -/
def Phh (b2 : ℝ → ℝ) : ℝ :=
  m.ib1*m.ib1_bar * m.P00_mu0 N k + (m.ib1 * b2 m.ib1_bar + m.ib1_bar * b2 m.ib1) * m.K N k 0 0 + (m.bs * b2 m.ib1_bar + m.bs_bar * b2 m.ib1) * m.K N k 0 0 true

/-- `P00_no_stoch_mu0` (`biased/P00.py:25-37`) -/
def P00ns : ℝ := (m.Phm N k / m.P00_mu0 N k) * (m.Phm_bar N k / m.P00_mu0 N k) * m.P00_mu0 N k
/-- `P00_mu0` (`biased/P00.py:16-22`) -/
def P00_ss : ℝ := m.P00ns N k + m.stochasticity N k

/-- `P01_mu2` (`biased/P01.py:3-23`) -/
def P01_ss (b2 : ℝ → ℝ) : ℝ :=
  let term1 := m.ib1*m.ib1_bar * m.P01_mu2 N k
  let term2 := -m.Pdv N k * (m.ib1*(1 - m.ib1_bar) + m.ib1_bar*(1 - m.ib1))
  let term3 := m.f*((b2 m.ib1 + b2 m.ib1_bar) * m.K N k 1 0 + (m.bs + m.bs_bar) * m.K N k 1 0 true)
  let term4 := m.f*((m.ib1_bar*b2 m.ib1 + m.ib1*b2 m.ib1_bar) * m.K N k 1 1 + (m.ib1_bar*m.bs + m.ib1*m.bs_bar) * m.K N k 1 1 true)
  term1 + term2 + term3 + term4

/-- `P02_mu2` (`biased/P02.py:4-29`) -/
def P02_ss_mu2 : ℝ :=
  let term1 := (1/2)*(m.ib1 + m.ib1_bar) * m.P02_mu2_nov N k
  let term2 := -(1/2)*(m.f*k)^2 * ((m.sv N)^2 + (m.sv_bar N)^2) * m.Phh N k m.b2_00_c
  let term3 := (1/2)*m.f^2 * ((m.b2_00_c m.ib1 + m.b2_00_c m.ib1_bar) * m.K N k 2 0 + (m.bs + m.bs_bar) * m.K N k 2 0 true)
  term1 + term2 + term3
/-- `P02_mu4` (`biased/P02.py:31-50`) -/
def P02_ss_mu4 : ℝ :=
  (1/2)*(m.ib1 + m.ib1_bar) * m.P02_mu4 N k +
    (1/2)*m.f^2 * ((m.b2_00_b m.ib1 + m.b2_00_b m.ib1_bar) * m.K N k 2 0 false 1 + (m.bs + m.bs_bar) * m.K N k 2 0 true 1)

/-- `P03_mu4` (`biased/P03.py:4-16`) -/
def P03_ss : ℝ := -(1/4)*(m.f*k)^2 * ((m.sv N)^2 + (m.sv_bar N)^2) * m.P01_ss N k m.b2_01_b

/-- `P04_mu4` (`biased/P04.py:4-25`) -/
def P04_ss_mu4 : ℝ :=
  let sq := (m.sv N)^2; let sq' := (m.sv_bar N)^2;
  -(1/8)*(m.ib1 + m.ib1_bar)*(m.f*k)^2 * (sq + sq') * m.P02_mu2_nov N k +
    (1/12)*(m.f*k)^4 * m.Phh N k m.b2_00_d * (3*(1/2)*(sq^2 + sq'^2) + m.kurtosis N)

/-- `P11_mu2` (`biased/P11.py:3-14`) -/
def P11_ss_mu2 : ℝ := (m.ib1*m.ib1_bar)*m.f^2 * (m.two N k (m.vvdd N) 0 1 + m.two N k (m.dvdv N) 0 3)
/-- `P11_mu4` (`biased/P11.py:16-41`) -/
def P11_ss_mu4 : ℝ :=
  (1/2)*(m.ib1 + m.ib1_bar) * m.P11_mu4 N k + -(1/2)*((m.ib1 - 1) + (m.ib1_bar - 1)) * m.Pvv N k +
    m.f^2 * (m.two N k (m.vvdd N) 0 2 + m.two N k (m.dvdv N) 0 4) * (m.ib1*m.ib1_bar - (1/2)*(m.ib1 + m.ib1_bar))

/-- `P12_mu4` (`biased/P12.py:4-20`) -/
def P12_ss_mu4 : ℝ :=
  let sq := (m.sv N)^2; let sq' := (m.sv_bar N)^2;
  let term1 := m.P12_mu4_nov N k - (1/2)*(m.f*k)^2 * (1/2)*(sq + sq') * m.P01_mu2 N k
  let term2 := -(1/2)*((m.ib1 - 1) + (m.ib1_bar - 1))*m.f^3 * m.I N k 0 3
  let term3 := -(1/4)*(m.f*k)^2 * (sq + sq') * (m.P01_ss N k m.b2_01_b - m.P01_mu2 N k)
  term1 + term2 + term3
/-- `P12_mu6` (`biased/P12.py:22-38`) -/
def P12_ss_mu6 : ℝ := m.f^3 * (m.I N k 2 1 - (1/2)*(m.ib1 + m.ib1_bar) * m.I N k 3 0 + 2*k^2 * m.J N k 2 0 * m.plin k)

/-- `P13_mu4` (`biased/P13.py:3-16`) -/
def P13_ss_mu4 : ℝ := (1/2)*(-(m.f*k)^2)*((m.sv N)^2 + (m.sv_bar N)^2) * m.P11_ss_mu2 N k

/-- `P22_mu4` (`biased/P22.py:4-31`) -/
def P22_ss_mu4 : ℝ :=
  let sq := (m.sv N)^2; let sq' := (m.sv_bar N)^2;
  let term1 := m.P22_mu4_nov N k
  let term2 := (1/2)*(m.f*k)^4 * (m.ib1*m.ib1_bar * m.Pdd N k) * (m.sigmasq_k N k)^2
  let term3 := -(1/4)*(k*m.f)^2 * (sq + sq') * ((1/2)*(m.ib1 + m.ib1_bar) * m.P02_mu2_nov N k)
  let term4 := (1/8)*(k*m.f)^4 * (sq^2 + sq'^2) * m.Phh N k m.b2_00_d
  term1 + term2 + term3 + term4

/-- `mu2_model_correction` (`power_biased.py:462-470`) -/
def mu2_correction : ℝ := N.kspl (fun k => m.mu2Corr (Real.sqrt (m.ib1*m.ib1_bar)) m.sigma8_z k m.f) k
/-- `mu4_model_correction` (`power_biased.py:472-480`) -/
def mu4_correction : ℝ := N.kspl (fun k => m.mu4Corr (Real.sqrt (m.ib1*m.ib1_bar)) m.sigma8_z k m.f) k

/-- `P_mu0` (`power_biased.py:485-491`) -/
def P_mu0 : ℝ := N.kspl (fun k => m.P00_ss N k) k
/-- `P_mu2` (`power_biased.py:493-503`) -/
def P_mu2 : ℝ := N.kspl (fun k =>
  let P := m.P01_ss N k m.b2_01_a + m.P11_ss_mu2 N k + m.P02_ss_mu2 N k
  if m.correct_mu2 then P + m.mu2_correction N k else P) k
/-- `P_mu4` (`power_biased.py:505-517`) -/
def P_mu4 : ℝ := N.kspl (fun k =>
  let P := m.P11_ss_mu4 N k + m.P02_ss_mu4 N k + m.P12_ss_mu4 N k + m.P03_ss N k + m.P22_ss_mu4 N k + m.P13_ss_mu4 N k + m.P04_ss_mu4 N k
  if m.correct_mu4 then P + m.mu4_correction N k else P) k
/-- `P_mu6` (`power_biased.py:519-525`) -/
def P_mu6 : ℝ := N.kspl (fun k => m.P12_ss_mu6 N k + 1/8*m.f^4 * m.I N k 3 2) k

end Biased

end

end Verif.PT
