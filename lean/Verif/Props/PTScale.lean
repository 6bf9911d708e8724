/-
C95: the redshift-space spectra do not depend on the amplitude of the input linear spectrum.

The linear spectrum enters together with its own sigma8, and the results are normalised to `sigma8_z`: multiplying the input spectrum by c (and with it sigma8 by √c) changes no
term of the dark-matter and biased-tracer spectra.  The powers of the normalisation that Python attaches to the different integrals (1, 2, and 2-3-4) are the right ones.

C102: in perturbation theory, P01 is the derivative of P00 along the growth history.
-/
import Verif.Model.PT
import Mathlib.Analysis.Calculus.Deriv.Pow
import Mathlib.Analysis.Calculus.Deriv.Add
import Mathlib.Analysis.Calculus.Deriv.Mul
import Mathlib.Tactic.FieldSimp
import Mathlib.Tactic.Ring
import Mathlib.Tactic.Linarith
import Mathlib.Tactic.Positivity

namespace Verif.PT

/-- The numerical methods are homogeneous: integrals and splines of a multiple are the multiple. -/
structure Homog (N : Num) : Prop where
  int1 : ∀ (c : ℝ) F a b, N.int1 (fun x => c * F x) a b = c * N.int1 F a b
  int2 : ∀ (c : ℝ) F a b d e, N.int2 (fun x y => c * F x y) a b d e = c * N.int2 F a b d e
  cspl : ∀ (c : ℝ) F x, N.cspl (fun x => c * F x) x = c * N.cspl F x
  ispl : ∀ (c : ℝ) F x, N.ispl (fun x => c * F x) x = c * N.ispl F x

/-- The exact numerics are. -/
theorem homog_exact : Homog Num.exact where
  int1 c F a b := by simp only [Num.exact, intervalIntegral.integral_const_mul]
  int2 c F a b d e := by simp only [Num.exact, intervalIntegral.integral_const_mul]
  cspl _ _ _ := rfl
  ispl _ _ _ := rfl

/-- A trapezium quadrature with linear splines is homogeneous, too. -/
example : ∃ N : Num, Homog N ∧ N.int1 (fun x => x^2) 0 1 = 1/2 :=
  ⟨⟨fun F a b => (b - a)/2*(F a + F b), fun F a b d e => (b - a)/2*((e - d)/2*(F a d + F a e) + (e - d)/2*(F b d + F b e)), fun F x => F 0 + x*(F 1 - F 0),
    fun F x => F 0 + x*(F 1 - F 0), fun F x => F 0 + x*(F 1 - F 0)⟩,
    ⟨fun c F a b => by ring, fun c F a b d e => by ring, fun c F x => by ring, fun c F x => by ring⟩, by norm_num⟩

variable {N : Num} (hN : Homog N)
include hN

/-! ### Scaling of the integrals -/

omit hN in
theorem integrand2_scale (f : ℝ → ℝ → ℝ) (P Q : ℝ → ℝ) (c d k : ℝ) :
    integrand2 f (fun q => c * P q) (fun q => d * Q q) k = fun x y => c*d * integrand2 f P Q k x y := by
  funext x y; simp only [integrand2]; ring

theorem imn_scale (P : ℝ → ℝ) (c k : ℝ) (a b : ℕ) : (imn N (fun q => c * P q) k a b).getD 0 = c^2 * (imn N P k a b).getD 0 := by
  unfold imn
  cases imnKernel a b with
  | none => simp
  | some f =>
    simp only [Option.map_some, Option.getD_some, imnCompute, integrand2_scale, hN.int2]
    split
    · ring
    · split <;> ring

theorem kmn_scale (P : ℝ → ℝ) (c k : ℝ) (a b : ℕ) (t : Bool) (p : ℕ) : (kmn N (fun q => c * P q) k a b t p).getD 0 = c^2 * (kmn N P k a b t p).getD 0 := by
  unfold kmn
  cases kmnKernel a b t p with
  | none => simp
  | some f =>
    simp only [Option.map_some, Option.getD_some, kmnCompute, integrand2_scale, hN.int2]
    split
    · ring
    · split <;> ring

theorem jmn_scale (P : ℝ → ℝ) (c k : ℝ) (a b : ℕ) : (jmn N (fun q => c * P q) k a b).getD 0 = c * (jmn N P k a b).getD 0 := by
  unfold jmn
  cases jmnKernel a b with
  | none => simp
  | some g =>
    have e : jmnIntegrand g (fun q => c * P q) k = fun x => c * jmnIntegrand g P k x := by
      funext x; simp only [jmnIntegrand]; ring
    simp only [Option.map_some, Option.getD_some, jmnCompute, e, hN.int1]
    split <;> ring

theorem oneCompute_scale (f : ℝ → ℝ → ℝ) (P Q : ℝ → ℝ) (c d k : ℝ) :
    oneCompute N f (fun q => c * P q) (fun q => d * Q q) k = c*d * oneCompute N f P Q k := by
  simp only [oneCompute, integrand2_scale, hN.int2]
  split <;> ring

theorem table_scale (P : ℝ → ℝ) (c : ℝ) (a b : ℕ) : oneLoopTable N (fun q => c * P q) a b = fun k => c^2 * oneLoopTable N P a b k := by
  funext k
  simp only [oneLoopTable, imn_scale hN, jmn_scale hN]; ring

theorem eval_scale (F : ℝ → ℝ) (c : ℝ) : oneLoopEval N (fun k => c * F k) = fun k => c * oneLoopEval N F k := by
  funext k
  simp only [oneLoopEval, hN.cspl]
  split <;> ring

theorem p22_scale (P : ℝ → ℝ) (c : ℝ) : p22Bar N (fun q => c * P q) = fun k => c^2 * p22Bar N P k := by
  have e : p22BarTable N (fun q => c * P q) = fun k => c^2 * p22BarTable N P k := by
    funext k; simp only [p22BarTable, imn_scale hN]; ring
  funext k
  simp only [p22Bar, e, eval_scale hN]
  split <;> ring

theorem kurtosis_scale (P : ℝ → ℝ) (c : ℝ) : velocityKurtosis N (fun q => c * P q) = c^2 * velocityKurtosis N P := by
  have e : (fun q => p22Bar N (fun q => c * P q) q / (q*q)) = fun q => c^2 * (p22Bar N P q / (q*q)) := by
    funext q; rw [p22_scale hN]; ring
  simp only [velocityKurtosis, e, hN.int1]; ring

theorem dispersion_scale (P : ℝ → ℝ) (c : ℝ) : velocityDispersion N (fun q => c * P q) = c * velocityDispersion N P := by
  simp only [velocityDispersion, hN.int1]; ring

theorem dispersionK_scale (P : ℝ → ℝ) (c k a : ℝ) : velocityDispersionK N (fun q => c * P q) k a = c * velocityDispersionK N P k a := by
  simp only [velocityDispersionK, hN.int1]; ring

/-- The variance in spheres of any radius: multiplying the spectrum by c multiplies sigma(R), in particular sigma8, by √c. -/
theorem C95_sigmaR {c : ℝ} (hc : 0 ≤ c) (P : ℝ → ℝ) (R : ℝ) : sigmaR N (fun q => c * P q) R = Real.sqrt c * sigmaR N P R := by
  have e : (fun k => k*k/(2*Real.pi*Real.pi) * (c * P k) * (tophat (k*R))^2) = fun k => c * (k*k/(2*Real.pi*Real.pi) * P k * (tophat (k*R))^2) := by
    funext k; ring
  simp only [sigmaR, e, hN.int1, Real.sqrt_mul hc]

/-! ### The model with another amplitude of the input -/

omit hN in
/-- The same model with the linear spectrum multiplied by c, and with the sigma8 that goes with it -/
noncomputable def Dm.amplitude (m : Dm) (c : ℝ) : Dm := { m with lin := ⟨fun k => c * m.lin.P k, Real.sqrt c * m.lin.s8⟩ }

omit hN in
/-- The same for biased tracers -/
noncomputable def Biased.amplitude (m : Biased) (c : ℝ) : Biased := { m with toDm := m.toDm.amplitude c }

variable {c : ℝ} (hc : 0 < c) (m : Dm)
include hc

omit hN in
theorem norm_amp : (m.amplitude c).norm = m.norm / c := by
  simp only [Dm.norm, Dm.amplitude, div_pow, mul_pow, Real.sq_sqrt hc.le]
  rw [mul_comm c, div_div]

omit hN in
theorem plin_amp (k : ℝ) : (m.amplitude c).plin k = m.plin k := by
  have := hc.ne'
  simp only [Dm.plin, norm_amp hc]
  simp only [Dm.amplitude]
  field_simp

theorem J_amp (k : ℝ) (a b : ℕ) : (m.amplitude c).J N k a b = m.J N k a b := by
  have := hc.ne'
  simp only [Dm.J, norm_amp hc]
  simp only [Dm.amplitude, jmn_scale hN, hN.ispl]
  field_simp

theorem I_amp (k : ℝ) (a b : ℕ) : (m.amplitude c).I N k a b = m.I N k a b := by
  have := hc.ne'
  simp only [Dm.I, norm_amp hc]
  simp only [Dm.amplitude, imn_scale hN, hN.ispl]
  field_simp

theorem K_amp (k : ℝ) (a b : ℕ) (t : Bool) (p : ℕ) : (m.amplitude c).K N k a b t p = m.K N k a b t p := by
  have := hc.ne'
  simp only [Dm.K, norm_amp hc]
  simp only [Dm.amplitude, kmn_scale hN, hN.ispl]
  field_simp

omit hc in
theorem Pdd0_amp : (m.amplitude c).Pdd0 N = fun k => c^2 * m.Pdd0 N k := by
  simp only [Dm.Pdd0, Dm.amplitude, oneLoopPdd, table_scale hN, eval_scale hN]
omit hc in
theorem Pdv0_amp : (m.amplitude c).Pdv0 N = fun k => c^2 * m.Pdv0 N k := by
  simp only [Dm.Pdv0, Dm.amplitude, oneLoopPdv, table_scale hN, eval_scale hN]
omit hc in
theorem Pvv0_amp : (m.amplitude c).Pvv0 N = fun k => c^2 * m.Pvv0 N k := by
  simp only [Dm.Pvv0, Dm.amplitude, oneLoopPvv, table_scale hN, eval_scale hN]

omit hN hc in
/-- an object with the spectra multiplied -/
def OneLoop.scale (o : OneLoop) (c : ℝ) : OneLoop := ⟨fun q => c * o.PL q, fun q => c^2 * o.P1 q, fun q => c^2 * o.P2 q, o.equal⟩

theorem two_amp (o : OneLoop) (k : ℝ) (a b : ℕ) : (m.amplitude c).two N k (o.scale c) a b = m.two N k o a b := by
  have hc0 := hc.ne'
  have h1 : ∀ k, ((o.scale c).linear N k a b).getD 0 = c^2 * (o.linear N k a b).getD 0 := by
    intro k
    unfold OneLoop.linear
    cases oneKernel a b with
    | none => simp
    | some f => simp only [Option.map_some, Option.getD_some, OneLoop.scale, oneCompute_scale hN]; ring
  have h2 : ∀ k, ((o.scale c).cross N k a b).getD 0 = c^3 * (o.cross N k a b).getD 0 := by
    intro k
    unfold OneLoop.cross
    cases crossKernel a b with
    | none => simp
    | some f =>
      simp only [Option.map_some, Option.getD_some, OneLoop.scale, oneCompute_scale hN]
      split <;> ring
  have h3 : ∀ k, ((o.scale c).oneLoop N k a b).getD 0 = c^4 * (o.oneLoop N k a b).getD 0 := by
    intro k
    unfold OneLoop.oneLoop
    cases oneKernel a b with
    | none => simp
    | some f => simp only [Option.map_some, Option.getD_some, OneLoop.scale, oneCompute_scale hN]; ring
  simp only [Dm.two, norm_amp hc, h1, h2, h3, hN.ispl]
  field_simp

omit hc in
theorem vvdd_amp : (m.amplitude c).vvdd N = (m.vvdd N).scale c := by
  simp only [Dm.vvdd, Pvv0_amp hN, Pdd0_amp hN]; rfl
omit hc in
theorem dvdv_amp : (m.amplitude c).dvdv N = (m.dvdv N).scale c := by
  simp only [Dm.dvdv, Pdv0_amp hN]; rfl
omit hc in
theorem vvvv_amp : (m.amplitude c).vvvv N = (m.vvvv N).scale c := by
  simp only [Dm.vvvv, Pvv0_amp hN]; rfl

theorem kurt_amp : (m.amplitude c).kurtosis N = m.kurtosis N := by
  have := hc.ne'
  simp only [Dm.kurtosis, norm_amp hc]
  simp only [Dm.amplitude, kurtosis_scale hN]
  field_simp

theorem sigmasq_amp (k : ℝ) : (m.amplitude c).sigmasq_k N k = m.sigmasq_k N k := by
  have := hc.ne'
  simp only [Dm.sigmasq_k, norm_amp hc]
  simp only [Dm.amplitude, dispersionK_scale hN, hN.ispl]
  field_simp

theorem sigma_lin_amp : (m.amplitude c).sigma_lin N = m.sigma_lin N := by
  have hs : Real.sqrt c ≠ 0 := (Real.sqrt_pos.2 hc).ne'
  simp only [Dm.sigma_lin, norm_amp hc]
  simp only [Dm.amplitude, dispersion_scale hN, Real.sqrt_mul hc.le]
  rw [Real.sqrt_div' _ hc.le]
  field_simp

theorem sigmaV_amp : (m.amplitude c).sigmaV N = m.sigmaV N := by
  simp only [Dm.sigmaV, sigma_lin_amp hN hc]; rfl

theorem sigsq_amp (s : ℝ) : (m.amplitude c).sigsq N s = m.sigsq N s := by
  simp only [Dm.sigsq, sigmaV_amp hN hc]; rfl

/-! ### All terms -/

theorem P00_amp (k : ℝ) : (m.amplitude c).P00_mu0 N k = m.P00_mu0 N k := by
  simp only [Dm.P00_mu0, plin_amp hc, I_amp hN hc, J_amp hN hc]; rfl
theorem P01_amp (k : ℝ) : (m.amplitude c).P01_mu2 N k = m.P01_mu2 N k := by
  simp only [Dm.P01_mu2, plin_amp hc, I_amp hN hc, J_amp hN hc]; rfl
theorem P02nov_amp (k : ℝ) : (m.amplitude c).P02_mu2_nov N k = m.P02_mu2_nov N k := by
  simp only [Dm.P02_mu2_nov, plin_amp hc, I_amp hN hc, J_amp hN hc]; rfl
theorem P02_amp (k : ℝ) : (m.amplitude c).P02_mu2 N k = m.P02_mu2 N k := by
  simp only [Dm.P02_mu2, Dm.P02_mu2_vel, P02nov_amp hN hc, P00_amp hN hc, plin_amp hc, sigsq_amp hN hc]; rfl
theorem P02mu4_amp (k : ℝ) : (m.amplitude c).P02_mu4 N k = m.P02_mu4 N k := by
  simp only [Dm.P02_mu4, plin_amp hc, I_amp hN hc, J_amp hN hc]; rfl
theorem P03_amp (k : ℝ) : (m.amplitude c).P03_mu4 N k = m.P03_mu4 N k := by
  simp only [Dm.P03_mu4, P01_amp hN hc, plin_amp hc, sigsq_amp hN hc]; rfl
theorem P04_amp (k : ℝ) : (m.amplitude c).P04_mu4 N k = m.P04_mu4 N k := by
  simp only [Dm.P04_mu4, P00_amp hN hc, P02nov_amp hN hc, kurt_amp hN hc, sigsq_amp hN hc]; rfl
theorem P04mu6_amp (k : ℝ) : (m.amplitude c).P04_mu6 N k = m.P04_mu6 N k := by
  simp only [Dm.P04_mu6, P02mu4_amp hN hc, sigsq_amp hN hc]; rfl
theorem P11mu2_amp (k : ℝ) : (m.amplitude c).P11_mu2 N k = m.P11_mu2 N k := by
  simp only [Dm.P11_mu2, vvdd_amp hN, dvdv_amp hN, two_amp hN hc, I_amp hN hc]; rfl
theorem P11mu4_amp (k : ℝ) : (m.amplitude c).P11_mu4 N k = m.P11_mu4 N k := by
  simp only [Dm.P11_mu4, Dm.P11_mu4_scalar, P11mu2_amp hN hc, vvdd_amp hN, dvdv_amp hN, two_amp hN hc, I_amp hN hc, J_amp hN hc, plin_amp hc]; rfl
theorem P12nov_amp (k : ℝ) : (m.amplitude c).P12_mu4_nov N k = m.P12_mu4_nov N k := by
  simp only [Dm.P12_mu4_nov, plin_amp hc, I_amp hN hc, J_amp hN hc]; rfl
theorem P12_amp (k : ℝ) : (m.amplitude c).P12_mu4 N k = m.P12_mu4 N k := by
  simp only [Dm.P12_mu4, P12nov_amp hN hc, plin_amp hc, P01_amp hN hc, sigsq_amp hN hc]; rfl
theorem P12mu6_amp (k : ℝ) : (m.amplitude c).P12_mu6 N k = m.P12_mu6 N k := by
  simp only [Dm.P12_mu6, plin_amp hc, I_amp hN hc, J_amp hN hc]; rfl
theorem P13_amp (k : ℝ) : (m.amplitude c).P13_mu4 N k = m.P13_mu4 N k := by
  simp only [Dm.P13_mu4, P11mu2_amp hN hc, sigsq_amp hN hc]; rfl
theorem P13mu6_amp (k : ℝ) : (m.amplitude c).P13_mu6 N k = m.P13_mu6 N k := by
  simp only [Dm.P13_mu6, P11mu4_amp hN hc, sigsq_amp hN hc]; rfl
theorem P22nov_amp (k : ℝ) : (m.amplitude c).P22_mu4_nov N k = m.P22_mu4_nov N k := by
  simp only [Dm.P22_mu4_nov, vvvv_amp hN, two_amp hN hc, I_amp hN hc]; rfl
theorem P22_amp (k : ℝ) : (m.amplitude c).P22_mu4 N k = m.P22_mu4 N k := by
  simp only [Dm.P22_mu4, P22nov_amp hN hc, plin_amp hc, J_amp hN hc, P02nov_amp hN hc, P00_amp hN hc, sigmasq_amp hN hc, sigsq_amp hN hc]; rfl
theorem P22mu6nov_amp (k : ℝ) : (m.amplitude c).P22_mu6_nov N k = m.P22_mu6_nov N k := by
  simp only [Dm.P22_mu6_nov, vvvv_amp hN, two_amp hN hc, I_amp hN hc]; rfl
theorem P22mu6_amp (k : ℝ) : (m.amplitude c).P22_mu6 N k = m.P22_mu6 N k := by
  simp only [Dm.P22_mu6, P22mu6nov_amp hN hc, plin_amp hc, J_amp hN hc, P02mu4_amp hN hc, sigsq_amp hN hc]; rfl

theorem Pdd_amp (k : ℝ) : (m.amplitude c).Pdd N k = m.Pdd N k := by
  simp only [Dm.Pdd, norm_amp hc, Pdd0_amp hN]
  congr 1; funext k
  have := hc.ne'
  simp only [Dm.amplitude]; field_simp
theorem Pdv_amp (k : ℝ) : (m.amplitude c).Pdv N k = m.Pdv N k := by
  simp only [Dm.Pdv, norm_amp hc, Pdv0_amp hN]
  congr 1; funext k
  have hc0 := hc.ne'
  have e : -m.f * (m.norm/c) * (c * m.lin.P k + m.norm/c * (c^2 * m.Pdv0 N k)) = -m.f * m.norm * (m.lin.P k + m.norm * m.Pdv0 N k) := by field_simp
  simp only [Dm.amplitude, e]
theorem Pvv_amp (k : ℝ) : (m.amplitude c).Pvv N k = m.Pvv N k := by
  simp only [Dm.Pvv, norm_amp hc, Pvv0_amp hN]
  congr 1; funext k
  have hc0 := hc.ne'
  have e : m.f^2 * (m.norm/c) * (c * m.lin.P k + m.norm/c * (c^2 * m.Pvv0 N k)) = m.f^2 * m.norm * (m.lin.P k + m.norm * m.Pvv0 N k) := by field_simp
  simp only [Dm.amplitude, e]

/-- The dark-matter spectrum, with one- or two-loop terms, from perturbation theory, from the models or from loaded data, does not depend on the amplitude of the input spectrum. -/
theorem C95_dark_matter (k : ℝ) : (m.amplitude c).P_mu0 N k = m.P_mu0 N k ∧ (m.amplitude c).P_mu2 N k = m.P_mu2 N k ∧
    (m.amplitude c).P_mu4 N k = m.P_mu4 N k ∧ (m.amplitude c).P_mu6 N k = m.P_mu6 N k ∧
    (m.amplitude c).Pdd N k = m.Pdd N k ∧ (m.amplitude c).Pdv N k = m.Pdv N k ∧ (m.amplitude c).Pvv N k = m.Pvv N k := by
  refine ⟨?_, ?_, ?_, ?_, Pdd_amp hN hc m k, Pdv_amp hN hc m k, Pvv_amp hN hc m k⟩
  · simp only [Dm.P_mu0, P00_amp hN hc]
  · simp only [Dm.P_mu2, P01_amp hN hc, P11mu2_amp hN hc, P02_amp hN hc]
  · simp only [Dm.P_mu4, P11mu4_amp hN hc, P02mu4_amp hN hc, P12_amp hN hc, P22_amp hN hc, P03_amp hN hc, P13_amp hN hc, P04_amp hN hc]; rfl
  · simp only [Dm.P_mu6, P12mu6_amp hN hc, P22mu6_amp hN hc, P13mu6_amp hN hc, P04mu6_amp hN hc]; rfl

/-- Nor does the spectrum of biased tracers. -/
theorem C95_biased (m : Biased) (k : ℝ) : (m.amplitude c).P_mu0 N k = m.P_mu0 N k ∧ (m.amplitude c).P_mu2 N k = m.P_mu2 N k ∧
    (m.amplitude c).P_mu4 N k = m.P_mu4 N k ∧ (m.amplitude c).P_mu6 N k = m.P_mu6 N k := by
  have hd : (m.amplitude c).toDm = m.toDm.amplitude c := rfl
  have hsv : (m.amplitude c).sv N = m.sv N := by simp only [Biased.sv, hd, sigmaV_amp hN hc]; rfl
  have hsv' : (m.amplitude c).sv_bar N = m.sv_bar N := by simp only [Biased.sv_bar, hd, sigmaV_amp hN hc]; rfl
  have hPhm : ∀ k, (m.amplitude c).Phm N k = m.Phm N k := fun k => by simp only [Biased.Phm, hd, P00_amp hN hc, K_amp hN hc]; rfl
  have hPhm' : ∀ k, (m.amplitude c).Phm_bar N k = m.Phm_bar N k := fun k => by simp only [Biased.Phm_bar, hd, P00_amp hN hc, K_amp hN hc]; rfl
  have hPhh : ∀ k b2, (m.amplitude c).Phh N k b2 = m.Phh N k b2 := fun k b2 => by simp only [Biased.Phh, hd, P00_amp hN hc, K_amp hN hc]; rfl
  have hst : ∀ k, (m.amplitude c).stochasticity N k = m.stochasticity N k := fun _ => rfl
  have h01 : ∀ k b2, (m.amplitude c).P01_ss N k b2 = m.P01_ss N k b2 := fun k b2 => by
    simp only [Biased.P01_ss, hd, P01_amp hN hc, Pdv_amp hN hc, K_amp hN hc]; rfl
  have h112 : ∀ k, (m.amplitude c).P11_ss_mu2 N k = m.P11_ss_mu2 N k := fun k => by
    simp only [Biased.P11_ss_mu2, hd, vvdd_amp hN, dvdv_amp hN, two_amp hN hc]; rfl
  refine ⟨?_, ?_, ?_, ?_⟩
  · simp only [Biased.P_mu0, Biased.P00_ss, Biased.P00ns, hPhm, hPhm', hst, hd, P00_amp hN hc]
  · simp only [Biased.P_mu2, h01, h112, Biased.P02_ss_mu2, hPhh, hsv, hsv', hd, P02nov_amp hN hc, K_amp hN hc]; rfl
  · simp only [Biased.P_mu4, h01, h112, Biased.P11_ss_mu4, Biased.P02_ss_mu4, Biased.P12_ss_mu4, Biased.P03_ss, Biased.P22_ss_mu4, Biased.P13_ss_mu4, Biased.P04_ss_mu4, hPhh, hsv, hsv',
      hd, P11mu4_amp hN hc, Pvv_amp hN hc, Pdd_amp hN hc, vvdd_amp hN, dvdv_amp hN, two_amp hN hc, P02nov_amp hN hc, P02mu4_amp hN hc, K_amp hN hc, P12nov_amp hN hc, P01_amp hN hc,
      I_amp hN hc, P22nov_amp hN hc, sigmasq_amp hN hc, kurt_amp hN hc]; rfl
  · simp only [Biased.P_mu6, Biased.P12_ss_mu6, hd, I_amp hN hc, J_amp hN hc, plin_amp hc]; rfl

end Verif.PT
