/-
C63 (analytic derivatives) and C66 (shot noise) for the quasar model.
-/
import Verif.Model.Qso
import Verif.Lemmas.Rsd

namespace Verif.Rsd

open Verif.AP

/-- The code path of `QuasarSpectrum.power`: decorated, calling `HaloSpectrum.power`, i.e. the sum of decorated terms
(`dmPower`), and the kernel. -/
noncomputable def qsoBody (e : QsoEnv) (m : Qso) : Body Unit :=
  .call m.alphas (fun k mu => (k, mu)) (.comb (fun p G => p * G ^ 2 + m.N) (dmPower m.alphas (fun i k => .ok (PmuQso e m i k)) m.nMu)
    (.prim (fun k mu => .ok (m.fog.G k mu m.sigmaFog))))

/-- The model function `qsoPower` is what that code path returns from outside (and the lock is free afterwards). -/
theorem qsoPower_exec (e : QsoEnv) (m : Qso) (k mu : ℝ) :
    exec (qsoBody e m) k mu false = (.ok (qsoPower e m k mu), false) := by
  rw [qsoBody, C61_once]
  simp only [bare, bare_dmPower, Except.map, qsoPower, distorted, rescale, qsoCore, muSum]
  congr 2
  ring

/-! ### Specification of the quasar power -/

/-- The quasar power of the paper: Kaiser formula with total bias `b`, damping `G²`, offset `N`, at the true coordinates, times the volume factor. -/
theorem C63_qso_formula (e : QsoEnv) (m : Qso) (hn : 2 ≤ m.nMu) (k mu : ℝ) :
    qsoPower e m k mu = m.alphas.drag ^ 3 / (m.alphas.perp ^ 2 * m.alphas.par) *
      (((m.b1 + 2 * (m.b1 - m.p) * m.fnl * e.deltaCrit / e.alphaPng (m.kp k mu)) + m.f * m.mup mu ^ 2) ^ 2 *
        ((m.sigma8 / e.sigma8Cosmo) ^ 2 * e.plin (m.kp k mu)) * m.fog.G (m.kp k mu) (m.mup mu) m.sigmaFog ^ 2 + m.N) := by
  have hd : deltaBias e m (m.kp k mu) = 2 * (m.b1 - m.p) * m.fnl * e.deltaCrit / e.alphaPng (m.kp k mu) := by
    unfold deltaBias; split <;> simp [*]
  have hs : ∀ n, 2 ≤ n → ∀ k mu, muSum n (PmuQso e m) k mu =
      (m.b1 + deltaBias e m k + m.f * mu ^ 2) ^ 2 * normedPlin e m k := by
    intro n hn k mu
    obtain ⟨j, rfl⟩ := Nat.exists_eq_add_of_le hn
    have : muSum (2 + j) (PmuQso e m) k mu = muSum 2 (PmuQso e m) k mu := by
      unfold muSum
      induction j with
      | zero => rfl
      | succ j ih =>
        rw [show 2 + (j + 1) + 1 = (2 + j + 1) + 1 by ring, Finset.sum_range_succ, ih (by omega)]
        have : PmuQso e m (2 + j + 1) k = 0 := by
          have : 2 + j + 1 = j + 3 := by ring
          rw [this]; simp [PmuQso]
        simp [this]
    rw [this]
    simp [muSum, Finset.sum_range_succ, PmuQso, btot]
    ring
  simp only [qsoPower, distorted, qsoCore, rescale]
  have := hs m.nMu hn (m.kp k mu) (m.mup mu)
  simp only [Qso.kp, Qso.mup] at this hd ⊢
  rw [this, hd, normedPlin]
  ring

/-! ### C63 -/

/-- The conditions: physical dilations, `mu ∈ [-1, 1]`. -/
structure Physical (a : Alphas) (mu : ℝ) : Prop where
  par : 0 < a.par
  perp : 0 < a.perp
  lo : -1 ≤ mu
  hi : mu ≤ 1

/-- Smoothness of the cosmological functions at a wavenumber. -/
structure QsoEnv.SmoothAt (e : QsoEnv) (k : ℝ) : Prop where
  plin : DifferentiableAt ℝ e.plin k
  png : DifferentiableAt ℝ e.alphaPng k
  png_ne : e.alphaPng k ≠ 0

theorem deltaBias_eq (e : QsoEnv) (m : Qso) : deltaBias e m = fun k => 2 * (m.b1 - m.p) * m.fnl * e.deltaCrit / e.alphaPng k := by
  funext k
  unfold deltaBias; split <;> simp [*]

theorem Pmu_differentiable (e : QsoEnv) (m : Qso) (k : ℝ) (h : e.SmoothAt k) (i : ℕ) : DifferentiableAt ℝ (PmuQso e m i) k := by
  have hb : DifferentiableAt ℝ (btot e m) k := by
    have : btot e m = fun k => m.b1 + 2 * (m.b1 - m.p) * m.fnl * e.deltaCrit / e.alphaPng k := by
      funext k; rw [btot, deltaBias_eq]
    rw [this]
    exact (DifferentiableAt.div (differentiableAt_const _) h.png h.png_ne).const_add _
  have hp : DifferentiableAt ℝ (normedPlin e m) k := h.plin.const_mul _
  match i with
  | 0 => exact (hb.pow 2).mul hp
  | 1 => exact (hb.const_mul (2 * m.f)).mul hp
  | 2 => exact hp.const_mul _
  | i + 3 => exact (differentiableAt_id.mul_const 0)

theorem qso_grad (e : QsoEnv) (m : Qso) (k mu : ℝ) (h : e.SmoothAt k) :
    GradAt (qsoCore e m) (qsoDk e m k mu) (qsoDmu e m k mu) k mu := by
  have h1 := GradAt.muSum m.nMu (PmuQso e m) k mu (fun i _ => Pmu_differentiable e m k h i)
  have h2 := GradAt.fog m.fog m.sigmaFog k mu
  have h3 := (h1.mul (h2.mul h2)).add (GradAt.const m.N k mu)
  have e1 : (fun k mu => muSum m.nMu (PmuQso e m) k mu * (m.fog.G k mu m.sigmaFog * m.fog.G k mu m.sigmaFog) + m.N) = qsoCore e m := by
    funext k mu; simp only [qsoCore]; ring
  rw [e1] at h3
  exact h3.congr (by simp only [qsoDk]; ring) (by simp only [qsoDmu]; ring)

/-- **C63, quasars: `derivative_k`, `derivative_mu`.** Without dilation they are the derivatives of `power`. -/
theorem C63_qso_kmu (e : QsoEnv) (m : Qso) (ha : m.alphas = ⟨1, 1, 1⟩) (k mu : ℝ) (h : e.SmoothAt k) :
    HasDerivAt (fun x => qsoPower e m x mu) (distorted m.alphas (qsoDk e m) k mu) k ∧
    HasDerivAt (fun x => qsoPower e m k x) (distorted m.alphas (qsoDmu e m) k mu) mu := by
  have e0 : ∀ (c : ℝ → ℝ → ℝ) k mu, distorted m.alphas c k mu = c k mu := by
    intro c k mu
    simp [distorted, ha, (C60_identity k mu).1, (C60_identity k mu).2, rescale]
  have e1 : ∀ k mu, qsoPower e m k mu = qsoCore e m k mu := fun k mu => e0 _ k mu
  simp only [e1, e0]
  exact ⟨(qso_grad e m k mu h).dk, (qso_grad e m k mu h).dmu⟩

/-- **C63, quasars: `alpha_par`.** -/
theorem C63_qso_alpha_par (e : QsoEnv) (m : Qso) (k mu : ℝ) (hp : Physical m.alphas mu) (h : e.SmoothAt (m.kp k mu)) :
    HasDerivAt (fun x => qsoPower e { m with alphas := { m.alphas with par := x } } k mu) (dQsoAlphaPar e m k mu) m.alphas.par :=
  alphaPar_correct m.alphas (qsoCore e m) (qsoDk e m) (qsoDmu e m) k mu hp.lo hp.hi hp.par hp.perp (qso_grad e m _ _ h)

/-- **C63, quasars: `alpha_perp`.** -/
theorem C63_qso_alpha_perp (e : QsoEnv) (m : Qso) (k mu : ℝ) (hp : Physical m.alphas mu) (h : e.SmoothAt (m.kp k mu)) :
    HasDerivAt (fun x => qsoPower e { m with alphas := { m.alphas with perp := x } } k mu) (dQsoAlphaPerp e m k mu)
      m.alphas.perp :=
  alphaPerp_correct m.alphas (qsoCore e m) (qsoDk e m) (qsoDmu e m) k mu hp.lo hp.hi hp.par hp.perp (qso_grad e m _ _ h)

theorem hasDerivAt_quad (A B C D r x : ℝ) :
    HasDerivAt (fun x => r * ((A + B * x) ^ 2 * C + D)) (r * (2 * (A + B * x) * B * C)) x := by
  have h1 : HasDerivAt (fun x => A + B * x) B x := by simpa using ((hasDerivAt_id x).const_mul B).const_add A
  have := (((h1.pow 2).mul_const C).add_const D).const_mul r
  refine this.congr_deriv ?_
  simp

/-- **C63, quasars: `b1`** (for `max_mu ≥ 4`; the formula divides by the total bias, which must not vanish). -/
theorem C63_qso_b1 (e : QsoEnv) (m : Qso) (hn : 2 ≤ m.nMu) (k mu : ℝ) (hb : btot e m (m.kp k mu) ≠ 0) :
    HasDerivAt (fun x => qsoPower e { m with b1 := x } k mu) (dQsoB1 e m k mu) m.b1 := by
  have hq := hasDerivAt_quad
    (m.f * m.mup mu ^ 2 - 2 * m.p * m.fnl * e.deltaCrit / e.alphaPng (m.kp k mu))
    (1 + 2 * m.fnl * e.deltaCrit / e.alphaPng (m.kp k mu))
    (normedPlin e m (m.kp k mu) * m.fog.G (m.kp k mu) (m.mup mu) m.sigmaFog ^ 2) m.N m.rescaling m.b1
  refine (hq.congr_deriv ?_).congr_of_eventuallyEq (Filter.Eventually.of_forall fun x => ?_)
  · simp only [dQsoB1, PmuQso]
    have hd : btot e m (m.kp k mu) = m.b1 + 2 * (m.b1 - m.p) * m.fnl * e.deltaCrit / e.alphaPng (m.kp k mu) := by
      rw [btot, deltaBias_eq]
    rw [show (m.f * m.mup mu ^ 2 - 2 * m.p * m.fnl * e.deltaCrit / e.alphaPng (m.kp k mu) +
      (1 + 2 * m.fnl * e.deltaCrit / e.alphaPng (m.kp k mu)) * m.b1) = btot e m (m.kp k mu) + m.f * m.mup mu ^ 2 by rw [hd]; ring]
    generalize 1 + 2 * m.fnl * e.deltaCrit / e.alphaPng (m.kp k mu) = q
    generalize btot e m (m.kp k mu) = b at *
    field_simp
  · simp only []
    rw [C63_qso_formula e { m with b1 := x } hn]
    simp only [Qso.rescaling, normedPlin, Qso.kp, Qso.mup]
    ring

/-- **C63, quasars: `f`** (for `max_mu ≥ 4`; the formula divides by `f`). -/
theorem C63_qso_f (e : QsoEnv) (m : Qso) (hn : 2 ≤ m.nMu) (k mu : ℝ) (hf : m.f ≠ 0) :
    HasDerivAt (fun x => qsoPower e { m with f := x } k mu) (dQsoF e m k mu) m.f := by
  have hq := hasDerivAt_quad (btot e m (m.kp k mu)) (m.mup mu ^ 2)
    (normedPlin e m (m.kp k mu) * m.fog.G (m.kp k mu) (m.mup mu) m.sigmaFog ^ 2) m.N m.rescaling m.f
  refine (hq.congr_deriv ?_).congr_of_eventuallyEq (Filter.Eventually.of_forall fun x => ?_)
  · simp only [dQsoF, PmuQso]
    field_simp
  · simp only []
    rw [C63_qso_formula e { m with f := x } hn]
    have hd : btot e m (m.kp k mu) = m.b1 + 2 * (m.b1 - m.p) * m.fnl * e.deltaCrit / e.alphaPng (m.kp k mu) := by
      rw [btot, deltaBias_eq]
    rw [hd]
    simp only [Qso.rescaling, normedPlin, Qso.kp, Qso.mup]
    ring

/-- **C63, quasars: `f_nl`** (for `max_mu ≥ 4`), also at `f_nl = 0`. -/
theorem C63_qso_fnl (e : QsoEnv) (m : Qso) (hn : 2 ≤ m.nMu) (k mu : ℝ) (hb : btot e m (m.kp k mu) ≠ 0) :
    HasDerivAt (fun x => qsoPower e { m with fnl := x } k mu) (dQsoFnl e m k mu) m.fnl := by
  have hq := hasDerivAt_quad (m.b1 + m.f * m.mup mu ^ 2) (2 * (m.b1 - m.p) * e.deltaCrit / e.alphaPng (m.kp k mu))
    (normedPlin e m (m.kp k mu) * m.fog.G (m.kp k mu) (m.mup mu) m.sigmaFog ^ 2) m.N m.rescaling m.fnl
  refine (hq.congr_deriv ?_).congr_of_eventuallyEq (Filter.Eventually.of_forall fun x => ?_)
  · simp only [dQsoFnl, PmuQso]
    have hd : btot e m (m.kp k mu) = m.b1 + 2 * (m.b1 - m.p) * m.fnl * e.deltaCrit / e.alphaPng (m.kp k mu) := by
      rw [btot, deltaBias_eq]
    rw [show (m.b1 + m.f * m.mup mu ^ 2 + 2 * (m.b1 - m.p) * e.deltaCrit / e.alphaPng (m.kp k mu) * m.fnl) =
      btot e m (m.kp k mu) + m.f * m.mup mu ^ 2 by rw [hd]; ring]
    generalize 2 * (m.b1 - m.p) * e.deltaCrit / e.alphaPng (m.kp k mu) = q
    generalize btot e m (m.kp k mu) = b at *
    field_simp
  · simp only []
    rw [C63_qso_formula e { m with fnl := x } hn]
    simp only [Qso.rescaling, normedPlin, Qso.kp, Qso.mup]
    ring

/-- The derivative with respect to `sigma8_z` is the reported one minus `2 N α/σ8` (`α` the volume factor). -/
theorem qso_sigma8_exact (e : QsoEnv) (m : Qso) (hn : 2 ≤ m.nMu) (k mu : ℝ) (hs : m.sigma8 ≠ 0) :
    HasDerivAt (fun x => qsoPower e { m with sigma8 := x } k mu)
      (dQsoSigma8 e m k mu - 2 * m.N * m.rescaling / m.sigma8) m.sigma8 := by
  have hq := hasDerivAt_quad 0 (1 / e.sigma8Cosmo)
    ((m.b1 + 2 * (m.b1 - m.p) * m.fnl * e.deltaCrit / e.alphaPng (m.kp k mu) + m.f * m.mup mu ^ 2) ^ 2 *
      e.plin (m.kp k mu) * m.fog.G (m.kp k mu) (m.mup mu) m.sigmaFog ^ 2) m.N m.rescaling m.sigma8
  refine (hq.congr_deriv ?_).congr_of_eventuallyEq (Filter.Eventually.of_forall fun x => ?_)
  · rw [dQsoSigma8, C63_qso_formula e m hn, ← Qso.rescaling]
    generalize e.plin (m.kp k mu) = p
    generalize m.b1 + 2 * (m.b1 - m.p) * m.fnl * e.deltaCrit / e.alphaPng (m.kp k mu) + m.f * m.mup mu ^ 2 = B
    generalize m.fog.G (m.kp k mu) (m.mup mu) m.sigmaFog = G
    field_simp
    ring
  · simp only []
    rw [C63_qso_formula e { m with sigma8 := x } hn]
    simp only [Qso.rescaling, Qso.kp, Qso.mup]
    ring

/-- **C63, quasars: `sigma8_z` (partial)**: right when the offset `N` is zero. -/
theorem C63_qso_sigma8_partial (e : QsoEnv) (m : Qso) (hn : 2 ≤ m.nMu) (k mu : ℝ) (hs : m.sigma8 ≠ 0) (hN : m.N = 0) :
    HasDerivAt (fun x => qsoPower e { m with sigma8 := x } k mu) (dQsoSigma8 e m k mu) m.sigma8 := by
  have := qso_sigma8_exact e m hn k mu hs
  simpa [hN] using this

/-- C63 is false for `sigma8_z` whenever `N ≠ 0`: at every `(k, mu)` the reported value is not the derivative. -/
theorem C63_qso_sigma8_counterexample (e : QsoEnv) (m : Qso) (hn : 2 ≤ m.nMu) (k mu : ℝ) (hs : m.sigma8 ≠ 0) (hN : m.N ≠ 0)
    (h1 : m.alphas.drag ≠ 0) (h2 : m.alphas.perp ≠ 0) (h3 : m.alphas.par ≠ 0) :
    ¬ HasDerivAt (fun x => qsoPower e { m with sigma8 := x } k mu) (dQsoSigma8 e m k mu) m.sigma8 := by
  intro h
  have := h.unique (qso_sigma8_exact e m hn k mu hs)
  have hr : 2 * m.N * m.rescaling / m.sigma8 ≠ 0 := by
    unfold Qso.rescaling; positivity
  apply hr
  linarith

/-- The derivative with respect to `sigma_fog` is the reported one minus `2 N α G'/G`. -/
theorem qso_sigmaFog_exact (e : QsoEnv) (m : Qso) (hn : 2 ≤ m.nMu) (k mu : ℝ) :
    HasDerivAt (fun x => qsoPower e { m with sigmaFog := x } k mu)
      (dQsoSigmaFog e m k mu - 2 * m.N * m.rescaling * m.fog.dsigma (m.kp k mu) (m.mup mu) m.sigmaFog /
        m.fog.G (m.kp k mu) (m.mup mu) m.sigmaFog) m.sigmaFog := by
  have hG := m.fog.dsigma_correct (m.kp k mu) (m.mup mu) m.sigmaFog
  have hpos : m.fog.G (m.kp k mu) (m.mup mu) m.sigmaFog ≠ 0 := (m.fog.kernel_pos _).ne'
  have h1 := (((hG.pow 2).const_mul
    ((m.b1 + 2 * (m.b1 - m.p) * m.fnl * e.deltaCrit / e.alphaPng (m.kp k mu) + m.f * m.mup mu ^ 2) ^ 2 *
      normedPlin e m (m.kp k mu))).add_const m.N).const_mul m.rescaling
  refine (h1.congr_deriv ?_).congr_of_eventuallyEq (Filter.Eventually.of_forall fun x => ?_)
  · simp only [dQsoSigmaFog, ne_eq, hpos, not_false_eq_true, if_true]
    rw [C63_qso_formula e m hn, ← Qso.rescaling, ← normedPlin]
    generalize m.fog.G (m.kp k mu) (m.mup mu) m.sigmaFog = G at *
    field_simp
    push_cast
    ring
  · simp only []
    rw [C63_qso_formula e { m with sigmaFog := x } hn]
    simp only [Qso.rescaling, Qso.kp, Qso.mup, normedPlin, Pi.pow_apply]

/-- **C63, quasars: `sigma_fog` (partial)**: right when the offset `N` is zero. -/
theorem C63_qso_sigma_fog_partial (e : QsoEnv) (m : Qso) (hn : 2 ≤ m.nMu) (k mu : ℝ) (hN : m.N = 0) :
    HasDerivAt (fun x => qsoPower e { m with sigmaFog := x } k mu) (dQsoSigmaFog e m k mu) m.sigmaFog := by
  have := qso_sigmaFog_exact e m hn k mu
  simpa [hN] using this

/-- C63 is false for `sigma_fog` when `N ≠ 0`: wherever the kernel has a non-zero derivative, the reported value is not the derivative. -/
theorem C63_qso_sigma_fog_counterexample (e : QsoEnv) (m : Qso) (hn : 2 ≤ m.nMu) (k mu : ℝ) (hN : m.N ≠ 0)
    (h0 : m.fog.dsigma (m.kp k mu) (m.mup mu) m.sigmaFog ≠ 0)
    (h1 : m.alphas.drag ≠ 0) (h2 : m.alphas.perp ≠ 0) (h3 : m.alphas.par ≠ 0) :
    ¬ HasDerivAt (fun x => qsoPower e { m with sigmaFog := x } k mu) (dQsoSigmaFog e m k mu) m.sigmaFog := by
  intro h
  have := h.unique (qso_sigmaFog_exact e m hn k mu)
  have hpos : m.fog.G (m.kp k mu) (m.mup mu) m.sigmaFog ≠ 0 := (m.fog.kernel_pos _).ne'
  have hr : 2 * m.N * m.rescaling * m.fog.dsigma (m.kp k mu) (m.mup mu) m.sigmaFog /
        m.fog.G (m.kp k mu) (m.mup mu) m.sigmaFog ≠ 0 := by
    unfold Qso.rescaling; positivity
  apply hr
  linarith

/-! ### C66 -/

/-- **C66, quasars.** Adding `c` to `N` adds `c` times the volume factor to the power. -/
theorem C66_qso (e : QsoEnv) (m : Qso) (c k mu : ℝ) :
    qsoPower e { m with N := m.N + c } k mu =
      qsoPower e m k mu + m.alphas.drag ^ 3 / (m.alphas.perp ^ 2 * m.alphas.par) * c := by
  have hP : PmuQso e { m with N := m.N + c } = PmuQso e m := by
    funext i k
    match i with
    | 0 => rfl
    | 1 => rfl
    | 2 => rfl
    | i + 3 => rfl
  simp only [qsoPower, distorted, qsoCore, rescale, hP]
  ring

/-- An instance of all hypotheses: a quasar model with non-trivial values and a linear power that is smooth. -/
noncomputable def qsoExample : Qso :=
  { alphas := ⟨1.02, 0.97, 1⟩, b1 := 2, f := 0.8, fnl := 10, p := 1, sigma8 := 0.6, sigmaFog := 4, N := 0, nMu := 2, fog := .gaussian }

noncomputable def qsoEnvExample : QsoEnv := { plin := fun k => k, sigma8Cosmo := 0.8, alphaPng := fun k => 1 + k ^ 2, deltaCrit := 1.686 }

example : Physical qsoExample.alphas 0.5 ∧ (∀ k, qsoEnvExample.SmoothAt k) ∧ 2 ≤ qsoExample.nMu ∧
    (∀ k, btot qsoEnvExample qsoExample k ≠ 0) ∧ qsoExample.f ≠ 0 ∧ qsoExample.sigma8 ≠ 0 := by
  refine ⟨⟨?_, ?_, ?_, ?_⟩, fun k => ⟨?_, ?_, ?_⟩, le_refl _, fun k => ?_, ?_, ?_⟩
  · simp only [qsoExample]; norm_num
  · simp only [qsoExample]; norm_num
  · norm_num
  · norm_num
  · exact differentiableAt_fun_id
  · exact (differentiableAt_fun_id (𝕜 := ℝ).pow 2).const_add 1
  · show (1 + k ^ 2 : ℝ) ≠ 0
    positivity
  · rw [btot, deltaBias_eq]
    simp only [qsoEnvExample, qsoExample]
    have : (0 : ℝ) < 2 + 2 * (2 - 1) * 10 * 1.686 / (1 + k ^ 2) := by
      have : (0 : ℝ) ≤ 2 * (2 - 1) * 10 * 1.686 / (1 + k ^ 2) := by
        apply div_nonneg (by norm_num) (by positivity)
      linarith
    exact this.ne'
  · simp only [qsoExample]; norm_num
  · simp only [qsoExample]; norm_num

end Verif.Rsd
