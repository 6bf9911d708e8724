/-
Lemmas for C111: the transform of a trigonometric polynomial of the logarithm.
-/
import Verif.Lemmas.FFTLog

namespace Verif.FFTLog

open Complex Finset Verif.Xi Filter Topology MeasureTheory

noncomputable section

/-- `2^(z-3/2) Γ((l+z)/2)/Γ((3+l-z)/2)` -/
def mellinSph (l : ℕ) (z : ℂ) : ℂ := 2^(z-3/2)*(Gamma ((l+z)/2)/Gamma ((3+l-z)/2))

theorem mellinSph_const (l : ℕ) (z : ℂ) : (Real.sqrt Real.pi : ℝ)*2^(z-2)*(Gamma ((l+z)/2)/Gamma ((3+l-z)/2)) = (Real.sqrt (Real.pi/2):ℝ)*mellinSph l z := by
  have e : (2:ℂ)^(z-2) = (2:ℂ)^(z-3/2)*((2:ℝ)^(-(1/2):ℝ) : ℝ) := by
    rw [ofReal_cpow (by norm_num)]
    push_cast
    rw [← cpow_add _ _ (by norm_num)]
    congr 1; ring
  have e2 : Real.sqrt (Real.pi/2) = Real.sqrt Real.pi*(2:ℝ)^(-(1/2):ℝ) := by
    rw [Real.sqrt_div Real.pi_pos.le, Real.rpow_neg (by norm_num), ← Real.sqrt_eq_rpow]; rfl
  rw [mellinSph, e, e2]
  push_cast
  ring

theorem cpow_split {x : ℝ} (hx : 0 < x) (q ω : ℝ) : (x:ℂ)^((q:ℂ) + I*ω) = (x^q : ℝ)*cexp (I*ω*Real.log x) := by
  have h0 : (x:ℂ) ≠ 0 := by exact_mod_cast hx.ne'
  rw [cpow_add _ _ h0, ofReal_cpow hx.le, cpow_def_of_ne_zero h0 (I*ω), ← ofReal_log hx.le]
  congr 2
  ring

theorem wave_integrable (l : ℕ) {q : ℝ} (h1 : 0 < q) (ω : ℝ) (y R : ℝ) (C : ℂ) : IntervalIntegrable (fun x : ℝ => C*((x:ℂ)^((q:ℂ) + I*ω - 1)*sph l (x*y))) volume 0 R := by
  refine IntervalIntegrable.const_mul ?_ _
  refine (intervalIntegral.intervalIntegrable_cpow' (by simp; linarith)).mul_continuousOn ?_
  exact (continuous_ofReal.comp ((sph_continuous l).comp (continuous_id.mul continuous_const))).continuousOn

theorem wave_real {q ω x₀ : ℝ} (hx₀ : 0 < x₀) (C : ℂ) {x : ℝ} (hx : 0 < x) (s : ℝ) :
    x^(q-1)*(C*cexp (I*(ω*Real.log (x/x₀)))).re*s = (C*cexp (-(I*(ω*Real.log x₀)))*((x:ℂ)^((q:ℂ) + I*ω - 1)*s)).re := by
  have e : (q:ℂ) + I*ω - 1 = ((q-1 : ℝ):ℂ) + I*ω := by push_cast; ring
  have e1 : cexp (I*(ω*Real.log (x/x₀))) = cexp (I*ω*Real.log x)*cexp (-(I*(ω*Real.log x₀))) := by
    rw [Real.log_div hx.ne' hx₀.ne', ← Complex.exp_add]; congr 1; push_cast; ring
  rw [e, cpow_split hx, e1]
  have : C*cexp (-(I*(ω*Real.log x₀)))*((x^(q-1):ℝ)*cexp (I*ω*Real.log x)*(s:ℂ)) = ((x^(q-1)*s:ℝ):ℂ)*(C*(cexp (I*ω*Real.log x)*cexp (-(I*(ω*Real.log x₀))))) := by
    push_cast; ring
  rw [this, re_ofReal_mul]; ring

/-- the integrand of one frequency -/
def waveInt (l : ℕ) (q ω x₀ y : ℝ) (C : ℂ) (x : ℝ) : ℝ := x^(q-1)*(C*cexp (I*(ω*Real.log (x/x₀)))).re*sph l (x*y)

theorem waveInt_integrable (l : ℕ) {q : ℝ} (h1 : 0 < q) (ω : ℝ) {x₀ : ℝ} (hx₀ : 0 < x₀) (y : ℝ) (C : ℂ) {R : ℝ} (hR : 0 ≤ R) : IntervalIntegrable (waveInt l q ω x₀ y C) volume 0 R := by
  have h := (wave_integrable l h1 ω y R (C*cexp (-(I*(ω*Real.log x₀)))))
  rw [intervalIntegrable_iff] at h ⊢
  have h2 := h.re
  refine h2.congr ?_
  rw [Filter.EventuallyEq, ae_restrict_iff' measurableSet_uIoc]
  refine Filter.Eventually.of_forall fun x hx => ?_
  rw [Set.uIoc_of_le hR] at hx
  exact (wave_real hx₀ C hx.1 _).symm

/-- the transform of one frequency -/
theorem wave_transform (l : ℕ) {q : ℝ} (h1 : 1 < q) (h2 : q < 2) (ω : ℝ) {x₀ y : ℝ} (hx₀ : 0 < x₀) (hy : 0 < y) (C : ℂ) :
    Tendsto (fun R : ℝ => ∫ x in (0:ℝ)..R, waveInt l q ω x₀ y C x) atTop
      (𝓝 (Real.sqrt (Real.pi/2)*y^(-q)*(C*mellinSph l (q + I*ω)*cexp (-(I*(ω*Real.log (x₀*y))))).re)) := by
  have T := hankel_power l (z := q + I*ω) (by simpa using h1) (by simpa using h2) hy
  rw [mellinSph_const] at T
  have T2 := (T.const_mul (C*cexp (-(I*(ω*Real.log x₀)))))
  have T3 := (Complex.continuous_re.tendsto _).comp T2
  have ev : (C*cexp (-(I*(ω*Real.log x₀)))*((y:ℂ)^(-((q:ℂ)+I*ω))*((Real.sqrt (Real.pi/2):ℝ)*mellinSph l (q + I*ω)))).re = Real.sqrt (Real.pi/2)*y^(-q)*(C*mellinSph l (q + I*ω)*cexp (-(I*(ω*Real.log (x₀*y))))).re := by
    have e : -((q:ℂ)+I*ω) = ((-q:ℝ):ℂ) + I*((-ω:ℝ):ℂ) := by push_cast; ring
    rw [e, cpow_split hy, ← re_ofReal_mul, Real.log_mul hx₀.ne' hy.ne']
    congr 1
    have : cexp (-(I*(ω*((Real.log x₀ + Real.log y : ℝ):ℂ)))) = cexp (-(I*(ω*Real.log x₀)))*cexp (I*((-ω:ℝ):ℂ)*Real.log y) := by
      rw [← Complex.exp_add]; congr 1; push_cast; ring
    rw [this]; push_cast; ring
  rw [ev] at T3
  refine T3.congr' ?_
  filter_upwards [eventually_ge_atTop 0] with R hR
  simp only [Function.comp]
  rw [← intervalIntegral.integral_const_mul]
  have hi := wave_integrable l (by linarith : 0 < q) ω y R (C*cexp (-(I*(ω*Real.log x₀))))
  have e := Complex.reCLM.intervalIntegral_comp_comm hi
  simp only [reCLM_apply] at e
  rw [← e]
  refine intervalIntegral.integral_congr_ae (Filter.Eventually.of_forall fun x hx => ?_)
  rw [Set.uIoc_of_le hR] at hx
  exact (wave_real hx₀ C hx.1 _).symm

/-- the half spectrum of a trigonometric polynomial -/
def spec (N : ℕ) (a b : ℕ → ℝ) (m : ℕ) : ℂ := ((N/mult N m : ℝ):ℂ)*(if m = 0 then (a m:ℂ) else a m - b m*I)

theorem mult_pos (N m : ℕ) : 0 < mult N m := by rw [mult]; split_ifs <;> norm_num

theorem spec_realEnds {N : ℕ} {a b : ℕ → ℝ} (hb : ∀ m, 2*m = N → b m = 0) (m : ℕ) : realEnds N (spec N a b) m = spec N a b m := by
  rw [realEnds]
  split_ifs with h
  · apply Complex.ext
    · simp
    · rw [ofReal_im, spec, im_ofReal_mul]
      split_ifs with c
      · simp
      · rcases h with h | h
        · exact absurd h c
        · simp [hb m h]
  · rfl

theorem trig_half {N : ℕ} (hN : N ≠ 0) (a b : ℕ → ℝ) (θ : ℝ) : trig N a b θ = half N (fun m => (spec N a b m*cexp (I*((2*Real.pi*m*θ/N : ℝ):ℂ))).re)/N := by
  have h0 : (N:ℝ) ≠ 0 := by exact_mod_cast hN
  rw [trig, half, sum_div]
  refine sum_congr rfl fun m _ => ?_
  have hm := (mult_pos N m).ne'
  beta_reduce
  rw [spec, mul_assoc ((N/mult N m : ℝ):ℂ), re_ofReal_mul]
  rw [show I*((2*Real.pi*m*θ/N : ℝ):ℂ) = ((2*Real.pi*m*θ/N : ℝ):ℂ)*I by ring, exp_mul_I, ← ofReal_cos, ← ofReal_sin]
  obtain ⟨φ, hφ⟩ : ∃ φ, φ = 2*Real.pi*m*θ/N := ⟨_, rfl⟩
  rw [← hφ]
  split_ifs with c
  · have : φ = 0 := by rw [hφ, c]; simp
    rw [this]
    simp
    field_simp
  · simp only [mul_re, add_re, sub_re, ofReal_re, ofReal_im, I_re, I_im, sub_im, add_im, mul_im]
    field_simp
    ring

theorem ew_cexp (N m : ℕ) (s : ℤ) : ew N (m*s) = cexp (I*((2*Real.pi*m*s/N : ℝ):ℂ)) := by
  rw [ew]; congr 1; push_cast; ring

theorem rfft_trig {N : ℕ} (hN : N ≠ 0) {a b : ℕ → ℝ} (hb : ∀ m, 2*m = N → b m = 0) {f : ℕ → ℝ} (hf : ∀ j, j < N → f j = trig N a b j) {m : ℕ} (hm : 2*m ≤ N) :
    rfft N f m = spec N a b m := by
  have e : rfft N f m = rfft N (fun j => half N (fun m' => (spec N a b m'*ew N (m'*(j:ℤ))).re)/N) m := by
    refine sum_congr rfl fun j hj => ?_
    rw [hf j (mem_range.1 hj), trig_half hN]
    simp only [ew_cexp]
    push_cast
    rfl
  rw [e, rfft_half hN _ hm, spec_realEnds hb]

/-- any samples are interpolated -/
theorem trig_exists (N : ℕ) (f : ℕ → ℝ) : ∃ a b : ℕ → ℝ, (∀ m, 2*m = N → b m = 0) ∧ ∀ j, j < N → f j = trig N a b j := by
  refine ⟨fun m => mult N m/N*(rfft N f m).re, fun m => -(mult N m/N*(rfft N f m).im), ?_, ?_⟩
  · intro m hm
    have : (rfft N f m).im = 0 := by
      rw [rfft_ew, im_sum]
      refine sum_eq_zero fun j _ => ?_
      rw [im_ofReal_mul, show -((m:ℤ)*j) = m*(-j) by ring, ew_half_real (Or.inr hm), mul_zero]
    simp [this]
  · intro j hj
    rw [← half_rfft f hj, trig, half, sum_div]
    refine sum_congr rfl fun m _ => ?_
    rw [ew_cexp, show I*((2*Real.pi*m*(j:ℤ)/N : ℝ):ℂ) = ((2*Real.pi*m*(j:ℤ)/N : ℝ):ℂ)*I by ring, exp_mul_I, ← ofReal_cos, ← ofReal_sin]
    simp only [mul_re, add_re, ofReal_re, ofReal_im, I_re, I_im, add_im, mul_im]
    push_cast
    ring

/-- **the core of FFTLog**: if the multiplied spectrum is that of the kernel, the output is the integral of the interpolating function -/
theorem core {N : ℕ} (hN : N ≠ 0) {a b : ℕ → ℝ} (hb : ∀ m, 2*m = N → b m = 0) {f : ℕ → ℝ} (hf : ∀ j, j < N → f j = trig N a b j) (l : ℕ) {q : ℝ} (h1 : 1 < q) (h2 : q < 2)
    {Δ x₀ y : ℝ} (hx₀ : 0 < x₀) (hy : 0 < y) {u : ℕ → ℂ} (s : ℤ)
    (hu : ∀ m, 2*m ≤ N → u m*ew N (m*s) = mellinSph l (q + I*((2*Real.pi*m/(N*Δ) : ℝ):ℂ))*cexp (-(I*(((2*Real.pi*m/(N*Δ) : ℝ):ℂ)*Real.log (x₀*y))))) :
    Integral (fun x => x^(q-1)*trig N a b (Real.log (x/x₀)/Δ)*sph l (x*y)) (Real.sqrt (Real.pi/2)*y^(-q)*(half N (fun m => (rfft N f m*u m*ew N (m*s)).re)/N)) := by
  have e1 : Real.sqrt (Real.pi/2)*y^(-q)*(half N (fun m => (rfft N f m*u m*ew N (m*s)).re)/N)
      = ∑ m ∈ range (N/2+1), mult N m/N*(Real.sqrt (Real.pi/2)*y^(-q)*(spec N a b m*mellinSph l (q + I*((2*Real.pi*m/(N*Δ) : ℝ):ℂ))*cexp (-(I*(((2*Real.pi*m/(N*Δ) : ℝ):ℂ)*Real.log (x₀*y))))).re) := by
    rw [half, sum_div, mul_sum]
    refine sum_congr rfl fun m hm => ?_
    rw [mem_range] at hm
    rw [rfft_trig hN hb hf (by omega), mul_assoc (spec N a b m) (u m), hu m (by omega), ← mul_assoc (spec N a b m)]
    ring
  rw [Integral, e1]
  have T := tendsto_finsetSum (range (N/2+1)) (fun m _ => (wave_transform l h1 h2 (2*Real.pi*m/(N*Δ)) hx₀ hy (spec N a b m)).const_mul (mult N m/N))
  refine T.congr' ?_
  filter_upwards [eventually_ge_atTop 0] with R hR
  have hint : ∀ m ∈ range (N/2+1), IntervalIntegrable (fun x => mult N m/N*waveInt l q (2*Real.pi*m/(N*Δ)) x₀ y (spec N a b m) x) volume 0 R :=
    fun m _ => (waveInt_integrable l (by linarith) _ hx₀ y _ hR).const_mul _
  have e2 : (fun x => x^(q-1)*trig N a b (Real.log (x/x₀)/Δ)*sph l (x*y)) = fun x => ∑ m ∈ range (N/2+1), mult N m/N*waveInt l q (2*Real.pi*m/(N*Δ)) x₀ y (spec N a b m) x := by
    funext x
    rw [trig_half hN, half, sum_div, mul_sum, sum_mul]
    refine sum_congr rfl fun m _ => ?_
    have : (2*Real.pi*m*(Real.log (x/x₀)/Δ)/N : ℝ) = 2*Real.pi*m/(N*Δ)*Real.log (x/x₀) := by
      rw [mul_div_assoc', div_div, div_mul_eq_mul_div, mul_comm Δ]
    rw [waveInt, this]
    push_cast
    ring
  rw [e2, intervalIntegral.integral_finsetSum hint]
  refine sum_congr rfl fun m _ => ?_
  rw [intervalIntegral.integral_const_mul]

end
end Verif.FFTLog
