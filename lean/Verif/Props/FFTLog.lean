/-
C111: the logarithmic Fourier transforms.
-/
import Verif.Lemmas.FFTLogInt

namespace Verif.FFTLog

open Complex Finset Verif.Xi Filter Topology MeasureTheory

noncomputable section

/-- a log-spaced grid -/
structure LogGrid (Nx : ℕ) (Δ : ℝ) (x : ℕ → ℝ) : Prop where
  two : 2 ≤ Nx
  step : Δ ≠ 0
  pos : 0 < x 0
  spaced : ∀ j, j < Nx → x j = x 0*Real.exp (j*Δ)

/-- all that is assumed of `loggamma` -/
def IsLogGamma (L : ℂ → ℂ) : Prop := ∀ z : ℂ, 0 < z.re → cexp (L z) = Gamma z

theorem isLogGamma_log : IsLogGamma fun z => Complex.log (Gamma z) := fun z hz => Complex.exp_log (Complex.Gamma_ne_zero_of_re_pos hz)

theorem LogGrid.pos' {Nx : ℕ} {Δ : ℝ} {x : ℕ → ℝ} (G : LogGrid Nx Δ x) {j : ℕ} (h : j < Nx) : 0 < x j := by
  rw [G.spaced j h]; exact mul_pos G.pos (Real.exp_pos _)

theorem LogGrid.delta_eq {Nx : ℕ} {Δ : ℝ} {x : ℕ → ℝ} (G : LogGrid Nx Δ x) : delta Nx x = Δ := by
  have h2 := G.two
  have h : ((Nx:ℝ) - 1) ≠ 0 := by
    have : (2:ℝ) ≤ Nx := by exact_mod_cast h2
    linarith
  rw [delta, G.spaced (Nx-1) (by omega), mul_comm, mul_div_assoc, div_self G.pos.ne', mul_one, Real.log_exp]
  push_cast [show 1 ≤ Nx by omega]
  field_simp

theorem UKsph_eq {L : ℂ → ℂ} (hL : IsLogGamma L) (l : ℕ) {z : ℂ} (h1 : 0 < z.re) (h2 : z.re < 3) : UKsph L l z = mellinSph l z := by
  have hl : (0:ℝ) ≤ l := Nat.cast_nonneg l
  have e1 : (1/2*(l+z) : ℂ) = (l+z)/2 := by ring
  have e2 : (1/2*(3+l-z) : ℂ) = (3+l-z)/2 := by ring
  have r1 : 0 < ((l+z)/2 : ℂ).re := by
    rw [show ((l+z)/2 : ℂ) = ((1/2:ℝ):ℂ)*(l+z) by push_cast; ring, re_ofReal_mul]
    simp; linarith
  have r2 : 0 < ((3+l-z)/2 : ℂ).re := by
    rw [show ((3+l-z)/2 : ℂ) = ((1/2:ℝ):ℂ)*(3+l-z) by push_cast; ring, re_ofReal_mul]
    simp; linarith
  rw [UKsph, Complex.exp_sub, Complex.exp_add, e1, e2, hL _ r1, hL _ r2, mellinSph, cpow_def_of_ne_zero (by norm_num)]
  have : (Real.log 2 : ℂ) = Complex.log 2 := by
    rw [ofReal_log (by norm_num)]; norm_num
  rw [this]
  ring

theorem exp_zpow (a : ℝ) (n : ℤ) : Real.exp a^n = Real.exp (n*a) := by
  rw [← Real.rpow_intCast, ← Real.exp_mul, mul_comm]

/-- the padding of weighted samples is the weighted padding -/
theorem pad_weight (N Nx : ℕ) (left right : Bool) (P : ℕ → ℝ) {c ρ : ℝ} (hc : c ≠ 0) (hρ : 0 < ρ) (hx : 2 ≤ Nx) (j : ℕ) :
    pad N Nx left right (fun i => c*ρ^i*P i) j = c*ρ^((j:ℤ) - ((N-Nx)/2 : ℕ))*pad N Nx left right P j := by
  have h0 : c*ρ^1*P 1/(c*ρ^0*P 0) = ρ*(P 1/P 0) := by
    rw [pow_one, pow_zero, mul_one]
    by_cases h : P 0 = 0
    · simp [h]
    · field_simp
  have h1 : c*ρ^(Nx-1)*P (Nx-1)/(c*ρ^(Nx-2)*P (Nx-2)) = ρ*(P (Nx-1)/P (Nx-2)) := by
    have : ρ^(Nx-1) = ρ^(Nx-2)*ρ := by rw [← pow_succ]; congr 1; omega
    rw [this]
    have := (pow_pos hρ (Nx-2)).ne'
    by_cases h : P (Nx-2) = 0
    · simp [h]
    · field_simp
  simp only [pad]
  split_ifs with a b d e
  · rw [h0, mul_zpow, pow_zero]; ring
  · ring
  · have : ρ^((j:ℤ) - ((N-Nx)/2 : ℕ)) = ρ^(j - (N-Nx)/2) := by
      rw [← zpow_natCast]; congr 1; omega
    rw [this]
  · have : ρ^((j:ℤ) - ((N-Nx)/2 : ℕ)) = ρ^(Nx-1)*ρ^(j - ((N-Nx)/2+Nx) + 1) := by
      rw [← pow_add, ← zpow_natCast]; congr 1; omega
    rw [h1, mul_pow, this]; ring
  · ring

/-- **C111** (padding): the padding of `mcfit` continues the function as the docstring says -/
theorem C111_padding {N Nx : ℕ} (hx : 2 ≤ Nx) {Δ x₀ : ℝ} (hx₀ : 0 < x₀) (left right : Bool) (P : ℕ → ℝ) :
    Padded N Nx ((N-Nx)/2) Δ x₀ left right P (pad N Nx left right P) where
  inside j hj := by simp only [pad]; rw [if_neg (by omega), if_pos (by omega)]; congr 1; omega
  left_zero h j hj := by simp only [pad]; rw [if_pos hj, h]; simp
  right_zero h j hj _ := by simp only [pad]; rw [if_neg (by omega), if_neg (by omega), h]; simp
  left_law h A p hA hP j hj := by
    simp only [pad]
    rw [if_pos hj, h, if_pos rfl, hP 0 (by omega), hP 1 (by omega)]
    obtain ⟨l, hl⟩ : ∃ l, l = (N-Nx)/2 := ⟨_, rfl⟩
    rw [← hl] at hj ⊢
    have e : ∀ t : ℝ, (x₀*Real.exp (t*Δ))^p = x₀^p*Real.exp (t*Δ*p) := fun t => by
      rw [Real.mul_rpow hx₀.le (Real.exp_pos _).le, ← Real.exp_mul]
    have hp := (Real.rpow_pos_of_pos hx₀ p).ne'
    rw [e, e, e]
    have r : A*(x₀^p*Real.exp (((l+1:ℕ):ℝ)*Δ*p))/(A*(x₀^p*Real.exp (((l+0:ℕ):ℝ)*Δ*p))) = Real.exp (Δ*p) := by
      have : Real.exp (((l+1:ℕ):ℝ)*Δ*p) = Real.exp (((l+0:ℕ):ℝ)*Δ*p)*Real.exp (Δ*p) := by
        rw [← Real.exp_add]; congr 1; push_cast; ring
      rw [this]
      have := (Real.exp_pos (((l+0:ℕ):ℝ)*Δ*p)).ne'
      field_simp
    rw [r, exp_zpow, mul_assoc, mul_assoc, ← Real.exp_add]
    congr 3
    push_cast; ring
  right_law h A p hA hP j hj hjN := by
    simp only [pad]
    rw [if_neg (by omega), if_neg (by omega), h, if_pos rfl, hP (Nx-1) (by omega) (by omega), hP (Nx-2) (by omega) (by omega)]
    obtain ⟨l, hl⟩ : ∃ l, l = (N-Nx)/2 := ⟨_, rfl⟩
    rw [← hl] at hj ⊢
    have e : ∀ t : ℝ, (x₀*Real.exp (t*Δ))^p = x₀^p*Real.exp (t*Δ*p) := fun t => by
      rw [Real.mul_rpow hx₀.le (Real.exp_pos _).le, ← Real.exp_mul]
    have hp := (Real.rpow_pos_of_pos hx₀ p).ne'
    rw [e, e, e]
    have r : A*(x₀^p*Real.exp (((l+(Nx-1):ℕ):ℝ)*Δ*p))/(A*(x₀^p*Real.exp (((l+(Nx-2):ℕ):ℝ)*Δ*p))) = Real.exp (Δ*p) := by
      have : Real.exp (((l+(Nx-1):ℕ):ℝ)*Δ*p) = Real.exp (((l+(Nx-2):ℕ):ℝ)*Δ*p)*Real.exp (Δ*p) := by
        rw [← Real.exp_add, show l+(Nx-1) = l+(Nx-2)+1 by omega]; congr 1; push_cast; ring
      rw [this]
      have := (Real.exp_pos (((l+(Nx-2):ℕ):ℝ)*Δ*p)).ne'
      field_simp
    rw [r, ← Real.exp_nat_mul, mul_assoc, mul_assoc, ← Real.exp_add]
    congr 3
    have : ((j:ℕ):ℝ) = ((l + (Nx-1) + (j - (l+Nx) + 1) : ℕ):ℝ) := by congr 1; omega
    rw [this]
    push_cast; ring

/-- **C111** (interpolation): the log-periodic interpolation of any samples exists -/
theorem C111_interp_exists {N : ℕ} {Δ x₀ : ℝ} (hΔ : Δ ≠ 0) (hx₀ : 0 < x₀) (w : ℝ) (d : ℕ → ℝ) : ∃ F, Interp N Δ x₀ w d F := by
  obtain ⟨a, b, hb, h⟩ := trig_exists N fun j => (x₀*Real.exp (j*Δ))^w*d j
  refine ⟨fun x => x^(-w)*trig N a b (Real.log (x/x₀)/Δ), ⟨a, b, hb, fun x hx => ?_⟩, fun j hj => ?_⟩
  · rw [← mul_assoc, ← Real.rpow_add hx, add_neg_cancel, Real.rpow_zero, one_mul]
  · have hp : 0 < x₀*Real.exp (j*Δ) := mul_pos hx₀ (Real.exp_pos _)
    have e : Real.log (x₀*Real.exp (j*Δ)/x₀)/Δ = j := by
      rw [mul_div_right_comm, div_self hx₀.ne', one_mul, Real.log_exp]; field_simp
    rw [e, ← h j hj, ← mul_assoc, ← Real.rpow_add hp, neg_add_cancel, Real.rpow_zero, one_mul]

/-- **C111** (interpolation): and there is only one -/
theorem C111_interp_unique {N : ℕ} (hN : N ≠ 0) {Δ x₀ : ℝ} (hΔ : Δ ≠ 0) (hx₀ : 0 < x₀) {w : ℝ} {d : ℕ → ℝ} {F F' : ℝ → ℝ} (h : Interp N Δ x₀ w d F) (h' : Interp N Δ x₀ w d F') {x : ℝ} (hx : 0 < x) : F x = F' x := by
  obtain ⟨a, b, hb, hw⟩ := h.wave
  obtain ⟨a', b', hb', hw'⟩ := h'.wave
  have node : ∀ j : ℕ, Real.log (x₀*Real.exp (j*Δ)/x₀)/Δ = j := fun j => by
    rw [mul_div_right_comm, div_self hx₀.ne', one_mul, Real.log_exp]; field_simp
  have hp : ∀ j : ℕ, 0 < x₀*Real.exp (j*Δ) := fun j => mul_pos hx₀ (Real.exp_pos _)
  have s : ∀ m, 2*m ≤ N → spec N a b m = spec N a' b' m := fun m hm => by
    rw [← rfft_trig (f := fun j => (x₀*Real.exp (j*Δ))^w*d j) hN hb (fun j hj => by beta_reduce; rw [← h.hits j hj, hw _ (hp j), node]) hm]
    exact rfft_trig (f := fun j => (x₀*Real.exp (j*Δ))^w*d j) hN hb' (fun j hj => by beta_reduce; rw [← h'.hits j hj, hw' _ (hp j), node]) hm
  have e : x^w*F x = x^w*F' x := by
    rw [hw x hx, hw' x hx, trig_half hN, trig_half hN, half, half]
    congr 1
    refine sum_congr rfl fun m hm => ?_
    rw [mem_range] at hm
    beta_reduce
    rw [s m (by omega)]
  exact mul_left_cancel₀ (Real.rpow_pos_of_pos hx w).ne' e

/-- what a multiplied spectrum gives, in terms of the function behind the samples -/
theorem interp_core {N : ℕ} (hN : N ≠ 0) {Δ x₀ w : ℝ} (hΔ : Δ ≠ 0) (hx₀ : 0 < x₀) {d : ℕ → ℝ} {F : ℝ → ℝ} (hF : Interp N Δ x₀ w d F) (c : ℝ) (l : ℕ) {q : ℝ} (h1 : 1 < q) (h2 : q < 2) {y : ℝ} (hy : 0 < y) {u : ℕ → ℂ} (s : ℤ)
    (hu : ∀ m, 2*m ≤ N → u m*ew N (m*s) = mellinSph l (q + I*((2*Real.pi*m/(N*Δ) : ℝ):ℂ))*cexp (-(I*(((2*Real.pi*m/(N*Δ) : ℝ):ℂ)*Real.log (x₀*y))))) {f : ℕ → ℝ} (hf : ∀ j, j < N → f j = c*(x₀*Real.exp (j*Δ))^w*d j) :
    Integral (fun x => c*x^(q-1+w)*F x*sph l (x*y)) (Real.sqrt (Real.pi/2)*y^(-q)*(half N (fun m => (rfft N f m*u m*ew N (m*s)).re)/N)) := by
  obtain ⟨a, b, hb, hw⟩ := hF.wave
  have tr : ∀ θ, trig N (fun m => c*a m) (fun m => c*b m) θ = c*trig N a b θ := fun θ => by
    rw [trig, trig, mul_sum]; refine sum_congr rfl fun m _ => ?_; ring
  have K := core hN (a := fun m => c*a m) (b := fun m => c*b m) (fun m hm => by rw [hb m hm, mul_zero]) (f := f) (fun j hj => by
    have hp : 0 < x₀*Real.exp (j*Δ) := mul_pos hx₀ (Real.exp_pos _)
    have e : Real.log (x₀*Real.exp (j*Δ)/x₀)/Δ = j := by
      rw [mul_div_right_comm, div_self hx₀.ne', one_mul, Real.log_exp]; field_simp
    rw [tr, hf j hj, ← hF.hits j hj, mul_assoc, hw _ hp, e]) l h1 h2 hx₀ hy s hu
  refine Tendsto.congr' ?_ K
  filter_upwards [eventually_ge_atTop 0] with R hR
  refine intervalIntegral.integral_congr_ae (Filter.Eventually.of_forall fun x hx => ?_)
  rw [Set.uIoc_of_le hR] at hx
  rw [tr, ← hw x hx.1, Real.rpow_add hx.1]
  ring

theorem call_half (UK : ℂ → ℂ) (q : ℝ) (lowring : Bool) (N Nx : ℕ) (x prefac postfac : ℕ → ℝ) (left right : Bool) (F : ℕ → ℝ) (n : ℕ) :
    call UK q lowring N Nx x prefac postfac left right F n = postfac n*outputY UK q lowring N Nx x n^(-q)*
      (half N (fun m => (rfft N (pad N Nx left right fun j => prefac j*x j^(-q)*F j) m*coeffs UK q lowring N (delta Nx x) m*ew N (m*(-((N - Nx - (N-Nx)/2 + n : ℕ):ℤ)))).re)/N) := by
  simp only [call]
  rw [hfft_ew]

/-- the first node of the padded grid -/
theorem outputY_log {UK : ℂ → ℂ} {q : ℝ} {lowring : Bool} {N Nx : ℕ} {Δ : ℝ} {x : ℕ → ℝ} (G : LogGrid Nx Δ x) (hN : Nx ≤ N) {n : ℕ} (hn : n < Nx) :
    0 < outputY UK q lowring N Nx x n ∧ Real.log (x 0*Real.exp (-(((N-Nx)/2 : ℕ):ℝ)*Δ)*outputY UK q lowring N Nx x n) = lnxy UK q lowring N Δ - ((N:ℝ) - ((N - Nx - (N-Nx)/2 + n : ℕ):ℝ))*Δ := by
  have hp : 0 < x (Nx-1-n) := G.pos' (by omega)
  have h0 := G.pos
  refine ⟨by rw [outputY]; positivity, ?_⟩
  rw [outputY, G.delta_eq, G.spaced (Nx-1-n) (by omega)]
  obtain ⟨l, hl⟩ : ∃ l, l = (N-Nx)/2 := ⟨_, rfl⟩
  rw [← hl]
  have e : x 0*Real.exp (-(l:ℝ)*Δ)*(Real.exp (lnxy UK q lowring N Δ - Δ)/(x 0*Real.exp (((Nx-1-n:ℕ):ℝ)*Δ))) = Real.exp (-(l:ℝ)*Δ + (lnxy UK q lowring N Δ - Δ) - ((Nx-1-n:ℕ):ℝ)*Δ) := by
    rw [Real.exp_sub (-(l:ℝ)*Δ + (lnxy UK q lowring N Δ - Δ)), Real.exp_add]; field_simp
  rw [e, Real.log_exp]
  have e1 : ((Nx-1-n:ℕ):ℝ) = Nx - 1 - n := by
    rw [Nat.cast_sub (by omega), Nat.cast_sub (by omega)]; push_cast; ring
  have e2 : ((N - Nx - l + n : ℕ):ℝ) = N - Nx - l + n := by
    rw [Nat.cast_add, Nat.cast_sub (by omega), Nat.cast_sub hN]
  rw [e1, e2]; ring

theorem coeffs_ew {L : ℂ → ℂ} (hL : IsLogGamma L) (l : ℕ) {q : ℝ} (h1 : 1 < q) (h2 : q < 2) (lowring : Bool) {N Nx : ℕ} {Δ : ℝ} {x : ℕ → ℝ} (G : LogGrid Nx Δ x) (hN : Nx ≤ N) {n : ℕ} (hn : n < Nx) (m : ℕ) :
    coeffs (UKsph L l) q lowring N (delta Nx x) m*ew N (m*(-((N - Nx - (N-Nx)/2 + n : ℕ):ℤ)))
      = mellinSph l (q + I*((2*Real.pi*m/(N*Δ) : ℝ):ℂ))*cexp (-(I*(((2*Real.pi*m/(N*Δ) : ℝ):ℂ)*Real.log (x 0*Real.exp (-(((N-Nx)/2 : ℕ):ℝ)*Δ)*outputY (UKsph L l) q lowring N Nx x n)))) := by
  have hN0 : N ≠ 0 := by have := G.two; omega
  have hNc : (N:ℂ) ≠ 0 := by exact_mod_cast hN0
  have hΔ : (Δ:ℂ) ≠ 0 := by exact_mod_cast G.step
  rw [(outputY_log G hN hn).2, coeffs, G.delta_eq]
  obtain ⟨t, ht⟩ : ∃ t, t = N - Nx - (N-Nx)/2 + n := ⟨_, rfl⟩
  rw [← ht]
  have ez : (q:ℂ) + 2*I*Real.pi/N/Δ*m = q + I*((2*Real.pi*m/(N*Δ) : ℝ):ℂ) := by push_cast; field_simp
  have er : ((q:ℂ) + I*((2*Real.pi*m/(N*Δ) : ℝ):ℂ)).re = q := by
    rw [add_re, ofReal_re, mul_re, ofReal_im, ofReal_re, I_re]; ring
  rw [ez, UKsph_eq hL l (by rw [er]; linarith) (by rw [er]; linarith), mul_assoc]
  congr 1
  rw [← ew_periodic hN0 _ (m:ℤ), ew, ← Complex.exp_add]
  congr 1
  push_cast
  field_simp
  ring

theorem call_exact {L : ℂ → ℂ} (hL : IsLogGamma L) (l : ℕ) {q : ℝ} (h1 : 1 < q) (h2 : q < 2) (lowring left right : Bool) {N Nx : ℕ} {Δ : ℝ} {x : ℕ → ℝ} (G : LogGrid Nx Δ x) (hN : Nx ≤ N) {c p : ℝ} (hc : c ≠ 0) (P : ℕ → ℝ)
    {F : ℝ → ℝ} (hF : Interp N Δ (x 0*Real.exp (-(((N-Nx)/2 : ℕ):ℝ)*Δ)) (3-q) (pad N Nx left right P) F) {n : ℕ} (hn : n < Nx) :
    Integral (fun t => p*c*Real.sqrt (2/Real.pi)*t^2*F t*sph l (t*outputY (UKsph L l) q lowring N Nx x n)) (call (UKsph L l) q lowring N Nx x (fun j => c*x j^3) (fun _ => p) left right P n) := by
  have hN0 : N ≠ 0 := by have := G.two; omega
  have hx₀ : 0 < x 0*Real.exp (-(((N-Nx)/2 : ℕ):ℝ)*Δ) := mul_pos G.pos (Real.exp_pos _)
  have hw : ∀ j, j < Nx → c*x j^3*x j^(-q)*P j = (c*x 0^(3-q))*Real.exp ((3-q)*Δ)^j*P j := by
    intro j hj
    have hj' := G.pos' hj
    have : x j^3*x j^(-q) = x 0^(3-q)*Real.exp ((3-q)*Δ)^j := by
      rw [← Real.rpow_natCast, ← Real.rpow_add hj', G.spaced j hj, show ((3:ℕ):ℝ) + -q = 3-q by push_cast; ring, Real.mul_rpow G.pos.le (Real.exp_pos _).le, ← Real.exp_mul, ← Real.exp_nat_mul]
      congr 2; ring
    rw [mul_assoc c, this]; ring
  have hpad : ∀ j, pad N Nx left right (fun j => c*x j^3*x j^(-q)*P j) j = pad N Nx left right (fun j => (c*x 0^(3-q))*Real.exp ((3-q)*Δ)^j*P j) j := by
    intro j
    have two := G.two
    simp only [pad]
    rw [hw 0 (by omega), hw 1 (by omega), hw (Nx-1) (by omega), hw (Nx-2) (by omega)]
    split_ifs with a b d
    · rfl
    · rfl
    · exact hw _ (by omega)
    · rfl
    · rfl
  have K := interp_core hN0 G.step hx₀ hF c l h1 h2 (outputY_log (UK := UKsph L l) (q := q) (lowring := lowring) G hN hn).1 (-((N - Nx - (N-Nx)/2 + n : ℕ):ℤ)) (fun m _ => coeffs_ew hL l h1 h2 lowring G hN hn m)
    (f := pad N Nx left right fun j => c*x j^3*x j^(-q)*P j) (fun j _ => by
      rw [hpad, pad_weight N Nx left right P (mul_ne_zero hc (Real.rpow_pos_of_pos G.pos _).ne') (Real.exp_pos _) G.two]
      congr 1
      rw [mul_assoc]
      congr 1
      rw [mul_assoc, ← Real.exp_add, Real.mul_rpow G.pos.le (Real.exp_pos _).le, ← Real.exp_mul, exp_zpow]
      congr 2
      rw [Int.cast_sub, Int.cast_natCast, Int.cast_natCast]
      ring)
  rw [call_half]
  obtain ⟨H, hH⟩ : ∃ H, H = half N (fun m => (rfft N (pad N Nx left right fun j => c*x j^3*x j^(-q)*P j) m*coeffs (UKsph L l) q lowring N (delta Nx x) m*ew N (m*(-((N - Nx - (N-Nx)/2 + n : ℕ):ℤ)))).re)/N := ⟨_, rfl⟩
  rw [← hH] at K ⊢
  have K2 := Tendsto.const_mul (p*Real.sqrt (2/Real.pi)) K
  have e : p*Real.sqrt (2/Real.pi)*(Real.sqrt (Real.pi/2)*outputY (UKsph L l) q lowring N Nx x n^(-q)*H) = p*outputY (UKsph L l) q lowring N Nx x n^(-q)*H := by
    have : Real.sqrt (2/Real.pi)*Real.sqrt (Real.pi/2) = 1 := by
      rw [← Real.sqrt_mul (by positivity), show 2/Real.pi*(Real.pi/2) = 1 by have := Real.pi_ne_zero; field_simp, Real.sqrt_one]
    linear_combination (p*outputY (UKsph L l) q lowring N Nx x n^(-q)*H)*this
  rw [e] at K2
  refine K2.congr' ?_
  filter_upwards [eventually_ge_atTop 0] with R hR
  rw [← intervalIntegral.integral_const_mul]
  refine intervalIntegral.integral_congr fun t ht => ?_
  rw [Set.uIcc_of_le hR] at ht
  beta_reduce
  rw [show q - 1 + (3 - q) = ((2:ℕ):ℝ) by push_cast; ring, Real.rpow_natCast]
  ring

theorem ipow_even {l : ℕ} (h : l % 2 = 0) : ipow l = (-1)^(l/2) := by
  rw [ipow, I_pow_even h]
  have : ((-1:ℂ)^(l/2)) = (((-1:ℝ)^(l/2) : ℝ):ℂ) := by push_cast; rfl
  rw [this, ofReal_re]

theorem const_P2xi : 1/(2*Real.pi)^(3/2:ℝ)*Real.sqrt (2/Real.pi) = 1/(2*Real.pi^2) := by
  have hp := Real.pi_pos
  have h2 : (0:ℝ) < 2*Real.pi := by positivity
  have e : (2*Real.pi)^(3/2:ℝ) = (2*Real.pi)*Real.sqrt (2*Real.pi) := by
    rw [show (3/2:ℝ) = 1 + 1/2 by norm_num, Real.rpow_add h2, Real.rpow_one, ← Real.sqrt_eq_rpow]
  have e2 : Real.sqrt (2/Real.pi)*Real.pi = Real.sqrt (2*Real.pi) := by
    rw [← Real.sqrt_sq hp.le, ← Real.sqrt_mul (by positivity), Real.sqrt_sq hp.le]; congr 1; field_simp
  rw [e]
  have := (Real.sqrt_pos.2 h2).ne'
  field_simp
  rw [mul_comm, e2]

theorem const_xi2P : (2*Real.pi)^(3/2:ℝ)*Real.sqrt (2/Real.pi) = 4*Real.pi := by
  have hp := Real.pi_pos
  have h2 : (0:ℝ) < 2*Real.pi := by positivity
  have h3 := (Real.rpow_pos_of_pos h2 (3/2)).ne'
  have e3 : (2*Real.pi)^(3/2:ℝ)*(2*Real.pi)^(3/2:ℝ) = (2*Real.pi)^3 := by
    rw [← Real.rpow_add h2, show (3/2:ℝ)+3/2 = ((3:ℕ):ℝ) by norm_num, Real.rpow_natCast]
  have := const_P2xi
  have e : Real.sqrt (2/Real.pi) = 1/(2*Real.pi^2)*(2*Real.pi)^(3/2:ℝ) := by rw [← this]; field_simp
  rw [e, mul_left_comm, e3]; field_simp; ring

/-- **C111** (`P2xi`): whatever the samples of the power spectrum, the tilt between 1 and 2 (default 3/2), the length of the transform, the padding and the choice of `lowring`, every number `P2xi` returns is exactly the multipole of the correlation function, `(-1)^(ℓ/2) ∫ k² dk/2π² P(k) jℓ(kr)` at the separation it returns with it, of the spectrum that interpolates the padded samples -/
theorem C111_P2xi {L : ℂ → ℂ} (hL : IsLogGamma L) {l : ℕ} (hl : l % 2 = 0) {q : ℝ} (h1 : 1 < q) (h2 : q < 2) (lowring left right : Bool) {N Nx : ℕ} {Δ : ℝ} {k : ℕ → ℝ} (G : LogGrid Nx Δ k) (hN : Nx ≤ N) (P : ℕ → ℝ) :
    ∃ d, Padded N Nx ((N-Nx)/2) Δ (k 0*Real.exp (-(((N-Nx)/2 : ℕ):ℝ)*Δ)) left right P d ∧
      ∀ F, Interp N Δ (k 0*Real.exp (-(((N-Nx)/2 : ℕ):ℝ)*Δ)) (3-q) d F → ∀ n, n < Nx →
        Integral (fun t => (-1)^(l/2)*(t^2/(2*Real.pi^2)*F t*sph l (t*outputY (UKsph L l) q lowring N Nx k n))) (P2xi L l q lowring N Nx k left right P n) := by
  refine ⟨pad N Nx left right P, C111_padding G.two (mul_pos G.pos (Real.exp_pos _)) left right P, fun F hF n hn => ?_⟩
  have h2pi : (0:ℝ) < (2*Real.pi)^(3/2:ℝ) := Real.rpow_pos_of_pos (by have := Real.pi_pos; positivity) _
  have hs : ((-1:ℝ)^(l/2)) ≠ 0 := pow_ne_zero _ (by norm_num)
  have K := call_exact hL l h1 h2 lowring left right G hN (c := ipow l/(2*Real.pi)^(3/2:ℝ)) (p := 1) (by rw [ipow_even hl]; exact div_ne_zero hs h2pi.ne') P hF hn
  rw [P2xi]
  have e : ∀ t, 1*(ipow l/(2*Real.pi)^(3/2:ℝ))*Real.sqrt (2/Real.pi)*t^2*F t*sph l (t*outputY (UKsph L l) q lowring N Nx k n) = (-1)^(l/2)*(t^2/(2*Real.pi^2)*F t*sph l (t*outputY (UKsph L l) q lowring N Nx k n)) := by
    intro t
    rw [ipow_even hl]
    linear_combination ((-1)^(l/2)*t^2*F t*sph l (t*outputY (UKsph L l) q lowring N Nx k n))*const_P2xi
  simpa only [e] using K

/-- **C111** (`xi2P`): every number `xi2P` returns is exactly the multipole of the power spectrum, `4π (-1)^(ℓ/2) ∫ r² dr ξ(r) jℓ(kr)` at the wavenumber it returns with it, of the correlation function that interpolates the padded samples -/
theorem C111_xi2P {L : ℂ → ℂ} (hL : IsLogGamma L) {l : ℕ} (hl : l % 2 = 0) {q : ℝ} (h1 : 1 < q) (h2 : q < 2) (lowring left right : Bool) {N Nx : ℕ} {Δ : ℝ} {r : ℕ → ℝ} (G : LogGrid Nx Δ r) (hN : Nx ≤ N) (xi : ℕ → ℝ) :
    ∃ d, Padded N Nx ((N-Nx)/2) Δ (r 0*Real.exp (-(((N-Nx)/2 : ℕ):ℝ)*Δ)) left right xi d ∧
      ∀ F, Interp N Δ (r 0*Real.exp (-(((N-Nx)/2 : ℕ):ℝ)*Δ)) (3-q) d F → ∀ n, n < Nx →
        Integral (fun t => 4*Real.pi*(-1)^(l/2)*(t^2*F t*sph l (t*outputY (UKsph L l) q lowring N Nx r n))) (xi2P L l q lowring N Nx r left right xi n) := by
  refine ⟨pad N Nx left right xi, C111_padding G.two (mul_pos G.pos (Real.exp_pos _)) left right xi, fun F hF n hn => ?_⟩
  have hs : ((-1:ℝ)^(l/2)) ≠ 0 := pow_ne_zero _ (by norm_num)
  have K := call_exact hL l h1 h2 lowring left right G hN (c := 1) (p := (2*Real.pi)^(3/2:ℝ)/ipow l) one_ne_zero xi hF hn
  rw [xi2P]
  have hss : ((-1:ℝ)^(l/2))*(-1)^(l/2) = 1 := by rw [← mul_pow]; norm_num
  have e : ∀ t, (2*Real.pi)^(3/2:ℝ)/ipow l*1*Real.sqrt (2/Real.pi)*t^2*F t*sph l (t*outputY (UKsph L l) q lowring N Nx r n) = 4*Real.pi*(-1)^(l/2)*(t^2*F t*sph l (t*outputY (UKsph L l) q lowring N Nx r n)) := by
    intro t
    rw [ipow_even hl]
    have i : (2*Real.pi)^(3/2:ℝ)/(-1)^(l/2) = (2*Real.pi)^(3/2:ℝ)*(-1)^(l/2) := by
      rw [div_eq_iff hs]; linear_combination (-(2*Real.pi)^(3/2:ℝ))*hss
    rw [i]
    linear_combination ((-1)^(l/2)*t^2*F t*sph l (t*outputY (UKsph L l) q lowring N Nx r n))*const_xi2P
  simpa only [e, one_mul] using K

end
end Verif.FFTLog
