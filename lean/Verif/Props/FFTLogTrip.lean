/-
C111: there and back.
-/
import Verif.Props.FFTLog

namespace Verif.FFTLog

open Complex Finset Verif.Xi

noncomputable section

/-! ### grids -/

/-- the output grid is log-spaced too, with the same step -/
theorem LogGrid.output {Nx : ℕ} {Δ : ℝ} {x : ℕ → ℝ} (G : LogGrid Nx Δ x) (UK : ℂ → ℂ) (q : ℝ) (lowring : Bool) (N : ℕ) : LogGrid Nx Δ (outputY UK q lowring N Nx x) where
  two := G.two
  step := G.step
  pos := by have := G.two; rw [outputY]; exact div_pos (Real.exp_pos _) (G.pos' (by omega))
  spaced j hj := by
    have h0 := G.pos
    rw [outputY, outputY, G.spaced (Nx-1-j) (by omega), G.spaced (Nx-1-0) (by omega)]
    have e : Real.exp (((Nx-1-0:ℕ):ℝ)*Δ) = Real.exp (((Nx-1-j:ℕ):ℝ)*Δ)*Real.exp (j*Δ) := by
      rw [← Real.exp_add]
      congr 1
      rw [← add_mul]
      congr 1
      rw [← Nat.cast_add]; congr 1; omega
    rw [e]; field_simp

/-- **C111** (grids): a transform of the same kind applied to the output grid comes back to the input grid, whatever the tilt, the length of the transform and the choice of `lowring` -/
theorem C111_grid_back {Nx : ℕ} {Δ : ℝ} {x : ℕ → ℝ} (G : LogGrid Nx Δ x) (UK : ℂ → ℂ) (q : ℝ) (lowring : Bool) (N : ℕ) {n : ℕ} (hn : n < Nx) :
    outputY UK q lowring N Nx (outputY UK q lowring N Nx x) n = x n := by
  have hp := G.pos' hn
  rw [outputY, (G.output UK q lowring N).delta_eq, outputY, G.delta_eq, show Nx-1-(Nx-1-n) = n by omega]
  have := (Real.exp_pos (lnxy UK q lowring N Δ - Δ)).ne'
  field_simp

/-- **C111** (setup): an exactly log-spaced grid passes the checks of the constructor when the transform is long enough, and not when it is shorter than the data -/
theorem C111_setup {Nx N : ℕ} {Δ : ℝ} {x : ℕ → ℝ} (G : LogGrid Nx Δ x) : setupOk Nx N x ↔ Nx ≤ N := by
  refine ⟨fun h => h.2.2, fun h => ⟨G.two, fun j hj => ?_, h⟩⟩
  have h0 := G.pos
  have e : x (j+1)/x j = Real.exp Δ := by
    rw [G.spaced j (by omega), G.spaced (j+1) hj]
    have : Real.exp (((j+1:ℕ):ℝ)*Δ) = Real.exp (j*Δ)*Real.exp Δ := by rw [← Real.exp_add]; congr 1; push_cast; ring
    rw [this]; field_simp
  rw [e, G.delta_eq, sub_self, abs_zero]; positivity

/-- **C111** (setup): the default length is the smallest power of two that is at least twice the length of the data -/
theorem C111_default_length {Nx : ℕ} (h : 1 ≤ Nx) : 2*Nx ≤ defaultN Nx ∧ ∀ p, 2*Nx ≤ 2^p → defaultN Nx ≤ 2^p := by
  rw [defaultN]
  constructor
  · rw [pow_succ]
    have := Nat.le_pow_clog (b := 2) (by norm_num) Nx
    omega
  · intro p hp
    refine Nat.pow_le_pow_right (by norm_num) ?_
    cases p with
    | zero => omega
    | succ p =>
      have h2 : Nx ≤ 2^p := by rw [pow_succ] at hp; omega
      have : Nat.clog 2 Nx ≤ p := Nat.clog_le_of_le_pow h2
      omega

/-! ### the unbiased transform is orthogonal -/

theorem mellinSph_norm (l : ℕ) (ω : ℝ) : ‖mellinSph l (((3/2:ℝ):ℂ) + I*(ω:ℂ))‖ = 1 := by
  have e : (((3+l-(((3/2:ℝ):ℂ) + I*(ω:ℂ)))/2 : ℂ)) = (starRingEnd ℂ) ((l+(((3/2:ℝ):ℂ) + I*(ω:ℂ)))/2) := by
    simp only [map_div₀, map_add, map_mul, conj_ofReal, conj_I, map_natCast, map_ofNat]
    push_cast; ring
  have hr : 0 < ((l+(((3/2:ℝ):ℂ) + I*(ω:ℂ)))/2 : ℂ).re := by
    rw [show ((l+(((3/2:ℝ):ℂ) + I*(ω:ℂ)))/2 : ℂ) = ((1/2:ℝ):ℂ)*(l+(((3/2:ℝ):ℂ) + I*(ω:ℂ))) by push_cast; ring, re_ofReal_mul, add_re, add_re, mul_re, natCast_re, ofReal_re, ofReal_im, I_re]
    have : (0:ℝ) ≤ l := Nat.cast_nonneg l
    linarith
  have hg := norm_ne_zero_iff.2 (Complex.Gamma_ne_zero_of_re_pos hr)
  rw [mellinSph, e, Complex.Gamma_conj, norm_mul, norm_div, RCLike.norm_conj, div_self hg, mul_one,
    show ((((3/2:ℝ):ℂ) + I*(ω:ℂ)) - 3/2 : ℂ) = I*ω by push_cast; ring]
  rw [show (2:ℂ) = ((2:ℝ):ℂ) by norm_num, norm_cpow_eq_rpow_re_of_pos (by norm_num)]
  simp

theorem mellinSph_zero (l : ℕ) : mellinSph l ((3/2:ℝ):ℂ) = 1 := by
  have e : ((3+l-((3/2:ℝ):ℂ))/2 : ℂ) = (l+((3/2:ℝ):ℂ))/2 := by push_cast; ring
  have hr : 0 < ((l+((3/2:ℝ):ℂ))/2 : ℂ).re := by
    rw [show ((l+((3/2:ℝ):ℂ))/2 : ℂ) = ((1/2:ℝ):ℂ)*(l+((3/2:ℝ):ℂ)) by push_cast; ring, re_ofReal_mul, add_re, natCast_re, ofReal_re]
    have : (0:ℝ) ≤ l := Nat.cast_nonneg l
    linarith
  rw [mellinSph, e, div_self (Complex.Gamma_ne_zero_of_re_pos hr), show (((3/2:ℝ):ℂ) - 3/2 : ℂ) = 0 by push_cast; ring, cpow_zero, one_mul]

/-- the coefficient of the highest frequency is real and positive under the low-ringing condition -/
theorem lowring_nyquist (UK : ℂ → ℂ) (q : ℝ) {N : ℕ} {Δ : ℝ} (hΔ : Δ ≠ 0) {m : ℕ} (hm : 2*m = N) (hN : N ≠ 0) :
    coeffs UK q true N Δ m = (‖UK (q + I*Real.pi/Δ)‖ : ℝ) := by
  have hc : (Δ:ℂ) ≠ 0 := by exact_mod_cast hΔ
  have hm0 : (m:ℂ) ≠ 0 := by exact_mod_cast (by omega : m ≠ 0)
  have hp : (Real.pi:ℂ) ≠ 0 := by exact_mod_cast Real.pi_ne_zero
  have hN' : (N:ℂ) = 2*m := by rw [← hm]; push_cast; ring
  have e1 : (q:ℂ) + 2*I*Real.pi/N/Δ*m = q + I*Real.pi/Δ := by rw [hN']; field_simp
  rw [coeffs, lnxy, if_pos ⟨rfl, by omega⟩, e1]
  obtain ⟨z, hz⟩ : ∃ z, z = UK (q + I*Real.pi/Δ) := ⟨_, rfl⟩
  rw [← hz]
  have e2 : (2*I*Real.pi*((Δ/Real.pi*z.arg : ℝ):ℂ)/N/Δ*m : ℂ) = z.arg*I := by rw [hN']; push_cast; field_simp
  rw [e2]
  have h := Complex.norm_mul_exp_arg_mul_I z
  calc z*cexp (-(z.arg*I)) = ‖z‖*cexp (z.arg*I)*cexp (-(z.arg*I)) := by rw [h]
    _ = ‖z‖ := by rw [mul_assoc, ← Complex.exp_add, add_neg_cancel, Complex.exp_zero, mul_one]

/-- **C111** (low ringing): with `lowring` and an even length, the coefficient of the highest frequency is real, so that nothing is lost when its imaginary part is ignored -/
theorem C111_lowring (UK : ℂ → ℂ) (q : ℝ) {N : ℕ} {Δ : ℝ} (hΔ : Δ ≠ 0) {m : ℕ} (hm : 2*m = N) (hN : N ≠ 0) : (coeffs UK q true N Δ m).im = 0 ∧ 0 ≤ (coeffs UK q true N Δ m).re := by
  rw [lowring_nyquist UK q hΔ hm hN]; exact ⟨ofReal_im _, by rw [ofReal_re]; positivity⟩

theorem unit_phases {L : ℂ → ℂ} (hL : IsLogGamma L) (l : ℕ) {lowring : Bool} {N : ℕ} (hN : N ≠ 0) (hr : lowring = true ∨ N % 2 = 1) {Δ : ℝ} (hΔ : Δ ≠ 0) :
    ∀ m, 2*m ≤ N → ‖realEnds N (coeffs (UKsph L l) (3/2) lowring N Δ) m‖ = 1 := by
  intro m hm
  have hNc : (N:ℂ) ≠ 0 := by exact_mod_cast hN
  have hc : (Δ:ℂ) ≠ 0 := by exact_mod_cast hΔ
  have ez : ((3/2:ℝ):ℂ) + 2*I*Real.pi/N/Δ*m = ((3/2:ℝ):ℂ) + I*((2*Real.pi*m/(N*Δ) : ℝ):ℂ) := by push_cast; field_simp
  have er : ∀ ω : ℝ, (((3/2:ℝ):ℂ) + I*(ω:ℂ)).re = 3/2 := fun ω => by
    rw [add_re, ofReal_re, mul_re, ofReal_im, ofReal_re, I_re]; ring
  have hn : ∀ ω : ℝ, ‖UKsph L l (((3/2:ℝ):ℂ) + I*(ω:ℂ))‖ = 1 := fun ω => by
    rw [UKsph_eq hL l (by rw [er]; norm_num) (by rw [er]; norm_num), mellinSph_norm]
  have hz : UKsph L l ((3/2:ℝ):ℂ) = 1 := by
    rw [UKsph_eq hL l (by rw [ofReal_re]; norm_num) (by rw [ofReal_re]; norm_num), mellinSph_zero]
  rw [realEnds]
  split_ifs with c
  · rcases c with rfl | c
    · simp [coeffs] at hz ⊢
      rw [hz]; simp
    · rcases hr with rfl | hr
      · rw [lowring_nyquist _ _ hΔ c hN, show (I*Real.pi/Δ : ℂ) = I*((Real.pi/Δ:ℝ):ℂ) by push_cast; ring, hn]; simp
      · omega
  · rw [coeffs, ez, norm_mul, hn, one_mul]
    rw [show -(2*I*Real.pi*(lnxy (UKsph L l) (3/2) lowring N Δ : ℂ)/N/Δ*m) = ((-(2*Real.pi*lnxy (UKsph L l) (3/2) lowring N Δ/N/Δ*m) : ℝ):ℂ)*I by push_cast; ring]
    exact Complex.norm_exp_ofReal_mul_I _

/-- the matrix of the transform -/
def hank (N p : ℕ) (u : ℕ → ℂ) (a : ℕ) : ℝ := kern N u (-(p:ℤ) - a)

theorem hank_inv {N : ℕ} (hN : N ≠ 0) (p : ℕ) {u : ℕ → ℂ} (h : ∀ m, 2*m ≤ N → ‖realEnds N u m‖ = 1) {n j : ℕ} (hn : n < N) (hj : j < N) :
    ∑ i ∈ range N, hank N p u (n+i)*hank N p u (i+j) = if j = n then 1 else 0 := by
  have := kern_inv hN h (-(p:ℤ) - n) (-(p:ℤ) - j)
  rw [show -(p:ℤ) - n - (-(p:ℤ) - j) = j - n by ring] at this
  simp only [dvd_sub_iff hj hn] at this
  simp only [eq_comm (a := j)]
  rw [← this]
  refine sum_congr rfl fun i _ => ?_
  rw [hank, hank]
  congr 2
  · push_cast; ring
  · push_cast; ring

/-- the transform keeps the length of a vector -/
theorem hank_norm {N : ℕ} (hN : N ≠ 0) (p : ℕ) {u : ℕ → ℂ} (h : ∀ m, 2*m ≤ N → ‖realEnds N u m‖ = 1) (v : ℕ → ℝ) :
    ∑ n ∈ range N, (∑ i ∈ range N, hank N p u (n+i)*v i)^2 = ∑ i ∈ range N, v i^2 := by
  have e : ∀ n ∈ range N, (∑ i ∈ range N, hank N p u (n+i)*v i)^2 = ∑ i ∈ range N, ∑ j ∈ range N, v i*v j*(hank N p u (i+n)*hank N p u (n+j)) := by
    intro n _
    rw [pow_two, sum_mul_sum]
    refine sum_congr rfl fun i _ => sum_congr rfl fun j _ => ?_
    rw [add_comm i n]; ring
  rw [sum_congr rfl e, sum_comm]
  refine sum_congr rfl fun i hi => ?_
  rw [sum_comm]
  have e2 : ∀ j ∈ range N, ∑ n ∈ range N, v i*v j*(hank N p u (i+n)*hank N p u (n+j)) = if j = i then v i*v j else 0 := by
    intro j hj
    rw [← mul_sum, hank_inv hN p h (mem_range.1 hi) (mem_range.1 hj)]
    split_ifs <;> ring
  rw [sum_congr rfl e2, sum_ite_eq', if_pos hi]; ring

/-- and is its own inverse -/
theorem hank_back {N : ℕ} (hN : N ≠ 0) (p : ℕ) {u : ℕ → ℂ} (h : ∀ m, 2*m ≤ N → ‖realEnds N u m‖ = 1) (v : ℕ → ℝ) {n : ℕ} (hn : n < N) :
    ∑ i ∈ range N, hank N p u (n+i)*∑ j ∈ range N, hank N p u (i+j)*v j = v n := by
  have e : ∀ i ∈ range N, hank N p u (n+i)*∑ j ∈ range N, hank N p u (i+j)*v j = ∑ j ∈ range N, v j*(hank N p u (n+i)*hank N p u (i+j)) := by
    intro i _
    rw [mul_sum]; refine sum_congr rfl fun j _ => ?_; ring
  rw [sum_congr rfl e, sum_comm]
  have e2 : ∀ j ∈ range N, ∑ i ∈ range N, v j*(hank N p u (n+i)*hank N p u (i+j)) = if j = n then v j else 0 := by
    intro j hj
    rw [← mul_sum, hank_inv hN p h hn (mem_range.1 hj)]
    split_ifs <;> ring
  rw [sum_congr rfl e2, sum_ite_eq', if_pos (mem_range.2 hn)]

/-- a call without extrapolation, as a matrix -/
theorem call_hank (UK : ℂ → ℂ) (q : ℝ) (lowring : Bool) {N Nx : ℕ} (hN : Nx ≤ N) {Δ : ℝ} {x : ℕ → ℝ} (G : LogGrid Nx Δ x) (prefac postfac F : ℕ → ℝ) (n : ℕ) :
    call UK q lowring N Nx x prefac postfac false false F n = postfac n*outputY UK q lowring N Nx x n^(-q)*∑ j ∈ range Nx, hank N (N-Nx) (coeffs UK q lowring N Δ) (n+j)*(prefac j*x j^(-q)*F j) := by
  rw [call_half, half_conv, G.delta_eq]
  congr 1
  obtain ⟨l, hl⟩ : ∃ l, l = (N-Nx)/2 := ⟨_, rfl⟩
  have e : ∀ j ∈ range N, pad N Nx false false (fun j => prefac j*x j^(-q)*F j) j*kern N (coeffs UK q lowring N Δ) (-((N - Nx - (N-Nx)/2 + n : ℕ):ℤ) - j) =
      if l ≤ j ∧ j < l + Nx then prefac (j-l)*x (j-l)^(-q)*F (j-l)*kern N (coeffs UK q lowring N Δ) (-((N - Nx - l + n : ℕ):ℤ) - j) else 0 := by
    intro j _
    simp only [pad, ← hl]
    split_ifs <;> first | rfl | omega | simp at *
  rw [sum_congr rfl e, ← sum_filter]
  refine sum_bij' (fun j _ => j - l) (fun j _ => j + l) ?_ ?_ ?_ ?_ ?_
  · intro j hj; rw [mem_filter, mem_range] at hj; rw [mem_range]; omega
  · intro j hj; rw [mem_range] at hj; rw [mem_filter, mem_range]; omega
  · intro j hj; rw [mem_filter, mem_range] at hj; omega
  · intro j hj; omega
  · intro j hj
    rw [mem_filter, mem_range] at hj
    rw [hank, mul_comm]
    congr 2
    omega

/-! ### there and back -/

theorem three_half {x : ℝ} (hx : 0 < x) : x^3*x^(-(3/2):ℝ) = x^(3/2:ℝ) := by
  rw [← Real.rpow_natCast, ← Real.rpow_add hx]; norm_num

theorem three_half' {x : ℝ} (hx : 0 < x) : x^(-(3/2):ℝ)*x^(3/2:ℝ) = 1 := by
  rw [← Real.rpow_add hx]; norm_num

theorem three_half_sq {x : ℝ} (hx : 0 < x) : (x^(3/2:ℝ))^2 = x^3 := by
  rw [← Real.rpow_natCast, ← Real.rpow_mul hx.le, ← Real.rpow_natCast]; norm_num

/-- the weighted correlation function on the whole circle -/
def trip (N Nx : ℕ) (u : ℕ → ℂ) (c : ℝ) (k P : ℕ → ℝ) (i : ℕ) : ℝ := ∑ j ∈ range Nx, hank N (N-Nx) u (i+j)*(c*k j^(3/2:ℝ)*P j)

theorem P2xi_trip {L : ℂ → ℂ} (l : ℕ) (lowring : Bool) {N Nx : ℕ} (hN : Nx ≤ N) {Δ : ℝ} {k : ℕ → ℝ} (G : LogGrid Nx Δ k) (P : ℕ → ℝ) (n : ℕ) :
    P2xi L l (3/2) lowring N Nx k false false P n = outputY (UKsph L l) (3/2) lowring N Nx k n^(-(3/2):ℝ)*trip N Nx (coeffs (UKsph L l) (3/2) lowring N Δ) (ipow l/(2*Real.pi)^(3/2:ℝ)) k P n := by
  rw [P2xi, call_hank _ _ _ hN G, one_mul, trip]
  congr 1
  refine sum_congr rfl fun j hj => ?_
  rw [mul_assoc (ipow l/(2*Real.pi)^(3/2:ℝ)), three_half (G.pos' (mem_range.1 hj))]

/-- the two transforms, one after the other -/
theorem back_trip {L : ℂ → ℂ} (l : ℕ) (lowring : Bool) {N Nx : ℕ} (hN : Nx ≤ N) {Δ : ℝ} {k : ℕ → ℝ} (G : LogGrid Nx Δ k) (P : ℕ → ℝ) {n : ℕ} (hn : n < Nx) :
    xi2P L l (3/2) lowring N Nx (outputY (UKsph L l) (3/2) lowring N Nx k) false false (P2xi L l (3/2) lowring N Nx k false false P) n
      = (2*Real.pi)^(3/2:ℝ)/ipow l*k n^(-(3/2):ℝ)*∑ i ∈ range Nx, hank N (N-Nx) (coeffs (UKsph L l) (3/2) lowring N Δ) (n+i)*trip N Nx (coeffs (UKsph L l) (3/2) lowring N Δ) (ipow l/(2*Real.pi)^(3/2:ℝ)) k P i := by
  have G' := G.output (UKsph L l) (3/2) lowring N
  rw [xi2P, call_hank _ _ _ hN G', C111_grid_back G _ _ _ _ hn]
  congr 1
  refine sum_congr rfl fun i hi => ?_
  have hp := G'.pos' (mem_range.1 hi)
  rw [P2xi_trip l lowring hN G, three_half hp, ← mul_assoc (outputY (UKsph L l) (3/2) lowring N Nx k i^(3/2:ℝ)), mul_comm (outputY (UKsph L l) (3/2) lowring N Nx k i^(3/2:ℝ)), three_half' hp, one_mul]

theorem ipow_sq {l : ℕ} (hl : l % 2 = 0) : ipow l*ipow l = 1 := by
  rw [ipow_even hl, ← mul_pow]; norm_num

/-- what the truncation loses -/
theorem trip_error {N Nx : ℕ} (hN : Nx ≤ N) (h0 : N ≠ 0) {u : ℕ → ℂ} (h : ∀ m, 2*m ≤ N → ‖realEnds N u m‖ = 1) (c : ℝ) (k P : ℕ → ℝ) :
    ∑ n ∈ range Nx, (∑ i ∈ range Nx, hank N (N-Nx) u (n+i)*trip N Nx u c k P i - c*k n^(3/2:ℝ)*P n)^2 ≤ ∑ i ∈ Ico Nx N, trip N Nx u c k P i^2 := by
  obtain ⟨v, hv⟩ : ∃ v : ℕ → ℝ, v = fun j => if j < Nx then c*k j^(3/2:ℝ)*P j else 0 := ⟨_, rfl⟩
  have ht : ∀ i, trip N Nx u c k P i = ∑ j ∈ range N, hank N (N-Nx) u (i+j)*v j := by
    intro i
    rw [trip, range_eq_Ico, range_eq_Ico, ← sum_Ico_consecutive _ (Nat.zero_le Nx) hN]
    rw [show ∑ j ∈ Ico Nx N, hank N (N-Nx) u (i+j)*v j = 0 from sum_eq_zero fun j hj => by
      rw [mem_Ico] at hj; rw [hv]; simp only; rw [if_neg (by omega), mul_zero], add_zero]
    refine sum_congr rfl fun j hj => ?_
    rw [mem_Ico] at hj; rw [hv]; simp only; rw [if_pos (by omega)]
  obtain ⟨w, hw⟩ : ∃ w : ℕ → ℝ, w = fun i => if i < Nx then 0 else trip N Nx u c k P i := ⟨_, rfl⟩
  have e : ∀ n ∈ range Nx, (∑ i ∈ range Nx, hank N (N-Nx) u (n+i)*trip N Nx u c k P i - c*k n^(3/2:ℝ)*P n)^2 = (∑ i ∈ range N, hank N (N-Nx) u (n+i)*w i)^2 := by
    intro n hn
    have hn' := mem_range.1 hn
    have b := hank_back h0 (N-Nx) h v (by omega : n < N)
    simp only [← ht] at b
    have vn : v n = c*k n^(3/2:ℝ)*P n := by rw [hv]; simp only; rw [if_pos hn']
    rw [← vn, ← b]
    have s : ∑ i ∈ range N, hank N (N-Nx) u (n+i)*trip N Nx u c k P i = ∑ i ∈ range Nx, hank N (N-Nx) u (n+i)*trip N Nx u c k P i + ∑ i ∈ range N, hank N (N-Nx) u (n+i)*w i := by
      rw [range_eq_Ico, range_eq_Ico, ← sum_Ico_consecutive _ (Nat.zero_le Nx) hN, ← sum_Ico_consecutive (fun i => hank N (N-Nx) u (n+i)*w i) (Nat.zero_le Nx) hN]
      rw [show ∑ i ∈ Ico 0 Nx, hank N (N-Nx) u (n+i)*w i = 0 from sum_eq_zero fun i hi => by
        rw [mem_Ico] at hi; rw [hw]; simp only; rw [if_pos (by omega), mul_zero], zero_add]
      congr 1
      refine sum_congr rfl fun i hi => ?_
      rw [mem_Ico] at hi; rw [hw]; simp only; rw [if_neg (by omega)]
    rw [s]; ring
  rw [sum_congr rfl e]
  calc ∑ n ∈ range Nx, (∑ i ∈ range N, hank N (N-Nx) u (n+i)*w i)^2 ≤ ∑ n ∈ range N, (∑ i ∈ range N, hank N (N-Nx) u (n+i)*w i)^2 :=
        sum_le_sum_of_subset_of_nonneg (range_mono hN) fun _ _ _ => sq_nonneg _
    _ = ∑ i ∈ range N, w i^2 := hank_norm h0 _ h w
    _ = ∑ i ∈ Ico Nx N, trip N Nx u c k P i^2 := by
      rw [range_eq_Ico, ← sum_Ico_consecutive _ (Nat.zero_le Nx) hN]
      rw [show ∑ i ∈ Ico 0 Nx, w i^2 = 0 from sum_eq_zero fun i hi => by
        rw [mem_Ico] at hi; rw [hw]; simp only; rw [if_pos (by omega)]; norm_num, zero_add]
      refine sum_congr rfl fun i hi => ?_
      rw [mem_Ico] at hi; rw [hw]; simp only; rw [if_neg (by omega)]

/-- **C111** (there and back): without padding, at the default tilt, `xi2P` undoes `P2xi` exactly: on the separations `P2xi` returns it gives back the wavenumbers and the power spectrum it was made from, for every spectrum, provided that `lowring` is left on or the length is odd -/
theorem C111_round_trip {L : ℂ → ℂ} (hL : IsLogGamma L) {l : ℕ} (hl : l % 2 = 0) {lowring : Bool} {Nx : ℕ} (hr : lowring = true ∨ Nx % 2 = 1) {Δ : ℝ} {k : ℕ → ℝ} (G : LogGrid Nx Δ k) (P : ℕ → ℝ) {n : ℕ} (hn : n < Nx) :
    outputY (UKsph L l) (3/2) lowring Nx Nx (outputY (UKsph L l) (3/2) lowring Nx Nx k) n = k n ∧
    xi2P L l (3/2) lowring Nx Nx (outputY (UKsph L l) (3/2) lowring Nx Nx k) false false (P2xi L l (3/2) lowring Nx Nx k false false P) n = P n := by
  refine ⟨C111_grid_back G _ _ _ _ hn, ?_⟩
  have h0 : Nx ≠ 0 := by have := G.two; omega
  have E := trip_error le_rfl h0 (unit_phases hL l h0 hr G.step) (ipow l/(2*Real.pi)^(3/2:ℝ)) k P
  rw [Ico_self, sum_empty] at E
  have E' := (sum_eq_zero_iff_of_nonneg (fun _ _ => sq_nonneg _)).1 (le_antisymm E (sum_nonneg fun _ _ => sq_nonneg _)) n (mem_range.2 hn)
  rw [back_trip l lowring le_rfl G P hn]
  have E2 := sub_eq_zero.1 (pow_eq_zero_iff (two_ne_zero) |>.1 E')
  rw [E2]
  have h2pi : (2*Real.pi)^(3/2:ℝ) ≠ 0 := (Real.rpow_pos_of_pos (by have := Real.pi_pos; positivity) _).ne'
  have hi : ipow l ≠ 0 := fun h => by have := ipow_sq hl; rw [h] at this; norm_num at this
  have := three_half' (G.pos' hn)
  calc (2*Real.pi)^(3/2:ℝ)/ipow l*k n^(-(3/2):ℝ)*(ipow l/(2*Real.pi)^(3/2:ℝ)*k n^(3/2:ℝ)*P n) = (k n^(-(3/2):ℝ)*k n^(3/2:ℝ))*P n := by field_simp
    _ = P n := by rw [this, one_mul]

/-- the padded grid -/
def padGrid (N Nx : ℕ) (Δ : ℝ) (k : ℕ → ℝ) (j : ℕ) : ℝ := k 0*Real.exp (((j:ℝ) - ((N-Nx)/2 : ℕ))*Δ)

theorem padGrid_log {N Nx : ℕ} (hN : Nx ≤ N) {Δ : ℝ} {k : ℕ → ℝ} (G : LogGrid Nx Δ k) : LogGrid N Δ (padGrid N Nx Δ k) where
  two := le_trans G.two hN
  step := G.step
  pos := mul_pos G.pos (Real.exp_pos _)
  spaced j _ := by rw [padGrid, padGrid, mul_assoc, ← Real.exp_add]; congr 2; push_cast; ring

/-- the whole correlation function in terms of the circle -/
theorem full_trip {L : ℂ → ℂ} (l : ℕ) (lowring : Bool) {N Nx : ℕ} (hN : Nx ≤ N) {Δ : ℝ} {k : ℕ → ℝ} (G : LogGrid Nx Δ k) (P : ℕ → ℝ) (s i : ℕ) (z : ℤ) (hs : (s:ℤ) = (N - Nx - (N-Nx)/2 : ℕ) + i + N*z) :
    trip N N (coeffs (UKsph L l) (3/2) lowring N Δ) (ipow l/(2*Real.pi)^(3/2:ℝ)) (padGrid N Nx Δ k) (pad N Nx false false P) s = trip N Nx (coeffs (UKsph L l) (3/2) lowring N Δ) (ipow l/(2*Real.pi)^(3/2:ℝ)) k P i := by
  have h0 : N ≠ 0 := by have := G.two; omega
  obtain ⟨a, ha⟩ : ∃ a, a = (N-Nx)/2 := ⟨_, rfl⟩
  obtain ⟨c, hc⟩ : ∃ c, c = ipow l/(2*Real.pi)^(3/2:ℝ) := ⟨_, rfl⟩
  obtain ⟨u, hu⟩ : ∃ u, u = coeffs (UKsph L l) (3/2) lowring N Δ := ⟨_, rfl⟩
  rw [← hc, ← hu, trip, trip]
  have e : ∀ j ∈ range N, hank N (N-N) u (s+j)*(c*padGrid N Nx Δ k j^(3/2:ℝ)*pad N Nx false false P j) = if a ≤ j ∧ j < a + Nx then hank N (N-N) u (s+j)*(c*padGrid N Nx Δ k j^(3/2:ℝ)*P (j-a)) else 0 := by
    intro j _
    simp only [pad, ← ha]
    split_ifs <;> first | rfl | omega | simp at *
  rw [sum_congr rfl e, ← sum_filter]
  refine sum_bij' (fun j _ => j - a) (fun j _ => j + a) ?_ ?_ ?_ ?_ ?_
  · intro j hj; rw [mem_filter, mem_range] at hj; rw [mem_range]; omega
  · intro j hj; rw [mem_range] at hj; rw [mem_filter, mem_range]; omega
  · intro j hj; rw [mem_filter, mem_range] at hj; omega
  · intro j hj; omega
  · intro j hj
    rw [mem_filter, mem_range] at hj
    have eg : padGrid N Nx Δ k j = k (j-a) := by
      rw [padGrid, ← ha, G.spaced (j-a) (by omega), Nat.cast_sub hj.2.1]
    rw [eg, hank, hank, ← kern_periodic h0 u _ z]
    congr 2
    rw [← ha] at hs
    push_cast
    omega

/-- **C111** (window): with zero padding, what `P2xi` returns is the part, inside the window it keeps, of the correlation function on the whole padded grid, grid and values -/
theorem C111_window {L : ℂ → ℂ} (l : ℕ) (lowring : Bool) {N Nx : ℕ} (hN : Nx ≤ N) {Δ : ℝ} {k : ℕ → ℝ} (G : LogGrid Nx Δ k) (P : ℕ → ℝ) {n : ℕ} (hn : n < Nx) :
    outputY (UKsph L l) (3/2) lowring N N (padGrid N Nx Δ k) (N - Nx - (N-Nx)/2 + n) = outputY (UKsph L l) (3/2) lowring N Nx k n ∧
    P2xi L l (3/2) lowring N N (padGrid N Nx Δ k) false false (pad N Nx false false P) (N - Nx - (N-Nx)/2 + n) = P2xi L l (3/2) lowring N Nx k false false P n := by
  have e : outputY (UKsph L l) (3/2) lowring N N (padGrid N Nx Δ k) (N - Nx - (N-Nx)/2 + n) = outputY (UKsph L l) (3/2) lowring N Nx k n := by
    rw [outputY, outputY, (padGrid_log hN G).delta_eq, G.delta_eq]
    congr 1
    rw [padGrid, G.spaced (Nx-1-n) (by omega)]
    congr 3
    rw [← Nat.cast_sub (by omega)]
    congr 1
    omega
  refine ⟨e, ?_⟩
  rw [P2xi_trip l lowring le_rfl (padGrid_log hN G), P2xi_trip l lowring hN G, e, full_trip l lowring hN G P _ n 0 (by push_cast; ring)]

/-- **C111** (there and back): with zero padding, at the default tilt and with `lowring` (or an odd length), the power spectrum that comes back differs from the original by no more than what was thrown away: in the norm `Σ k³ P²` the difference is at most `(2π)³ Σ r³ ξ²` over the separations of the padded grid outside of the window.
Here `ξ` is the correlation function on the whole padded grid, see `C111_window`. -/
theorem C111_round_trip_padded {L : ℂ → ℂ} (hL : IsLogGamma L) {l : ℕ} (hl : l % 2 = 0) {lowring : Bool} {N Nx : ℕ} (hr : lowring = true ∨ N % 2 = 1) (hN : Nx ≤ N) {Δ : ℝ} {k : ℕ → ℝ} (G : LogGrid Nx Δ k) (P : ℕ → ℝ) :
    ∑ n ∈ range Nx, k n^3*(xi2P L l (3/2) lowring N Nx (outputY (UKsph L l) (3/2) lowring N Nx k) false false (P2xi L l (3/2) lowring N Nx k false false P) n - P n)^2
      ≤ (2*Real.pi)^3*∑ s ∈ (range N).filter (fun s => s < N - Nx - (N-Nx)/2 ∨ N - Nx - (N-Nx)/2 + Nx ≤ s),
          outputY (UKsph L l) (3/2) lowring N N (padGrid N Nx Δ k) s^3*P2xi L l (3/2) lowring N N (padGrid N Nx Δ k) false false (pad N Nx false false P) s^2 := by
  have h0 : N ≠ 0 := by have := G.two; omega
  have E := trip_error hN h0 (unit_phases hL l h0 hr G.step) (ipow l/(2*Real.pi)^(3/2:ℝ)) k P
  have h2pi : (0:ℝ) < (2*Real.pi)^(3/2:ℝ) := Real.rpow_pos_of_pos (by have := Real.pi_pos; positivity) _
  have h2sq : ((2*Real.pi)^(3/2:ℝ))^2 = (2*Real.pi)^3 := three_half_sq (by have := Real.pi_pos; positivity)
  have hi : ipow l ≠ 0 := fun h => by have := ipow_sq hl; rw [h] at this; norm_num at this
  have hi2 : ipow l^2 = 1 := by rw [pow_two]; exact ipow_sq hl
  have e1 : ∀ n ∈ range Nx, k n^3*(xi2P L l (3/2) lowring N Nx (outputY (UKsph L l) (3/2) lowring N Nx k) false false (P2xi L l (3/2) lowring N Nx k false false P) n - P n)^2
      = (2*Real.pi)^3*(∑ i ∈ range Nx, hank N (N-Nx) (coeffs (UKsph L l) (3/2) lowring N Δ) (n+i)*trip N Nx (coeffs (UKsph L l) (3/2) lowring N Δ) (ipow l/(2*Real.pi)^(3/2:ℝ)) k P i - ipow l/(2*Real.pi)^(3/2:ℝ)*k n^(3/2:ℝ)*P n)^2 := by
    intro n hn
    have hk := G.pos' (mem_range.1 hn)
    rw [back_trip l lowring hN G P (mem_range.1 hn)]
    obtain ⟨S, hS⟩ : ∃ S, S = ∑ i ∈ range Nx, hank N (N-Nx) (coeffs (UKsph L l) (3/2) lowring N Δ) (n+i)*trip N Nx (coeffs (UKsph L l) (3/2) lowring N Δ) (ipow l/(2*Real.pi)^(3/2:ℝ)) k P i := ⟨_, rfl⟩
    rw [← hS, ← three_half_sq hk, ← h2sq]
    have t := three_half' hk
    have : k n^(3/2:ℝ)*((2*Real.pi)^(3/2:ℝ)/ipow l*k n^(-(3/2):ℝ)*S - P n) = (2*Real.pi)^(3/2:ℝ)/ipow l*(S - ipow l/(2*Real.pi)^(3/2:ℝ)*k n^(3/2:ℝ)*P n) := by
      have e : k n^(3/2:ℝ)*((2*Real.pi)^(3/2:ℝ)/ipow l*k n^(-(3/2):ℝ)*S) = (k n^(-(3/2):ℝ)*k n^(3/2:ℝ))*((2*Real.pi)^(3/2:ℝ)/ipow l*S) := by ring
      rw [mul_sub, e, t]
      have := h2pi.ne'
      field_simp
    rw [← mul_pow, this, mul_pow, div_pow, hi2, div_one]
  rw [sum_congr rfl e1, ← mul_sum]
  refine mul_le_mul_of_nonneg_left (E.trans (le_of_eq ?_)) (by have := Real.pi_pos; positivity)
  obtain ⟨b, hb⟩ : ∃ b, b = N - Nx - (N-Nx)/2 := ⟨_, rfl⟩
  rw [← hb]
  have hbN : b + Nx ≤ N := by omega
  have e2 : ∀ s ∈ (range N).filter (fun s => s < b ∨ b + Nx ≤ s), outputY (UKsph L l) (3/2) lowring N N (padGrid N Nx Δ k) s^3*P2xi L l (3/2) lowring N N (padGrid N Nx Δ k) false false (pad N Nx false false P) s^2
      = trip N Nx (coeffs (UKsph L l) (3/2) lowring N Δ) (ipow l/(2*Real.pi)^(3/2:ℝ)) k P (if s < b then s + N - b else s - b)^2 := by
    intro s hs
    rw [mem_filter, mem_range] at hs
    have hp := ((padGrid_log hN G).output (UKsph L l) (3/2) lowring N).pos' hs.1
    rw [P2xi_trip l lowring le_rfl (padGrid_log hN G), full_trip l lowring hN G P s (if s < b then s + N - b else s - b) (if s < b then -1 else 0) (by
      rw [← hb]; split_ifs with c <;> push_cast <;> omega), ← three_half_sq hp, ← mul_pow, ← mul_assoc, mul_comm (outputY (UKsph L l) (3/2) lowring N N (padGrid N Nx Δ k) s^(3/2:ℝ)), three_half' hp, one_mul]
  rw [sum_congr rfl e2]
  refine sum_bij' (fun i _ => if i + b < N then i + b else i + b - N) (fun s _ => if s < b then s + N - b else s - b) ?_ ?_ ?_ ?_ ?_
  · intro i hi'; rw [mem_Ico] at hi'; rw [mem_filter, mem_range]; split_ifs <;> omega
  · intro s hs; rw [mem_filter, mem_range] at hs; rw [mem_Ico]; split_ifs <;> omega
  · intro i hi'; rw [mem_Ico] at hi'; split_ifs <;> omega
  · intro s hs; rw [mem_filter, mem_range] at hs; split_ifs <;> omega
  · intro i hi'; rw [mem_Ico] at hi'; congr 2; split_ifs <;> omega

end
end Verif.FFTLog
