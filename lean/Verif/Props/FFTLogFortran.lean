/-
C111: the Fortran FFTLog and `ComputeXiLM_fftlog`.
-/
import Verif.Props.FFTLogTrip

namespace Verif.FFTLog

open Complex Finset Verif.Xi Filter Topology MeasureTheory

noncomputable section

/-! ### the low-ringing product of the scales -/

theorem krgood_pos (L : ℂ → ℂ) (mu q dlnr : ℝ) {kr : ℝ} (h : 0 < kr) : 0 < krgood L mu q dlnr kr := by
  rw [krgood]
  split_ifs
  · exact h
  · simp only []
    split_ifs
    · exact mul_pos h (Real.exp_pos _)
    · exact h

/-- the logarithm of what `krgood` returns -/
theorem krgood_log (L : ℂ → ℂ) (mu q : ℝ) {dlnr kr : ℝ} (hd : dlnr ≠ 0) (h : 0 < kr) :
    Real.log (krgood L mu q dlnr kr) = Real.log kr + ((Real.log (2/kr)/dlnr + ((L (((mu+1+q)/2 : ℝ) + (Real.pi/(2*dlnr) : ℝ)*I)).im + (L (((mu+1-q)/2 : ℝ) + (Real.pi/(2*dlnr) : ℝ)*I)).im)/Real.pi)
      - round (Real.log (2/kr)/dlnr + ((L (((mu+1+q)/2 : ℝ) + (Real.pi/(2*dlnr) : ℝ)*I)).im + (L (((mu+1-q)/2 : ℝ) + (Real.pi/(2*dlnr) : ℝ)*I)).im)/Real.pi))*dlnr := by
  rw [krgood, if_neg hd]
  simp only []
  split_ifs with c
  · rw [Real.log_mul h.ne' (Real.exp_pos _).ne', Real.log_exp]
  · rw [not_not] at c
    rw [← c]; ring

/-- **C111** (low ringing): `krgood` stays within half a step of the value it is given -/
theorem C111_krgood_near (L : ℂ → ℂ) (mu q : ℝ) {dlnr kr : ℝ} (hd : dlnr ≠ 0) (h : 0 < kr) : |Real.log (krgood L mu q dlnr kr) - Real.log kr| ≤ |dlnr|/2 := by
  rw [krgood_log L mu q hd h, add_sub_cancel_left, abs_mul]
  have := abs_sub_round (Real.log (2/kr)/dlnr + ((L (((mu+1+q)/2 : ℝ) + (Real.pi/(2*dlnr) : ℝ)*I)).im + (L (((mu+1-q)/2 : ℝ) + (Real.pi/(2*dlnr) : ℝ)*I)).im)/Real.pi)
  nlinarith [abs_nonneg dlnr]

/-- **C111** (low ringing): and makes the factor of the highest frequency real, so that nothing is lost when its imaginary part is ignored -/
theorem C111_krgood_real (L : ℂ → ℂ) (mu q : ℝ) {dlnr kr : ℝ} (hd : dlnr ≠ 0) (h : 0 < kr) {n m : ℕ} (hm : 2*m = n) (hn : n ≠ 0) :
    (factors L n mu q dlnr (krgood L mu q dlnr kr) m).im = 0 := by
  have hm0 : m ≠ 0 := by omega
  have hm' : (m:ℝ) ≠ 0 := by exact_mod_cast hm0
  have hy : (m:ℝ)*(Real.pi/(n*dlnr)) = Real.pi/(2*dlnr) := by
    rw [← hm]; push_cast; field_simp
  obtain ⟨A, hA⟩ : ∃ A, A = Real.log (2/kr)/dlnr + ((L (((mu+1+q)/2 : ℝ) + (Real.pi/(2*dlnr) : ℝ)*I)).im + (L (((mu+1-q)/2 : ℝ) + (Real.pi/(2*dlnr) : ℝ)*I)).im)/Real.pi := ⟨_, rfl⟩
  have hg := krgood_log L mu q hd h
  rw [← hA] at hg
  have hp := krgood_pos L mu q dlnr h
  have key : 2*Real.log (2/krgood L mu q dlnr kr)*(Real.pi/(2*dlnr)) + (L (((mu+1+q)/2 : ℝ) + (Real.pi/(2*dlnr) : ℝ)*I)).im + (L (((mu+1-q)/2 : ℝ) + (Real.pi/(2*dlnr) : ℝ)*I)).im = round A*Real.pi := by
    rw [Real.log_div two_ne_zero hp.ne', hg]
    rw [Real.log_div two_ne_zero h.ne'] at hA
    have hpi := Real.pi_ne_zero
    have hA' : A*Real.pi*dlnr = (Real.log 2 - Real.log kr)*Real.pi + ((L (((mu+1+q)/2 : ℝ) + (Real.pi/(2*dlnr) : ℝ)*I)).im + (L (((mu+1-q)/2 : ℝ) + (Real.pi/(2*dlnr) : ℝ)*I)).im)*dlnr := by
      obtain ⟨X, hX⟩ : ∃ X, X = (L (((mu+1+q)/2 : ℝ) + (Real.pi/(2*dlnr) : ℝ)*I)).im + (L (((mu+1-q)/2 : ℝ) + (Real.pi/(2*dlnr) : ℝ)*I)).im := ⟨_, rfl⟩
      rw [← hX] at hA ⊢
      rw [hA]; field_simp
    obtain ⟨X, hX⟩ : ∃ X, X = (L (((mu+1+q)/2 : ℝ) + (Real.pi/(2*dlnr) : ℝ)*I)).im := ⟨_, rfl⟩
    obtain ⟨Y, hY⟩ : ∃ Y, Y = (L (((mu+1-q)/2 : ℝ) + (Real.pi/(2*dlnr) : ℝ)*I)).im := ⟨_, rfl⟩
    rw [← hX, ← hY] at hA' ⊢
    field_simp
    linear_combination -hA'
  simp only [factors]
  rw [hy]
  split_ifs with hq
  · subst hq
    simp only [add_zero, sub_zero] at key ⊢
    have : 2*(Real.log (2/krgood L mu 0 dlnr kr)*(Real.pi/(2*dlnr)) + (L (((mu+1)/2 : ℝ) + (Real.pi/(2*dlnr) : ℝ)*I)).im) = round A*Real.pi := by linear_combination key
    rw [this, Real.sin_int_mul_pi, ofReal_zero, zero_mul, add_zero, ofReal_im]
  · rw [key, im_ofReal_mul, Real.sin_int_mul_pi, ofReal_zero, zero_mul, add_zero, ofReal_im, mul_zero]

/-! ### the factors -/

theorem factors_eq {L : ℂ → ℂ} (hL : IsLogGamma L) (l : ℕ) {q : ℝ} (h1 : -(1/2) < q) (h2 : q < 1/2) {n : ℕ} (dlnr : ℝ) {kr : ℝ} (hk : 0 < kr) (m : ℕ) :
    factors L n (l + 1/2) q dlnr kr m = mellinSph l (((q+3/2 : ℝ):ℂ) + I*((2*Real.pi*m/(n*dlnr) : ℝ):ℂ))*cexp (-(I*(((2*Real.pi*m/(n*dlnr) : ℝ):ℂ)*Real.log kr))) := by
  have hl : (0:ℝ) ≤ l := Nat.cast_nonneg l
  obtain ⟨y, hy⟩ : ∃ y, y = (m:ℝ)*(Real.pi/(n*dlnr)) := ⟨_, rfl⟩
  have hω : (2*Real.pi*m/(n*dlnr) : ℝ) = 2*y := by rw [hy]; ring
  obtain ⟨xp, hxp⟩ : ∃ xp : ℝ, xp = (l + 1/2 + 1 + q)/2 := ⟨_, rfl⟩
  obtain ⟨xm, hxm⟩ : ∃ xm : ℝ, xm = (l + 1/2 + 1 - q)/2 := ⟨_, rfl⟩
  have hp : cexp (L (xp + y*I)) = Gamma (xp + y*I) := hL _ (by simp; rw [hxp]; linarith)
  have hm : cexp (L (xm + y*I)) = Gamma (xm + y*I) := hL _ (by simp; rw [hxm]; linarith)
  rw [hω]
  have g1 : ((l + (((q+3/2 : ℝ):ℂ) + I*((2*y : ℝ):ℂ)))/2 : ℂ) = xp + y*I := by rw [hxp]; push_cast; ring
  have g2 : ((3 + l - (((q+3/2 : ℝ):ℂ) + I*((2*y : ℝ):ℂ)))/2 : ℂ) = (starRingEnd ℂ) (xm + y*I) := by
    simp only [map_add, map_mul, conj_ofReal, conj_I]
    rw [hxm]; push_cast; ring
  have target : mellinSph l (((q+3/2 : ℝ):ℂ) + I*((2*y : ℝ):ℂ))*cexp (-(I*(((2*y : ℝ):ℂ)*Real.log kr)))
      = (Real.exp (Real.log 2*q + (L (xp + y*I)).re - (L (xm + y*I)).re) : ℝ)*(Real.cos (2*Real.log (2/kr)*y + (L (xp + y*I)).im + (L (xm + y*I)).im) + Real.sin (2*Real.log (2/kr)*y + (L (xp + y*I)).im + (L (xm + y*I)).im)*I) := by
    rw [mellinSph, g1, g2, Complex.Gamma_conj, ← hp, ← hm, ← Complex.exp_conj, ← Complex.exp_sub, cpow_def_of_ne_zero (by norm_num), ofReal_cos, ofReal_sin, ← Complex.exp_mul_I, ofReal_exp, ← Complex.exp_add, ← Complex.exp_add, ← Complex.exp_add]
    congr 1
    have : Complex.log 2 = (Real.log 2 : ℂ) := by rw [ofReal_log (by norm_num)]; norm_num
    rw [this, Real.log_div two_ne_zero hk.ne']
    apply Complex.ext
    · simp; ring
    · simp; ring
  rw [target]
  simp only [factors, ← hy, ← hxp, ← hxm]
  have sin0 : m = 0 → Real.sin (L (xp + y*I)).im = 0 ∧ Real.sin (L (xm + y*I)).im = 0 := by
    intro h0
    have hy0 : y = 0 := by rw [hy, h0]; simp
    have aux : ∀ x : ℝ, cexp (L (x + y*I)) = Gamma (x + y*I) → Real.sin (L (x + y*I)).im = 0 := by
      intro x hx
      rw [hy0] at hx ⊢
      simp only [ofReal_zero, zero_mul, add_zero] at hx ⊢
      have := congrArg Complex.im hx
      rw [Complex.exp_im, Complex.Gamma_ofReal, ofReal_im] at this
      rcases mul_eq_zero.1 this with h | h
      · exact absurd h (Real.exp_pos _).ne'
      · exact h
    exact ⟨aux _ hp, aux _ hm⟩
  split_ifs with hq h0 h0
  · subst hq
    have exm : xm = xp := by rw [hxm, hxp]; ring
    obtain ⟨s1, _⟩ := sin0 h0
    have hy0 : y = 0 := by rw [hy, h0]; simp
    rw [exm]
    have hc : Real.cos (2*Real.log (2/kr)*y + (L (xp + y*I)).im + (L (xp + y*I)).im) = 1 := by
      rw [show 2*Real.log (2/kr)*y = 0 by rw [hy0]; ring, zero_add, ← two_mul, Real.cos_two_mul, Real.cos_sq', s1]; norm_num
    have hs : Real.sin (2*Real.log (2/kr)*y + (L (xp + y*I)).im + (L (xp + y*I)).im) = 0 := by
      rw [show 2*Real.log (2/kr)*y = 0 by rw [hy0]; ring, zero_add, ← two_mul, Real.sin_two_mul, s1]; ring
    rw [hc, hs]; simp
  · subst hq
    have exm : xm = xp := by rw [hxm, hxp]; ring
    rw [exm, show Real.log 2*0 + (L (xp + y*I)).re - (L (xp + y*I)).re = 0 by ring, Real.exp_zero,
      show 2*(Real.log (2/kr)*y + (L (xp + y*I)).im) = 2*Real.log (2/kr)*y + (L (xp + y*I)).im + (L (xp + y*I)).im by ring]
    simp
  · obtain ⟨s1, s2⟩ := sin0 h0
    have hy0 : y = 0 := by rw [hy, h0]; simp
    have hs : Real.sin (2*Real.log (2/kr)*y + (L (xp + y*I)).im + (L (xm + y*I)).im) = 0 := by
      rw [show 2*Real.log (2/kr)*y = 0 by rw [hy0]; ring, zero_add, Real.sin_add, s1, s2]; ring
    rw [hs, show 2*Real.log (2/kr)*y = 0 by rw [hy0]; ring, zero_add]; simp
  · rfl

theorem rfft_half_real {N m : ℕ} (f : ℕ → ℝ) (h : m = 0 ∨ 2*m = N) : (rfft N f m).im = 0 := by
  rw [rfft_ew, im_sum]
  refine sum_eq_zero fun j _ => ?_
  rw [im_ofReal_mul, show -((m:ℤ)*j) = m*(-j) by ring, ew_half_real h, mul_zero]

theorem fhtq_half (n : ℕ) (w : ℕ → ℂ) (a : ℕ → ℝ) (i : ℕ) : fhtq n w a i = half n (fun m => (rfft n a m*w m*ew n (m*((n-1-i : ℕ):ℤ))).re)/n := by
  rw [fhtq, drfftb_ew]
  congr 1
  refine sum_congr rfl fun m _ => ?_
  congr 1
  beta_reduce
  split_ifs with h
  · have r := rfft_half_real a (Or.inr h)
    have e := ew_half_real (Or.inr h) ((n-1-i : ℕ):ℤ)
    simp only [mul_re, mul_im, ofReal_re, ofReal_im, r, e]
    ring
  · rfl

/-- **C111** (there and back): without a tilt the Fortran transform is its own inverse, at the low-ringing product of the scales -/
theorem C111_fortran_back {L : ℂ → ℂ} (hL : IsLogGamma L) (l : ℕ) {n : ℕ} {dlnr kr : ℝ} (hd : dlnr ≠ 0) (hk : 0 < kr) (a : ℕ → ℝ) {i : ℕ} (hi : i < n) :
    fht n (factors L n (l + 1/2) 0 dlnr (krgood L (l + 1/2) 0 dlnr kr)) 0 dlnr (krgood L (l + 1/2) 0 dlnr kr)
      (fht n (factors L n (l + 1/2) 0 dlnr (krgood L (l + 1/2) 0 dlnr kr)) 0 dlnr (krgood L (l + 1/2) 0 dlnr kr) a) i = a i := by
  have hn : n ≠ 0 := by omega
  have hg := krgood_pos L (l + 1/2) 0 dlnr hk
  obtain ⟨w, hw⟩ : ∃ w, w = factors L n (l + 1/2) 0 dlnr (krgood L (l + 1/2) 0 dlnr kr) := ⟨_, rfl⟩
  have hnorm : ∀ m, ‖w m‖ = 1 := by
    intro m
    rw [hw, factors_eq hL l (by norm_num) (by norm_num) dlnr hg, norm_mul, show (0 + 3/2:ℝ) = 3/2 by norm_num, mellinSph_norm, one_mul]
    rw [show -(I*(((2*Real.pi*m/(n*dlnr) : ℝ):ℂ)*Real.log (krgood L (l + 1/2) 0 dlnr kr))) = ((-(2*Real.pi*m/(n*dlnr)*Real.log (krgood L (l + 1/2) 0 dlnr kr)) : ℝ):ℂ)*I by push_cast; ring]
    exact Complex.norm_exp_ofReal_mul_I _
  have unit : ∀ m, 2*m ≤ n → ‖realEnds n w m‖ = 1 := by
    intro m hm
    rw [realEnds]
    split_ifs with c
    · have im0 : (w m).im = 0 := by
        rcases c with rfl | c
        · rw [hw]; simp [factors]
        · rw [hw]; exact C111_krgood_real L _ _ hd hk c hn
      have := hnorm m
      rwa [show w m = ((w m).re : ℂ) from Complex.ext rfl (by rw [im0, ofReal_im])] at this
    · exact hnorm m
  have F : ∀ b : ℕ → ℝ, ∀ i, i < n → fht n w 0 dlnr (krgood L (l + 1/2) 0 dlnr kr) b i = ∑ j ∈ range n, hank n 1 w (i+j)*b j := by
    intro b i hi
    simp only [fht, if_true]
    rw [fhtq_half, half_conv]
    refine sum_congr rfl fun j _ => ?_
    rw [mul_comm, hank, ← kern_periodic hn w (-((1:ℕ):ℤ) - ((i+j:ℕ):ℤ)) 1]
    congr 2
    omega
  rw [← hw, F _ i hi]
  rw [sum_congr rfl fun j hj => by rw [F a j (mem_range.1 hj)]]
  exact hank_back hn 1 unit a hi

/-! ### `ComputeXiLM_fftlog` -/

theorem dlogr_eq {N : ℕ} {Δ : ℝ} {k : ℕ → ℝ} (G : LogGrid N Δ k) : dlogr N k*Real.log 10 = Δ := by
  have h10 : Real.log 10 ≠ 0 := (Real.log_pos (by norm_num)).ne'
  have two := G.two
  have := G.delta_eq
  rw [delta, Real.log_div (G.pos' (by omega)).ne' G.pos.ne'] at this
  rw [dlogr, log10, log10, Real.logb, Real.logb, ← this]
  field_simp

theorem xiR_log {L : ℂ → ℂ} {l N : ℕ} {q Δ : ℝ} {k : ℕ → ℝ} (G : LogGrid N Δ k) (i : ℕ) :
    0 < xiR L l N q k i ∧ Real.log (xiR L l N q k i) = Real.log (xiKr L l N q k) - (Real.log (k 0) + ((N:ℝ)-1)/2*Δ) + ((i+1) - ((N:ℝ)+1)/2)*Δ := by
  have h10 : Real.log 10 ≠ 0 := (Real.log_pos (by norm_num)).ne'
  have two := G.two
  refine ⟨Real.rpow_pos_of_pos (by norm_num) _, ?_⟩
  rw [xiR, Real.log_rpow (by norm_num)]
  have e := dlogr_eq G
  have ec : logrc N k*Real.log 10 = Real.log (k 0) + ((N:ℝ)-1)/2*Δ := by
    have hl : Real.log (k (N-1)) = Real.log (k 0) + ((N:ℝ)-1)*Δ := by
      rw [G.spaced (N-1) (by omega), Real.log_mul G.pos.ne' (Real.exp_pos _).ne', Real.log_exp, Nat.cast_sub (by omega)]; push_cast; ring
    rw [logrc, log10, log10, Real.logb, Real.logb, hl]
    field_simp; ring
  have ek : log10 (xiKr L l N q k)*Real.log 10 = Real.log (xiKr L l N q k) := by
    rw [log10, Real.logb]; field_simp
  have : (log10 (xiKr L l N q k) - logrc N k + ((i+1) - 1/2*((N:ℝ)+1))*dlogr N k)*Real.log 10 = log10 (xiKr L l N q k)*Real.log 10 - logrc N k*Real.log 10 + ((i+1) - 1/2*((N:ℝ)+1))*(dlogr N k*Real.log 10) := by ring
  rw [this, ek, ec, e]; ring

/-- **C111** (`ComputeXiLM_fftlog`): whatever the samples on a log-spaced grid, the smoothing and the tilt between -1/2 and 1/2 (`ComputeXiLM` uses 0), every number the routine returns is exactly `∫ k^m dk/2π² P(k) jℓ(kr)`, at the separation it returns with it, of the function that interpolates the smoothed samples -/
theorem C111_xi_fftlog {L : ℂ → ℂ} (hL : IsLogGamma L) (l m : ℕ) {q : ℝ} (h1 : -(1/2) < q) (h2 : q < 1/2) (smoothing : ℝ) {N : ℕ} {Δ : ℝ} {k : ℕ → ℝ} (G : LogGrid N Δ k) (pk : ℕ → ℝ) {F : ℝ → ℝ}
    (hF : Interp N Δ (k 0) (m - 1/2 - q) (fun j => pk j*Real.exp (-(k j*smoothing)^2)) F) {i : ℕ} (hi : i < N) :
    Integral (fun t => t^m/(2*Real.pi^2)*F t*sph l (t*xiR L l N q k i)) (xiFFTLog L l m N q smoothing k pk i) := by
  have hN0 : N ≠ 0 := by omega
  have hkr : 0 < xiKr L l N q k := krgood_pos _ _ _ _ (by norm_num)
  obtain ⟨hr, hrl⟩ := xiR_log (L := L) (l := l) (q := q) G i
  obtain ⟨r, hr'⟩ : ∃ r, r = xiR L l N q k i := ⟨_, rfl⟩
  obtain ⟨κ, hκ⟩ : ∃ κ, κ = xiKr L l N q k := ⟨_, rfl⟩
  rw [← hr'] at hr hrl ⊢
  rw [← hκ] at hkr hrl
  obtain ⟨lc, hlc⟩ : ∃ lc, lc = Real.log (k 0) + ((N:ℝ)-1)/2*Δ := ⟨_, rfl⟩
  rw [← hlc] at hrl
  -- the array `fhtq` works on
  obtain ⟨f, hf⟩ : ∃ f : ℕ → ℝ, f = fun j => k j^((m:ℝ) - 1/2)*pk j*Real.exp (-(k j*smoothing)^2)*Real.exp (-q*((j+1) - ((N:ℝ)+1)/2)*Δ) := ⟨_, rfl⟩
  have hfht : xiFFTLog L l m N q smoothing k pk i = (2*Real.pi*r)^(-(3/2):ℝ)*(fhtq N (factors L N (l + 1/2) q Δ κ) f i*Real.exp (-q*(((i+1) - ((N:ℝ)+1)/2)*Δ + Real.log κ))) := by
    simp only [xiFFTLog, dlogr_eq G, ← hr', ← hκ, fht]
    split_ifs with hq
    · subst hq; rw [hf]; simp
    · rw [hf]
  have K := interp_core hN0 G.step G.pos hF (Real.exp (q*lc)) l (q := q + 3/2) (by linarith) (by linarith) (y := r) hr (((N-1-i : ℕ):ℤ))
    (u := factors L N (l + 1/2) q Δ κ) (fun m' _ => by
      rw [factors_eq hL l h1 h2 Δ hkr, mul_assoc]
      congr 1
      rw [ew, ← Complex.exp_add, Real.log_mul G.pos.ne' hr.ne', hrl, hlc]
      congr 1
      have hNc : (N:ℂ) ≠ 0 := by exact_mod_cast hN0
      have hΔ : (Δ:ℂ) ≠ 0 := by exact_mod_cast G.step
      have : ((N-1-i : ℕ):ℂ) = N - 1 - i := by rw [Nat.cast_sub (by omega), Nat.cast_sub (by omega)]; simp
      push_cast [this]
      field_simp
      ring)
    (f := f) (fun j hj => by
      rw [hf]
      beta_reduce
      have hk := G.pos' hj
      have e : k j^((m:ℝ) - 1/2)*Real.exp (-q*((j+1) - ((N:ℝ)+1)/2)*Δ) = Real.exp (q*lc)*(k 0*Real.exp (j*Δ))^((m:ℝ) - 1/2 - q) := by
        rw [← G.spaced j hj, Real.rpow_sub hk ((m:ℝ) - 1/2) q, Real.rpow_def_of_pos hk q]
        have hlog : Real.log (k j) = Real.log (k 0) + j*Δ := by
          rw [G.spaced j hj, Real.log_mul G.pos.ne' (Real.exp_pos _).ne', Real.log_exp]
        rw [mul_div_assoc', mul_comm (Real.exp (q*lc)), mul_div_assoc, ← Real.exp_sub, hlog, hlc]
        congr 2
        ring
      rw [← e]; ring)
  rw [← fhtq_half] at K
  rw [hfht]
  obtain ⟨H, hH⟩ : ∃ H, H = fhtq N (factors L N (l + 1/2) q Δ κ) f i := ⟨_, rfl⟩
  rw [← hH] at K ⊢
  have K2 := Tendsto.const_mul (Real.exp (-(q*lc))/(2*Real.pi^2)) K
  have e : Real.exp (-(q*lc))/(2*Real.pi^2)*(Real.sqrt (Real.pi/2)*r^(-(q+3/2))*H) = (2*Real.pi*r)^(-(3/2):ℝ)*(H*Real.exp (-q*(((i+1) - ((N:ℝ)+1)/2)*Δ + Real.log κ))) := by
    have e1 : Real.exp (-q*(((i+1) - ((N:ℝ)+1)/2)*Δ + Real.log κ)) = Real.exp (-(q*lc))*r^(-q) := by
      rw [Real.rpow_def_of_pos hr, ← Real.exp_add, hrl]; congr 1; ring
    have e2 : r^(-(q+3/2)) = r^(-q)*r^(-(3/2):ℝ) := by rw [← Real.rpow_add hr]; congr 1; ring
    have hp := Real.pi_pos
    have e3 : (2*Real.pi*r)^(-(3/2):ℝ) = (2*Real.pi)^(-(3/2):ℝ)*r^(-(3/2):ℝ) := Real.mul_rpow (by positivity) hr.le
    have e4 : Real.sqrt (Real.pi/2)/(2*Real.pi^2) = (2*Real.pi)^(-(3/2):ℝ) := by
      have c := const_P2xi
      have s : Real.sqrt (2/Real.pi)*Real.sqrt (Real.pi/2) = 1 := by
        rw [← Real.sqrt_mul (by positivity), show 2/Real.pi*(Real.pi/2) = 1 by field_simp, Real.sqrt_one]
      rw [Real.rpow_neg (by positivity), ← one_div]
      calc Real.sqrt (Real.pi/2)/(2*Real.pi^2) = 1/(2*Real.pi^2)*Real.sqrt (Real.pi/2) := by ring
        _ = 1/(2*Real.pi)^(3/2:ℝ)*(Real.sqrt (2/Real.pi)*Real.sqrt (Real.pi/2)) := by rw [← c]; ring
        _ = _ := by rw [s, mul_one]
    rw [e1, e2, e3, ← e4]; ring
  rw [e] at K2
  refine K2.congr' ?_
  filter_upwards [eventually_ge_atTop 0] with R hR
  rw [← intervalIntegral.integral_const_mul]
  refine intervalIntegral.integral_congr fun t ht => ?_
  beta_reduce
  rw [show q + 3/2 - 1 + ((m:ℝ) - 1/2 - q) = (m:ℝ) by ring, Real.rpow_natCast, Real.exp_neg]
  have := (Real.exp_pos (q*lc)).ne'
  field_simp

/-! ### the hypotheses are met -/

/-- a grid -/
theorem grid_example (N : ℕ) (h : 2 ≤ N) : LogGrid N (1/100) (fun j => 1/1000*Real.exp (j*(1/100))) where
  two := h
  step := by norm_num
  pos := by positivity
  spaced j _ := by simp

/-- `P2xi` of a quadrupole of 100 points, padded to 256 with a power law on the left: the theorem speaks of one function, which exists -/
example : ∃ (d : ℕ → ℝ) (F : ℝ → ℝ), Padded 256 100 78 (1/100) (1/1000*Real.exp ((0:ℕ)*(1/100))*Real.exp (-((78:ℕ):ℝ)*(1/100))) true false (fun j => (j:ℝ)+1) d ∧
    Integral (fun t => (-1)^(2/2)*(t^2/(2*Real.pi^2)*F t*sph 2 (t*outputY (UKsph (fun z => Complex.log (Gamma z)) 2) (3/2) true 256 100 (fun j => 1/1000*Real.exp (j*(1/100))) 0)))
      (P2xi (fun z => Complex.log (Gamma z)) 2 (3/2) true 256 100 (fun j => 1/1000*Real.exp (j*(1/100))) true false (fun j => (j:ℝ)+1) 0) := by
  have G := grid_example 100 (by norm_num)
  obtain ⟨d, hd, h⟩ := C111_P2xi isLogGamma_log (l := 2) (by norm_num) (q := 3/2) (by norm_num) (by norm_num) true true false G (N := 256) (by norm_num) (fun j => (j:ℝ)+1)
  obtain ⟨F, hF⟩ := C111_interp_exists (N := 256) G.step (mul_pos G.pos (Real.exp_pos (-(((256-100)/2 : ℕ):ℝ)*(1/100)))) (3-3/2) d
  exact ⟨d, F, hd, h F hF 0 (by norm_num)⟩

/-- the round trip of a monopole of 64 points -/
example : xi2P (fun z => Complex.log (Gamma z)) 0 (3/2) true 64 64 (outputY (UKsph (fun z => Complex.log (Gamma z)) 0) (3/2) true 64 64 (fun j => 1/1000*Real.exp (j*(1/100)))) false false
    (P2xi (fun z => Complex.log (Gamma z)) 0 (3/2) true 64 64 (fun j => 1/1000*Real.exp (j*(1/100))) false false fun j => (j:ℝ)^2) 8 = ((8:ℕ):ℝ)^2 :=
  (C111_round_trip isLogGamma_log (l := 0) (by norm_num) (Or.inl rfl) (grid_example 64 (by norm_num)) (fun j => (j:ℝ)^2) (by norm_num : 8 < 64)).2

/-- the hexadecapole of the correlation function from 64 points, smoothed -/
example : ∃ F : ℝ → ℝ, Integral (fun t => t^2/(2*Real.pi^2)*F t*sph 4 (t*xiR (fun z => Complex.log (Gamma z)) 4 64 0 (fun j => 1/1000*Real.exp (j*(1/100))) 3))
    (xiFFTLog (fun z => Complex.log (Gamma z)) 4 2 64 0 2 (fun j => 1/1000*Real.exp (j*(1/100))) (fun j => (j:ℝ)+1) 3) := by
  have G := grid_example 64 (by norm_num)
  obtain ⟨F, hF⟩ := C111_interp_exists (N := 64) G.step G.pos ((2:ℕ) - 1/2 - 0) (fun j => ((j:ℝ)+1)*Real.exp (-((1/1000*Real.exp (j*(1/100)))*2)^2))
  exact ⟨F, C111_xi_fftlog isLogGamma_log 4 2 (by norm_num) (by norm_num) 2 G (fun j => (j:ℝ)+1) hF (by norm_num : 3 < 64)⟩

end
end Verif.FFTLog
