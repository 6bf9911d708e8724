/-
C112: the survey window applied to power spectrum multipoles.
-/
import Verif.Model.WindowTransfer
import Verif.Props.FFTLogBranch
import Verif.Props.Window

namespace Verif.WinTransfer

open Verif.FFTLog Finset

noncomputable section

/-! ### the wavenumbers -/

theorem dk_eq {Nk : ℕ} {Δ : ℝ} {k : ℕ → ℝ} (G : LogGrid Nk Δ k) : dk k*Real.log 10 = Δ := by
  have := G.two
  have h0 := G.pos
  rw [dk, sub_mul, log10_eq, log10_eq, G.spaced 1 (by omega), Real.log_mul h0.ne' (Real.exp_pos _).ne', Real.log_exp]
  push_cast; ring

theorem LogGrid.mono {Nk : ℕ} {Δ : ℝ} {k : ℕ → ℝ} (G : LogGrid Nk Δ k) (hΔ : 0 < Δ) : ∀ i, i + 1 < Nk → k i < k (i+1) := by
  intro i hi
  have h0 := G.pos
  rw [G.spaced i (by omega), G.spaced (i+1) hi]
  refine mul_lt_mul_of_pos_left (Real.exp_lt_exp.2 ?_) h0
  push_cast
  nlinarith

theorem newk_eq {Nk : ℕ} {Δ : ℝ} {k : ℕ → ℝ} (G : LogGrid Nk Δ k) (hΔ : 0 < Δ) (j : ℕ) : newk Nk k j = k 0*Real.exp (j*Δ) := by
  have two := G.two
  have h0 := G.pos
  rw [newk]
  split_ifs with h
  · exact G.spaced j h
  · rw [amax_eq (by omega) (LogGrid.mono G hΔ), ten_rpow, add_mul, add_mul, log10_eq, mul_assoc ((j-Nk:ℕ):ℝ), dk_eq G, G.spaced (Nk-1) (by omega), Real.log_mul h0.ne' (Real.exp_pos _).ne', Real.log_exp]
    conv_rhs => rw [← Real.exp_log h0]
    rw [← Real.exp_add]
    congr 1
    rw [Nat.cast_sub (by omega), Nat.cast_sub (by omega)]
    push_cast; ring

/-- **C112** (wavenumbers): the wavenumbers of the transform continue those of the grid with the same ratio, to within half a step of 100 h/Mpc, and the power spectrum is continued with zeros -/
theorem C112_grid {Nk : ℕ} {Δ : ℝ} {k : ℕ → ℝ} (G : LogGrid Nk Δ k) (hΔ : 0 < Δ) (h100 : k (Nk-1) ≤ 100) :
    LogGrid (Nk + extra Nk k) Δ (newk Nk k) ∧ (∀ j, j < Nk → newk Nk k j = k j) ∧ |Real.log (newk Nk k (Nk + extra Nk k - 1)) - Real.log 100| ≤ Δ/2 ∧
      ∀ P : ℕ → ℝ, ∀ j, zeroPad Nk P j = if j < Nk then P j else 0 := by
  have two := G.two
  have h0 := G.pos
  refine ⟨⟨by omega, G.step, ?_, fun j _ => ?_⟩, fun j hj => by rw [newk, if_pos hj], ?_, fun P j => rfl⟩
  · rw [newk_eq G hΔ]; positivity
  · rw [newk_eq G hΔ, newk_eq G hΔ 0]; simp
  · rw [newk_eq G hΔ, Real.log_mul h0.ne' (Real.exp_pos _).ne', Real.log_exp]
    have hl := Real.log_pos (show (1:ℝ) < 10 by norm_num)
    have hd : 0 < dk k := by
      have := dk_eq G
      by_contra hc
      push Not at hc
      nlinarith
    have hk : Real.log (k (Nk-1)) = Real.log (k 0) + ((Nk:ℝ)-1)*Δ := by
      rw [G.spaced (Nk-1) (by omega), Real.log_mul h0.ne' (Real.exp_pos _).ne', Real.log_exp, Nat.cast_sub (by omega)]; push_cast; ring
    have e100 : Real.log 100 = 2*Real.log 10 := by rw [show (100:ℝ) = 10^2 by norm_num, Real.log_pow]; push_cast; ring
    have hle : Real.log (k (Nk-1)) ≤ Real.log 100 := Real.log_le_log (G.pos' (by omega)) h100
    rw [Nat.cast_sub (by omega), Nat.cast_add, Nat.cast_one]
    have ex : ((2 + 1/2*dk k) - (log10 (amax Nk k) + dk k))/dk k*Δ = Real.log 100 - Real.log (k (Nk-1)) - Δ/2 := by
      rw [← dk_eq G, amax_eq (by omega) (LogGrid.mono G hΔ), e100, ← log10_eq (k (Nk-1))]
      field_simp
      ring
    obtain ⟨x, hx⟩ : ∃ x, x = ((2 + 1/2*dk k) - (log10 (amax Nk k) + dk k))/dk k := ⟨_, rfl⟩
    rw [extra, ← hx]
    rw [← hx] at ex
    rw [abs_le]
    rcases le_or_gt x 0 with h | h
    · have : ⌈x⌉₊ = 0 := Nat.ceil_eq_zero.2 h
      rw [this]
      push_cast
      constructor <;> nlinarith
    · have c1 := Nat.le_ceil x
      have c2 := Nat.ceil_lt_add_one h.le
      constructor <;> nlinarith

/-! ### a transform on a grid that is out by a factor -/

theorem pad_smul (N Nx : ℕ) (left right : Bool) (f : ℕ → ℝ) {c : ℝ} (hc : c ≠ 0) (j : ℕ) : pad N Nx left right (fun i => c*f i) j = c*pad N Nx left right f j := by
  have e : ∀ a b, c*f a/(c*f b) = f a/f b := fun a b => mul_div_mul_left _ _ hc
  simp only [pad, e]
  split_ifs <;> ring

theorem rfft_smul (N : ℕ) (f : ℕ → ℝ) (c : ℝ) (m : ℕ) : rfft N (fun i => c*f i) m = c*rfft N f m := by
  rw [rfft, rfft, mul_sum]
  refine sum_congr rfl fun j _ => ?_
  push_cast; ring

theorem hfft_smul (N : ℕ) (a : ℕ → ℂ) (c : ℝ) (n : ℕ) : hfft N (fun m => c*a m) n = c*hfft N a n := by
  rw [hfft, hfft, mul_sum]
  refine sum_congr rfl fun m _ => ?_
  rw [mul_assoc (c:ℂ), Complex.re_ofReal_mul]; ring

theorem delta_smul {Nx : ℕ} {x : ℕ → ℝ} {c : ℝ} (hc : c ≠ 0) : delta Nx (fun j => c*x j) = delta Nx x := by
  rw [delta, delta, mul_div_mul_left _ _ hc]

theorem pad_congr {N Nx : ℕ} (hx : 2 ≤ Nx) (left right : Bool) {f g : ℕ → ℝ} (h : ∀ j, j < Nx → f j = g j) (j : ℕ) : pad N Nx left right f j = pad N Nx left right g j := by
  simp only [pad]
  rw [h 0 (by omega), h 1 (by omega), h (Nx-1) (by omega), h (Nx-2) (by omega)]
  split_ifs with a b c d
  · rfl
  · rfl
  · exact h _ (by omega)
  · rfl
  · rfl

theorem xi2P_congr {L : ℂ → ℂ} (l : ℕ) (q : ℝ) (lowring left right : Bool) {N Nx : ℕ} (hx : 2 ≤ Nx) {r r' xi xi' : ℕ → ℝ} (hr : ∀ j, j < Nx → r j = r' j) (h : ∀ j, j < Nx → xi j = xi' j) {n : ℕ} (hn : n < Nx) :
    xi2P L l q lowring N Nx r left right xi n = xi2P L l q lowring N Nx r' left right xi' n := by
  have hd : delta Nx r = delta Nx r' := by rw [delta, delta, hr _ (by omega), hr 0 (by omega)]
  have hp : (pad N Nx left right fun j => r j^3*r j^(-q)*xi j) = pad N Nx left right fun j => r' j^3*r' j^(-q)*xi' j := by
    funext j
    exact pad_congr hx left right (fun j hj => by rw [hr j hj, h j hj]) j
  simp only [xi2P, FFTLog.call, hp, hd]
  rw [outputY, outputY, hd, hr _ (by omega)]

/-- a transform told that every separation is `c` times what it is comes out `c³` times as large -/
theorem xi2P_scale {L : ℂ → ℂ} (l : ℕ) (q : ℝ) (lowring left right : Bool) {N Nx : ℕ} {Δ : ℝ} {r : ℕ → ℝ} (G : LogGrid Nx Δ r) {c : ℝ} (hc : 0 < c) (xi : ℕ → ℝ) {n : ℕ} (hn : n < Nx) :
    xi2P L l q lowring N Nx (fun j => c*r j) left right xi n = c^3*xi2P L l q lowring N Nx r left right xi n := by
  have two := G.two
  have hc3 : c^3*c^(-q) ≠ 0 := (mul_pos (pow_pos hc 3) (Real.rpow_pos_of_pos hc _)).ne'
  have hf : (pad N Nx left right fun j => (c*r j)^3*(c*r j)^(-q)*xi j) = fun j => (c^3*c^(-q))*pad N Nx left right (fun j => r j^3*r j^(-q)*xi j) j := by
    funext j
    rw [← pad_smul N Nx left right _ hc3]
    refine pad_congr two left right (fun j hj => ?_) j
    have := G.pos' hj
    rw [Real.mul_rpow hc.le this.le]; ring
  have hy : outputY (UKsph L l) q lowring N Nx (fun j => c*r j) n = c⁻¹*outputY (UKsph L l) q lowring N Nx r n := by
    rw [outputY, outputY, delta_smul hc.ne']
    field_simp
  have hyp : 0 < outputY (UKsph L l) q lowring N Nx r n := (G.output (UKsph L l) q lowring N).pos' hn
  simp only [xi2P, FFTLog.call, hf, delta_smul hc.ne', hy]
  have hs : (fun m => rfft N (fun j => (c^3*c^(-q))*pad N Nx left right (fun j => r j^3*r j^(-q)*xi j) j) m*coeffs (UKsph L l) q lowring N (delta Nx r) m)
      = fun m => ((c^3*c^(-q) : ℝ):ℂ)*(rfft N (pad N Nx left right fun j => r j^3*r j^(-q)*xi j) m*coeffs (UKsph L l) q lowring N (delta Nx r) m) := by
    funext m; rw [rfft_smul]; ring
  rw [hs, hfft_smul, Real.mul_rpow (inv_pos.2 hc).le hyp.le, Real.inv_rpow hc.le, Real.rpow_neg hc.le, inv_inv]
  have := (Real.rpow_pos_of_pos hc q).ne'
  field_simp

/-! ### without a window -/

/-- the factor by which the separations that are used for the multipole `l` are out, when the last multipole is `last` -/
def slip (L : ℂ → ℂ) (q : ℝ) (lowring : Bool) (N : ℕ) (Δ : ℝ) (last l : ℕ) : ℝ := Real.exp (lnxy (UKsph L last) q lowring N Δ - lnxy (UKsph L l) q lowring N Δ)

theorem rr_slip (L : ℂ → ℂ) (q : ℝ) (lowring : Bool) (N : ℕ) {Nx : ℕ} {Δ : ℝ} {k : ℕ → ℝ} (G : LogGrid Nx Δ k) (last l n : ℕ) :
    outputY (UKsph L last) q lowring N Nx k n = slip L q lowring N Δ last l*outputY (UKsph L l) q lowring N Nx k n := by
  rw [outputY, outputY, slip, G.delta_eq, ← mul_div_assoc, ← Real.exp_add]
  congr 2; ring

theorem xiRow_getD (L : ℂ → ℂ) (q : ℝ) (lowring left right : Bool) (N Nx : ℕ) (k : ℕ → ℝ) (P : ℕ → ℕ → ℝ) {ells : List ℕ} {i l : ℕ} (hi : ells[i]? = some l) (n : ℕ) :
    (xiRow L q lowring left right N Nx k P ells n).getD i 0 = P2xi L l q lowring N Nx k left right (P i) n := by
  rw [xiRow, List.getD_eq_getElem?_getD, List.getElem?_map, List.getElem?_zipIdx, hi]
  simp

theorem mapM_ok {ε α β : Type*} (f : α → Except ε β) (g : α → β) (l : List α) (h : ∀ a ∈ l, f a = .ok (g a)) : l.mapM f = .ok (l.map g) := by
  induction l with
  | nil => rfl
  | cons a t ih =>
    rw [List.mapM_cons, h a (by simp), ih fun b hb => h b (by simp [hb])]
    rfl

theorem mapM_get {ε α β : Type*} (f : α → Except ε β) (l : List α) (ys : List β) (h : l.mapM f = .ok ys) (n : ℕ) (a : α) (hn : l[n]? = some a) : ∃ b, ys[n]? = some b ∧ f a = .ok b := by
  induction l generalizing ys n with
  | nil => simp at hn
  | cons c t ih =>
    rw [List.mapM_cons] at h
    cases hc : f c with
    | error e => rw [hc] at h; exact absurd h (fun h => nomatch h)
    | ok b =>
      rw [hc] at h
      cases ht : t.mapM f with
      | error e => rw [ht] at h; exact absurd h (fun h => nomatch h)
      | ok bs =>
        rw [ht] at h
        have h : b :: bs = ys := Except.ok.inj h
        rw [← h]
        cases n with
        | zero => simp at hn; rw [← hn]; exact ⟨b, rfl, hc⟩
        | succ n => exact ih bs ht n (by simpa using hn)

/-- nothing happens between the transforms -/
def Idle {m : ℕ} (mode : Mode m) (ells : List ℕ) : Prop :=
  mode = .dryRun ∨ ∃ w spl, mode = .window w spl ∧ Window.LinearSpline spl ∧ (∀ r, spl (fun _ => 1) r = 1) ∧ (∀ r, Window.NoWindow w r) ∧
    ells = Window.evens w.maxEllprime ∧ w.maxEllprime ≤ w.maxEll ∧ w.maxEll/2 + w.maxEllprime/2 < w.cols.length

theorem conv_idle {m : ℕ} {mode : Mode m} {ells : List ℕ} (h : Idle mode ells) (rr : ℕ → ℝ) (Nx : ℕ) {row : ℕ → List ℝ} (hrow : ∀ n, (row n).length = ells.length) :
    conv mode ells rr Nx row = .ok ((List.range Nx).map row) := by
  rcases h with rfl | ⟨w, spl, rfl, hs, hc, ht, he, hl, hcol⟩
  · rfl
  · simp only [conv]
    refine mapM_ok _ _ _ fun n _ => ?_
    have hlen : (row n).length = w.maxEllprime/2 + 1 := by rw [hrow, he]; simp [Window.evens]
    rw [he, Window.C50_partial w hs hc (rr n) (row n) hlen hl hcol (ht _)]

theorem call_idle {m : ℕ} {mode : Mode m} {ells : List ℕ} (h : Idle mode ells) (L : ℂ → ℂ) (q : ℝ) (lowring left right : Bool) {N Nk : ℕ} {k : ℕ → ℝ} (Pell0 : ℕ → ℕ → ℝ) {last : ℕ} (hlast : ells.getLast? = some last) (h2 : 2 ≤ Nk) :
    ∃ out, call L q lowring left right N Nk k Pell0 ells mode = .ok out ∧ ∀ i l, ells[i]? = some l → ∀ n, n < Nk + extra Nk k →
      out i n = xi2P L l q lowring N (Nk + extra Nk k) (outputY (UKsph L last) q lowring N (Nk + extra Nk k) (newk Nk k)) left right
        (P2xi L l q lowring N (Nk + extra Nk k) (newk Nk k) left right (zeroPad Nk (Pell0 i))) n := by
  have hc := conv_idle h (outputY (UKsph L last) q lowring N (Nk + extra Nk k) (newk Nk k)) (Nk + extra Nk k) (row := xiRow L q lowring left right N (Nk + extra Nk k) (newk Nk k) (fun i => zeroPad Nk (Pell0 i)) ells) (fun n => by simp [xiRow])
  have hm : mode ≠ .noConvolution := by rcases h with rfl | ⟨w, spl, rfl, -⟩ <;> exact fun h => nomatch h
  refine ⟨fun i => xi2P L (ells.getD i 0) q lowring N (Nk + extra Nk k) (outputY (UKsph L last) q lowring N (Nk + extra Nk k) (newk Nk k)) left right fun n => (((List.range (Nk + extra Nk k)).map (xiRow L q lowring left right N (Nk + extra Nk k) (newk Nk k) (fun i => zeroPad Nk (Pell0 i)) ells)).getD n []).getD i 0, ?_, fun i l hi n hn => ?_⟩
  · cases mode with
    | noConvolution => exact absurd rfl hm
    | dryRun => simp only [call, hlast, hc]
    | window w spl => simp only [call, hlast, hc]
  · beta_reduce
    rw [show ells.getD i 0 = l by rw [List.getD_eq_getElem?_getD, hi]; rfl]
    refine xi2P_congr l q lowring left right (by omega) (fun _ _ => rfl) (fun j hj => ?_) hn
    rw [← xiRow_getD L q lowring left right N (Nk + extra Nk k) (newk Nk k) (fun i => zeroPad Nk (Pell0 i)) hi j]
    congr 1
    rw [List.getD_eq_getElem?_getD, List.getElem?_map, List.getElem?_range hj]
    rfl

/-- **C112** (no window): with a window that is 1, or in a dry run, every multipole that comes out is the multipole that went in, taken to configuration space and back, times the cube of the factor by which the separations of the last multipole differ from its own -/
theorem C112_no_window {m : ℕ} {mode : Mode m} {ells : List ℕ} (h : Idle mode ells) (L : ℂ → ℂ) (q : ℝ) (lowring left right : Bool) {N Nk : ℕ} {Δ : ℝ} {k : ℕ → ℝ} (G : LogGrid Nk Δ k) (hΔ : 0 < Δ) (h100 : k (Nk-1) ≤ 100)
    (Pell0 : ℕ → ℕ → ℝ) {last : ℕ} (hlast : ells.getLast? = some last) :
    ∃ out, call L q lowring left right N Nk k Pell0 ells mode = .ok out ∧ ∀ i l, ells[i]? = some l → ∀ n, n < Nk + extra Nk k →
      out i n = slip L q lowring N Δ last l^3*xi2P L l q lowring N (Nk + extra Nk k) (outputY (UKsph L l) q lowring N (Nk + extra Nk k) (newk Nk k)) left right
        (P2xi L l q lowring N (Nk + extra Nk k) (newk Nk k) left right (zeroPad Nk (Pell0 i))) n := by
  obtain ⟨out, ho, hv⟩ := call_idle h L q lowring left right (N := N) (k := k) Pell0 hlast G.two
  have G' := (C112_grid G hΔ h100).1
  refine ⟨out, ho, fun i l hi n hn => ?_⟩
  rw [hv i l hi n hn, ← xi2P_scale l q lowring left right (G'.output (UKsph L l) q lowring N) (show 0 < slip L q lowring N Δ last l from Real.exp_pos _) _ hn]
  exact xi2P_congr l q lowring left right G'.two (fun j _ => rr_slip L q lowring N G' last l j) (fun _ _ => rfl) hn

/-- **C112** (no window): so when that factor is 1, as it is for a single multipole, for a transform of odd length or without `lowring`, the multipoles come back: at the default tilt, without extrapolation and with orthogonal transforms, up to what lies outside the separations of the transform (see `C111_round_trip_padded`) -/
theorem C112_no_window_bound {m : ℕ} {mode : Mode m} {ells : List ℕ} (h : Idle mode ells) {L : ℂ → ℂ} (hL : IsLogGamma L) {lowring : Bool} {N Nk : ℕ} (hr : lowring = true ∨ N % 2 = 1) {Δ : ℝ} {k : ℕ → ℝ} (G : LogGrid Nk Δ k) (hΔ : 0 < Δ) (h100 : k (Nk-1) ≤ 100)
    (hN : Nk + extra Nk k ≤ N) (Pell0 : ℕ → ℕ → ℝ) {last : ℕ} (hlast : ells.getLast? = some last) :
    ∃ out, call L (3/2) lowring false false N Nk k Pell0 ells mode = .ok out ∧ ∀ i l, ells[i]? = some l → l % 2 = 0 →
      ∑ n ∈ range Nk, k n^3*(out i n - slip L (3/2) lowring N Δ last l^3*Pell0 i n)^2
        ≤ slip L (3/2) lowring N Δ last l^6*((2*Real.pi)^3*∑ s ∈ (range N).filter (fun s => s < N - (Nk + extra Nk k) - (N-(Nk + extra Nk k))/2 ∨ N - (Nk + extra Nk k) - (N-(Nk + extra Nk k))/2 + (Nk + extra Nk k) ≤ s),
          outputY (UKsph L l) (3/2) lowring N N (padGrid N (Nk + extra Nk k) Δ (newk Nk k)) s^3*P2xi L l (3/2) lowring N N (padGrid N (Nk + extra Nk k) Δ (newk Nk k)) false false (pad N (Nk + extra Nk k) false false (zeroPad Nk (Pell0 i))) s^2) := by
  obtain ⟨out, ho, hv⟩ := C112_no_window h L (3/2) lowring false false (N := N) G hΔ h100 Pell0 hlast
  obtain ⟨G', hk, -, -⟩ := C112_grid G hΔ h100
  refine ⟨out, ho, fun i l hi hl => ?_⟩
  have B := C111_round_trip_padded hL hl hr hN G' (zeroPad Nk (Pell0 i))
  refine le_trans ?_ (mul_le_mul_of_nonneg_left B (by rw [slip]; positivity))
  rw [mul_sum]
  refine le_trans (sum_le_sum fun n hn => ?_) (sum_le_sum_of_subset_of_nonneg (range_mono (Nat.le_add_right Nk (extra Nk k))) fun n hn _ => ?_)
  · have hn' := mem_range.1 hn
    rw [hv i l hi n (by omega), ← hk n hn', zeroPad, if_pos hn']
    exact le_of_eq (by ring)
  · have := G'.pos' (mem_range.1 hn)
    rw [slip]
    positivity

/-! ### the separations of different multipoles -/

/-- **C112** (separations): they are the same for every multipole without `lowring` or with an odd length -/
theorem C112_slip_one (L : ℂ → ℂ) (q : ℝ) {lowring : Bool} {N : ℕ} (Δ : ℝ) {last l : ℕ} (h : lowring = false ∨ N % 2 = 1 ∨ last = l) : slip L q lowring N Δ last l = 1 := by
  rcases h with rfl | h | rfl
  · simp [slip, lnxy]
  · have : ¬ (lowring = true ∧ N % 2 = 0) := by omega
    simp [slip, lnxy, this]
  · simp [slip]

theorem mellin_step (l : ℕ) {η : ℝ} :
    mellinSph (l+2) (((3/2:ℝ):ℂ) + Complex.I*(η:ℂ)) = mellinSph l (((3/2:ℝ):ℂ) + Complex.I*(η:ℂ))*Complex.exp ((2*Real.arctan (η/(l+3/2)) : ℝ)*Complex.I) := by
  have hl : (0:ℝ) ≤ l := Nat.cast_nonneg l
  obtain ⟨a, ha⟩ : ∃ a : ℝ, a = l + 3/2 := ⟨_, rfl⟩
  have hap : 0 < a := by linarith
  obtain ⟨w, hw⟩ : ∃ w : ℂ, w = (a:ℂ) + Complex.I*η := ⟨_, rfl⟩
  have hw0 : w ≠ 0 := fun h => by
    have := congrArg Complex.re h
    rw [hw] at this; simp at this; linarith
  have hwr : w.re = a := by rw [hw]; simp
  have hwc : (a:ℂ) - Complex.I*η = (starRingEnd ℂ) w := by rw [hw]; simp [sub_eq_add_neg]
  have hwc0 : (starRingEnd ℂ) w ≠ 0 := by simpa using hw0
  have e1 : ((((l+2:ℕ):ℂ)+(((3/2:ℝ):ℂ) + Complex.I*(η:ℂ)))/2 : ℂ) = w/2 + 1 := by rw [hw, ha]; push_cast; ring
  have e2 : ((3+((l+2:ℕ):ℂ)-(((3/2:ℝ):ℂ) + Complex.I*(η:ℂ)))/2 : ℂ) = (starRingEnd ℂ) w/2 + 1 := by rw [← hwc, ha]; push_cast; ring
  have e3 : (((l:ℂ)+(((3/2:ℝ):ℂ) + Complex.I*(η:ℂ)))/2 : ℂ) = w/2 := by rw [hw, ha]; push_cast; ring
  have e4 : ((3+(l:ℂ)-(((3/2:ℝ):ℂ) + Complex.I*(η:ℂ)))/2 : ℂ) = (starRingEnd ℂ) w/2 := by rw [← hwc, ha]; push_cast; ring
  have g : Complex.Gamma ((starRingEnd ℂ) w/2) ≠ 0 := Complex.Gamma_ne_zero_of_re_pos (by
    rw [show (starRingEnd ℂ) w/2 = ((1/2:ℝ):ℂ)*(starRingEnd ℂ) w by push_cast; ring, Complex.re_ofReal_mul, Complex.conj_re, hwr]; linarith)
  rw [mellinSph, mellinSph, e1, e2, e3, e4, Complex.Gamma_add_one _ (by simpa using hw0), Complex.Gamma_add_one _ (by simpa using hwc0)]
  have ph : w/(starRingEnd ℂ) w = Complex.exp ((2*Real.arctan (η/(l+3/2)) : ℝ)*Complex.I) := by
    have t : w.arg = Real.arctan (η/(l+3/2)) := by
      have b : |w.arg| < Real.pi/2 := Complex.abs_arg_lt_pi_div_two_iff.2 (Or.inl (by rw [hwr]; exact hap))
      rw [← Real.arctan_tan (abs_lt.1 b).1 (abs_lt.1 b).2, Complex.tan_arg, hwr, ← ha, hw]; simp
    rw [← t]
    have n := Complex.norm_mul_exp_arg_mul_I w
    have nc : (starRingEnd ℂ) w = ‖w‖*Complex.exp (-(w.arg*Complex.I)) := by
      conv_lhs => rw [← n]
      rw [map_mul, Complex.conj_ofReal, ← Complex.exp_conj, map_mul, Complex.conj_ofReal, Complex.conj_I, mul_neg]
    have hn : (‖w‖:ℂ) ≠ 0 := by exact_mod_cast norm_ne_zero_iff.2 hw0
    rw [nc]
    nth_rw 1 [← n]
    rw [mul_div_mul_left _ _ hn, ← Complex.exp_sub]
    congr 1; push_cast; ring
  rw [← ph]
  field_simp

/-- **C112** (separations, false of the code): with `lowring`, which is the default, and an even length, which is the default, the separations of two neighbouring multipoles differ by about one step of the grid -/
theorem C112_slip_counterexample {L : ℂ → ℂ} (hL : IsLogGamma L) (l : ℕ) {N : ℕ} (hN : N % 2 = 0) {Δ : ℝ} (hΔ : 0 < Δ) :
    2/Real.pi*Real.arctan (Real.pi/(Δ*(l+3/2)))*Δ ≤ |Real.log (slip L (3/2) true N Δ (l+2) l)| ∧ slip L (3/2) true N Δ (l+2) l ≠ 1 := by
  have hl : (0:ℝ) ≤ l := Nat.cast_nonneg l
  have hpi := Real.pi_pos
  obtain ⟨η, hη⟩ : ∃ η, η = Real.pi/Δ := ⟨_, rfl⟩
  have hη0 : 0 < η := by rw [hη]; positivity
  have ea : Real.pi/(Δ*(l+3/2)) = η/(l+3/2) := by rw [hη]; field_simp
  have ez : (((3/2:ℝ):ℂ) + Complex.I*Real.pi/Δ) = ((3/2:ℝ):ℂ) + Complex.I*(η:ℂ) := by rw [hη]; push_cast; ring
  have er : (((3/2:ℝ):ℂ) + Complex.I*(η:ℂ)).re = 3/2 := by simp
  obtain ⟨u, hu⟩ : ∃ u, u = mellinSph l (((3/2:ℝ):ℂ) + Complex.I*(η:ℂ)) := ⟨_, rfl⟩
  obtain ⟨v, hv⟩ : ∃ v, v = mellinSph (l+2) (((3/2:ℝ):ℂ) + Complex.I*(η:ℂ)) := ⟨_, rfl⟩
  obtain ⟨t, ht⟩ : ∃ t, t = Real.arctan (η/(l+3/2)) := ⟨_, rfl⟩
  have st := mellin_step l (η := η)
  rw [← hu, ← hv, ← ht] at st
  have nu : ‖u‖ = 1 := by rw [hu]; exact mellinSph_norm l η
  have nv : ‖v‖ = 1 := by rw [hv]; exact mellinSph_norm (l+2) η
  have lu : lnxy (UKsph L l) (3/2) true N Δ = Δ/Real.pi*u.arg := by
    rw [lnxy, if_pos ⟨rfl, hN⟩, ez, UKsph_eq hL l (by rw [er]; norm_num) (by rw [er]; norm_num), hu]
  have lv : lnxy (UKsph L (l+2)) (3/2) true N Δ = Δ/Real.pi*v.arg := by
    rw [lnxy, if_pos ⟨rfl, hN⟩, ez, UKsph_eq hL (l+2) (by rw [er]; norm_num) (by rw [er]; norm_num), hv]
  have pu := Complex.norm_mul_exp_arg_mul_I u
  have pv := Complex.norm_mul_exp_arg_mul_I v
  rw [nu, Complex.ofReal_one, one_mul] at pu
  rw [nv, Complex.ofReal_one, one_mul] at pv
  have ex : Complex.exp (v.arg*Complex.I) = Complex.exp ((u.arg + 2*t : ℝ)*Complex.I) := by
    rw [pv, st]
    nth_rw 1 [← pu]
    rw [← Complex.exp_add]; congr 1; push_cast; ring
  obtain ⟨n, hn⟩ := Complex.exp_eq_exp_iff_exists_int.1 ex
  have hn' : v.arg = u.arg + 2*t + n*(2*Real.pi) := by
    have := congrArg Complex.im hn
    simpa using this
  have t0 : 0 < t := by rw [ht]; exact Real.arctan_pos.2 (by positivity)
  have t1 : t < Real.pi/2 := by rw [ht]; exact Real.arctan_lt_pi_div_two _
  have key : 2*t ≤ |v.arg - u.arg| := by
    rw [hn', show u.arg + 2*t + n*(2*Real.pi) - u.arg = 2*t + n*(2*Real.pi) by ring]
    rcases lt_trichotomy n 0 with h | h | h
    · have : (n:ℝ) ≤ -1 := by exact_mod_cast (by omega : n ≤ -1)
      refine le_trans ?_ (neg_le_abs _)
      nlinarith
    · rw [h]; push_cast
      exact le_trans (by linarith) (le_abs_self _)
    · have : (1:ℝ) ≤ n := by exact_mod_cast h
      refine le_trans ?_ (le_abs_self _)
      nlinarith
  have e : |Real.log (slip L (3/2) true N Δ (l+2) l)| = Δ/Real.pi*|v.arg - u.arg| := by
    rw [slip, Real.log_exp, lu, lv, ← mul_sub, abs_mul, abs_of_pos (div_pos hΔ hpi)]
  have low : 2/Real.pi*Real.arctan (Real.pi/(Δ*(l+3/2)))*Δ ≤ |Real.log (slip L (3/2) true N Δ (l+2) l)| := by
    rw [e, ea, ← ht]
    calc 2/Real.pi*t*Δ = Δ/Real.pi*(2*t) := by ring
      _ ≤ _ := mul_le_mul_of_nonneg_left key (by positivity)
  refine ⟨low, fun h => ?_⟩
  rw [h, Real.log_one, abs_zero, ea, ← ht] at low
  have : 0 < 2/Real.pi*t*Δ := by positivity
  linarith

/-- **C112** (no window, false of the code): a window that is 1 leaves the multipoles as they are. With the multipoles `l, l+2`, the default tilt, and a transform as long as the grid, the first multipole comes out of a dry run multiplied by one and the same factor, which is not 1, at every wavenumber and for every power spectrum -/
theorem C112_no_window_counterexample {L : ℂ → ℂ} (hL : IsLogGamma L) {l : ℕ} (hl : l % 2 = 0) {Nk : ℕ} {Δ : ℝ} {k : ℕ → ℝ} (G : LogGrid Nk Δ k) (hΔ : 0 < Δ) (h100 : k (Nk-1) ≤ 100) (hN : (Nk + extra Nk k) % 2 = 0) :
    ∃ c : ℝ, c ≠ 1 ∧ Real.exp (3*(2/Real.pi*Real.arctan (Real.pi/(Δ*(l+3/2)))*Δ)) ≤ max c c⁻¹ ∧ ∀ Pell0 : ℕ → ℕ → ℝ,
      ∃ out, call (m := 0) L (3/2) true false false (Nk + extra Nk k) Nk k Pell0 [l, l+2] .dryRun = .ok out ∧ ∀ n, n < Nk → out 0 n = c*Pell0 0 n ∧ out 1 n = Pell0 1 n := by
  obtain ⟨b, ne⟩ := C112_slip_counterexample hL l hN hΔ
  obtain ⟨σ, hσ⟩ : ∃ σ, σ = slip L (3/2) true (Nk + extra Nk k) Δ (l+2) l := ⟨_, rfl⟩
  have hp : 0 < σ := by rw [hσ, slip]; exact Real.exp_pos _
  rw [← hσ] at b ne
  refine ⟨σ^3, fun h => ne ((pow_eq_one_iff_of_nonneg hp.le (by norm_num)).1 h), ?_, fun Pell0 => ?_⟩
  · have e3 : σ^3 = Real.exp (3*Real.log σ) := by rw [mul_comm, Real.exp_mul, Real.exp_log hp]; norm_cast
    rw [e3, ← Real.exp_neg]
    rcases abs_cases (Real.log σ) with ⟨h, -⟩ | ⟨h, -⟩
    · exact le_max_of_le_left (Real.exp_le_exp.2 (by linarith))
    · exact le_max_of_le_right (Real.exp_le_exp.2 (by linarith))
  · obtain ⟨out, ho, hv⟩ := C112_no_window (m := 0) (mode := .dryRun) (ells := [l, l+2]) (Or.inl rfl) L (3/2) true false false (N := Nk + extra Nk k) G hΔ h100 Pell0 (last := l+2) rfl
    have G' := (C112_grid G hΔ h100).1
    refine ⟨out, ho, fun n hn => ⟨?_, ?_⟩⟩
    · rw [hv 0 l rfl n (by omega), (C111_round_trip hL hl (Or.inl rfl) G' _ (by omega)).2, zeroPad, if_pos hn, hσ]
    · rw [hv 1 (l+2) rfl n (by omega), (C111_round_trip hL (by omega : (l+2) % 2 = 0) (Or.inl rfl) G' _ (by omega)).2, zeroPad, if_pos hn, C112_slip_one L (3/2) Δ (Or.inr (Or.inr rfl))]
      ring

/-! ### with a window -/

/-- **C112** (window): with a window, every multipole that comes out is the transform of the multipole of the product of the window and the correlation function; the separation of the window, and of the transform back, is that of the last multipole, and the multipole `l'` of the correlation function is at the separation which is smaller than this by the factor `slip` -/
theorem C112_window {m : ℕ} (w : Window.Win m) {spl : (Fin m → ℝ) → ℝ → ℝ} (hs : Window.LinearSpline spl) {ells : List ℕ} (L : ℂ → ℂ) (q : ℝ) (lowring left right : Bool) {N Nk : ℕ} {Δ : ℝ} {k : ℕ → ℝ} (G : LogGrid Nk Δ k) (hΔ : 0 < Δ) (h100 : k (Nk-1) ≤ 100)
    (Pell0 : ℕ → ℕ → ℝ) {last : ℕ} (hlast : ells.getLast? = some last) {out : ℕ → ℕ → ℝ} (ho : call L q lowring left right N Nk k Pell0 ells (.window w spl) = .ok out) :
    ∃ (rr : ℕ → ℝ) (xi : ℕ → ℕ → ℝ),
      (∀ i l n, ells[i]? = some l → xi i n = P2xi L l q lowring N (Nk + extra Nk k) (newk Nk k) left right (zeroPad Nk (Pell0 i)) n ∧ rr n = slip L q lowring N Δ last l*outputY (UKsph L l) q lowring N (Nk + extra Nk k) (newk Nk k) n) ∧
      ∀ i l, ells[i]? = some l → ∀ n, n < Nk + extra Nk k → ∃ xic : ℕ → ℝ, out i n = xi2P L l q lowring N (Nk + extra Nk k) rr left right xic n ∧
        ∀ j, j < Nk + extra Nk k → w.smin ≤ rr j ∧ rr j ≤ w.smax →
          xic j = Window.pole l (fun mu => Window.fromPoles (((List.range ells.length).map fun i => xi i j).take (w.maxEllprime/2 + 1)) mu*Window.fromPoles (Window.winAt w spl (rr j)) mu) := by
  have G' := (C112_grid G hΔ h100).1
  obtain ⟨row, hrow⟩ : ∃ row, row = xiRow L q lowring left right N (Nk + extra Nk k) (newk Nk k) (fun i => zeroPad Nk (Pell0 i)) ells := ⟨_, rfl⟩
  simp only [call, hlast, ← hrow] at ho
  obtain ⟨rr, hrr⟩ : ∃ rr, rr = outputY (UKsph L last) q lowring N (Nk + extra Nk k) (newk Nk k) := ⟨_, rfl⟩
  rw [← hrr] at ho
  obtain ⟨Nx, hNx⟩ : ∃ Nx, Nx = Nk + extra Nk k := ⟨_, rfl⟩
  rw [← hNx] at ho G' ⊢
  split at ho
  · exact absurd ho (fun h => nomatch h)
  · rename_i rows hrows
    have ho := (Except.ok.inj ho).symm
    have key : ∀ n, n < Nx → Window.convolve w spl ells (rr n) (row n) = .ok (rows.getD n []) := by
      intro n hn
      simp only [conv] at hrows
      obtain ⟨b, hb, hf⟩ := mapM_get _ _ _ hrows n n (List.getElem?_range hn)
      rw [List.getD_eq_getElem?_getD, hb, Option.getD_some]
      beta_reduce at hf
      split at hf
      · rename_i o e; rw [e, Except.ok.inj hf]
      · exact absurd hf (fun h => nomatch h)
    refine ⟨rr, fun i n => P2xi L (ells.getD i 0) q lowring N Nx (newk Nk k) left right (zeroPad Nk (Pell0 i)) n, fun i l n hi => ⟨?_, ?_⟩, fun i l hi n hn => ⟨fun n => (rows.getD n []).getD i 0, ?_, fun j hj hw => ?_⟩⟩
    · beta_reduce; rw [show ells.getD i 0 = l by rw [List.getD_eq_getElem?_getD, hi]; rfl]
    · rw [hrr, ← hNx]; exact rr_slip L q lowring N G' last l n
    · rw [ho]; beta_reduce; rw [show ells.getD i 0 = l by rw [List.getD_eq_getElem?_getD, hi]; rfl]
    · have C := Window.C51_convolution w hs ells (rr j) (row j) _ hw (key j hj)
      beta_reduce
      rw [C, List.getD_eq_getElem?_getD, List.getElem?_map, hi]
      simp only [Option.map_some, Option.getD_some]
      have er : row j = (List.range ells.length).map fun i => P2xi L (ells.getD i 0) q lowring N Nx (newk Nk k) left right (zeroPad Nk (Pell0 i)) j := by
        apply List.ext_getElem
        · rw [hrow]; simp [xiRow]
        · intro a h1 h2
          simp only [hrow, xiRow, List.getElem_map, List.getElem_zipIdx, List.getElem_range, ← hNx]
          simp at h2
          simp [h2]
      rw [er]

/-! ### the hypotheses are met -/

theorem grid_ten : LogGrid 2 (Real.log 10) (fun j => 1/10*Real.exp (j*Real.log 10)) where
  two := le_rfl
  step := (Real.log_pos (by norm_num)).ne'
  pos := by positivity
  spaced j _ := by simp

theorem grid_ten_extra : extra 2 (fun j => 1/10*Real.exp (j*Real.log 10)) = 2 := by
  have hl := Real.log_pos (show (1:ℝ) < 10 by norm_num)
  have hd : dk (fun j => 1/10*Real.exp (j*Real.log 10)) = 1 := by
    have := dk_eq grid_ten
    have h : (dk (fun j => 1/10*Real.exp (j*Real.log 10)) - 1)*Real.log 10 = 0 := by linarith
    rcases mul_eq_zero.1 h with h | h
    · linarith
    · exact absurd h hl.ne'
  rw [extra, hd, amax_eq (by norm_num) (LogGrid.mono grid_ten hl)]
  have e : log10 (1/10*Real.exp (((2-1:ℕ):ℝ)*Real.log 10)) = 0 := by
    rw [show ((2-1:ℕ):ℝ)*Real.log 10 = Real.log 10 by norm_num, Real.exp_log (by norm_num), log10]; norm_num
  rw [e]
  have : ((2 + 1/2*1 - (0 + 1))/1 : ℝ) = 3/2 := by norm_num
  rw [this, Nat.ceil_eq_iff (by norm_num)]
  norm_num

/-- two wavenumbers, 0.1 and 1, continued to 10 and 100: the monopole beside a quadrupole comes back wrong -/
example : ∃ c : ℝ, c ≠ 1 ∧ ∃ out, call (m := 0) (fun z => Complex.log (Complex.Gamma z)) (3/2) true false false 4 2 (fun j => 1/10*Real.exp (j*Real.log 10)) (fun _ _ => 7) [0, 2] .dryRun = .ok out ∧ out 0 1 = c*7 ∧ out 1 1 = 7 := by
  obtain ⟨c, h1, -, h⟩ := C112_no_window_counterexample isLogGamma_log (l := 0) rfl grid_ten (Real.log_pos (by norm_num)) (by
    rw [show ((2-1:ℕ):ℝ)*Real.log 10 = Real.log 10 by norm_num, Real.exp_log (by norm_num)]; norm_num) (by rw [grid_ten_extra])
  obtain ⟨out, ho, hv⟩ := h fun _ _ => 7
  rw [grid_ten_extra] at ho
  exact ⟨c, h1, out, ho, hv 1 (by norm_num)⟩

/-- a window that is 1 is idle -/
example : Idle (.window (Window.trivialWin 4 4) Window.line) [0, 2, 4] :=
  Or.inr ⟨_, _, rfl, Window.line_linear, Window.line_const, fun _ => Or.inr ⟨6, rfl⟩, rfl, le_rfl, by simp [Window.trivialWin]⟩

end
end Verif.WinTransfer
