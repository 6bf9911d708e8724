/-
Lemmas for C111: the discrete Fourier transform.
-/
import Verif.Model.FFTLog
import Verif.Spec.FFTLog
import Verif.Lemmas.Mellin
import Mathlib.RingTheory.RootsOfUnity.Complex

namespace Verif.FFTLog

open Complex Finset

noncomputable section

/-! ### roots of unity -/

/-- `exp(2πi s/N)` -/
def ew (N : ℕ) (s : ℤ) : ℂ := cexp (2*Real.pi*I*s/N)

theorem ew_add (N : ℕ) (s t : ℤ) : ew N (s+t) = ew N s*ew N t := by
  rw [ew, ew, ew, ← Complex.exp_add]; congr 1; push_cast; ring

theorem ew_zero (N : ℕ) : ew N 0 = 1 := by simp [ew]

theorem ew_conj (N : ℕ) (s : ℤ) : (starRingEnd ℂ) (ew N s) = ew N (-s) := by
  rw [ew, ew, ← Complex.exp_conj]
  congr 1
  simp only [map_div₀, map_mul, conj_I, conj_ofReal, map_ofNat, map_intCast, map_natCast]
  push_cast; ring

theorem ew_mul_nat (N k : ℕ) (s : ℤ) : ew N (k*s) = ew N s^k := by
  rw [ew, ew, ← Complex.exp_nat_mul]; congr 1; push_cast; ring

theorem ew_one_iff {N : ℕ} (hN : N ≠ 0) (s : ℤ) : ew N s = 1 ↔ (N:ℤ) ∣ s := by
  have h0 : (N:ℂ) ≠ 0 := by exact_mod_cast hN
  rw [ew, Complex.exp_eq_one_iff]
  have hp : (2*Real.pi*I : ℂ) ≠ 0 := Complex.two_pi_I_ne_zero
  constructor
  · rintro ⟨n, hn⟩
    refine ⟨n, ?_⟩
    have : (s:ℂ) = N*n := by
      have e : (2*Real.pi*I : ℂ)*(s - N*n) = 0 := by
        have h2 : (2*Real.pi*I*s/N : ℂ)*N = n*(2*Real.pi*I)*N := by rw [hn]
        rw [div_mul_cancel₀ _ h0] at h2
        linear_combination h2
      rcases mul_eq_zero.1 e with h | h
      · exact absurd h hp
      · linear_combination h
    exact_mod_cast this
  · rintro ⟨n, hn⟩
    refine ⟨n, ?_⟩
    rw [hn]; push_cast; field_simp

theorem ew_periodic {N : ℕ} (hN : N ≠ 0) (s t : ℤ) : ew N (s + N*t) = ew N s := by
  rw [ew_add, (ew_one_iff hN _).2 ⟨t, rfl⟩, mul_one]

/-- orthogonality -/
theorem ew_sum {N : ℕ} (hN : N ≠ 0) (s : ℤ) : ∑ k ∈ range N, ew N (k*s) = if (N:ℤ) ∣ s then (N:ℂ) else 0 := by
  simp only [ew_mul_nat]
  split_ifs with h
  · simp [(ew_one_iff hN s).2 h]
  · have h1 : ew N s ≠ 1 := fun h' => h ((ew_one_iff hN s).1 h')
    have h2 : ew N s^N = 1 := by rw [← ew_mul_nat]; exact (ew_one_iff hN _).2 ⟨s, rfl⟩
    have := mul_geom_sum (ew N s) N
    rw [h2, sub_self] at this
    rcases mul_eq_zero.1 this with h' | h'
    · exact absurd (sub_eq_zero.1 h') h1
    · exact h'

/-- orthogonality of two frequencies below `N` -/
theorem ew_orth {N : ℕ} {m m' : ℕ} (h : m < N) (h' : m' < N) : ∑ k ∈ range N, ew N (k*((m:ℤ) - m')) = if m = m' then (N:ℂ) else 0 := by
  rw [ew_sum (by omega)]
  have : (N:ℤ) ∣ (m:ℤ) - m' ↔ m = m' := by
    constructor
    · rintro ⟨t, ht⟩
      have : t = 0 := by
        by_contra hne
        rcases lt_or_gt_of_ne hne with h1 | h1
        · nlinarith
        · nlinarith
      subst this
      omega
    · rintro rfl; simp
  simp only [this]

/-! ### half spectra -/

/-- the full spectrum of which `z` is the half -/
def full (N : ℕ) (z : ℕ → ℂ) (m : ℕ) : ℂ := if 2*m ≤ N then z m else (starRingEnd ℂ) (z (N-m))

/-- the sum over the half spectrum that the transforms take -/
def half (N : ℕ) (t : ℕ → ℝ) : ℝ := ∑ m ∈ range (N/2+1), mult N m*t m

theorem half_full {N : ℕ} (hN : N ≠ 0) {z : ℕ → ℂ} (h0 : (z 0).im = 0) (h1 : ∀ m, 2*m = N → (z m).im = 0) :
    ∑ m ∈ range N, full N z m = (half N fun m => (z m).re : ℝ) := by
  have e1 : ∑ m ∈ range N, full N z m = ∑ m ∈ range (N/2+1), z m + ∑ m ∈ Ico (N/2+1) N, (starRingEnd ℂ) (z (N-m)) := by
    rw [range_eq_Ico, ← sum_Ico_consecutive _ (Nat.zero_le (N/2+1)) (by omega : N/2+1 ≤ N)]
    congr 1
    · rw [range_eq_Ico]
      refine sum_congr rfl fun m hm => ?_
      rw [mem_Ico] at hm
      rw [full, if_pos (by omega)]
    · refine sum_congr rfl fun m hm => ?_
      rw [mem_Ico] at hm
      rw [full, if_neg (by omega)]
  have e2 : ∑ m ∈ Ico (N/2+1) N, (starRingEnd ℂ) (z (N-m)) = ∑ m ∈ range (N/2+1), if 0 < m ∧ 2*m < N then (starRingEnd ℂ) (z m) else 0 := by
    rw [← sum_filter]
    refine sum_bij' (fun m _ => N - m) (fun m _ => N - m) ?_ ?_ ?_ ?_ ?_
    · intro m hm; rw [mem_Ico] at hm; rw [mem_filter, mem_range]; omega
    · intro m hm; rw [mem_filter, mem_range] at hm; rw [mem_Ico]; omega
    · intro m hm; rw [mem_Ico] at hm; omega
    · intro m hm; rw [mem_filter, mem_range] at hm; omega
    · intro m _; rfl
  rw [e1, e2, ← sum_add_distrib, half]
  push_cast
  refine sum_congr rfl fun m hm => ?_
  rw [mem_range] at hm
  rw [mult]
  by_cases c : m = 0 ∨ 2*m = N
  · rw [if_neg (by omega), if_pos c, add_zero]
    have : (z m).im = 0 := by
      rcases c with rfl | c
      · exact h0
      · exact h1 m c
    apply Complex.ext <;> simp [this]
  · rw [if_pos (by omega), if_neg c]
    apply Complex.ext <;> simp; ring

theorem ew_half_real {N m : ℕ} (h : m = 0 ∨ 2*m = N) (s : ℤ) : (ew N (m*s)).im = 0 := by
  rcases h with rfl | h
  · simp [ew]
  · by_cases hN : N = 0
    · subst hN; simp [ew]
    have e : (starRingEnd ℂ) (ew N (m*s)) = ew N (m*s) := by
      rw [ew_conj, ← ew_periodic hN (-(m*s)) s]
      congr 1
      rw [← h]; push_cast; ring
    exact Complex.conj_eq_iff_im.1 e

/-- the part of a half spectrum that the transforms look at -/
def realEnds (N : ℕ) (a : ℕ → ℂ) (m : ℕ) : ℂ := if m = 0 ∨ 2*m = N then ((a m).re:ℂ) else a m

theorem realEnds_im {N m : ℕ} (a : ℕ → ℂ) (h : m = 0 ∨ 2*m = N) : (realEnds N a m).im = 0 := by rw [realEnds, if_pos h]; simp

theorem half_realEnds (N : ℕ) (a : ℕ → ℂ) (s : ℤ) : half N (fun m => (realEnds N a m*ew N (m*s)).re) = half N fun m => (a m*ew N (m*s)).re := by
  refine sum_congr rfl fun m _ => ?_
  congr 1
  beta_reduce
  rw [realEnds]
  split_ifs with h
  · rw [Complex.mul_re, Complex.mul_re, ew_half_real h]; simp
  · rfl

/-- the transform of a half spectrum is that of the full spectrum -/
theorem half_dft {N : ℕ} (hN : N ≠ 0) (a : ℕ → ℂ) (s : ℤ) :
    ((half N fun m => (a m*ew N (m*s)).re : ℝ):ℂ) = ∑ m ∈ range N, full N (realEnds N a) m*ew N (m*s) := by
  rw [← half_realEnds, ← half_full hN]
  · refine sum_congr rfl fun m hm => ?_
    rw [mem_range] at hm
    rw [full, full]
    split_ifs with h
    · rfl
    · rw [map_mul, ew_conj, ← ew_periodic hN (-(((N-m : ℕ):ℤ)*s)) s]
      congr 2
      push_cast [hm.le]; ring
  · rw [Complex.mul_im, ew_half_real (Or.inl rfl), realEnds_im a (Or.inl rfl)]; ring
  · intro m hm
    rw [Complex.mul_im, ew_half_real (Or.inr hm), realEnds_im a (Or.inr hm)]; ring

theorem rfft_ew (N : ℕ) (f : ℕ → ℝ) (m : ℕ) : rfft N f m = ∑ j ∈ range N, (f j:ℂ)*ew N (-(m*j)) := by
  refine sum_congr rfl fun j _ => ?_
  rw [ew]; congr 2; push_cast; ring

theorem hfft_ew (N : ℕ) (a : ℕ → ℂ) (n : ℕ) : hfft N a n = half N fun m => (a m*ew N (m*(-n))).re := by
  refine sum_congr rfl fun j _ => ?_
  beta_reduce
  rw [ew]; congr 4; push_cast; ring

theorem drfftb_ew (N : ℕ) (a : ℕ → ℂ) (n : ℕ) : drfftb N a n = half N fun m => (a m*ew N (m*n)).re := by
  refine sum_congr rfl fun j _ => ?_
  beta_reduce
  rw [ew]; congr 4; push_cast; ring

/-- the spectrum of a signal given by its half spectrum -/
theorem rfft_half {N : ℕ} (hN : N ≠ 0) (a : ℕ → ℂ) {m : ℕ} (hm : 2*m ≤ N) :
    rfft N (fun j => half N (fun m' => (a m'*ew N (m'*(j:ℤ))).re)/N) m = realEnds N a m := by
  have hm' : m < N := by omega
  have h0 : (N:ℂ) ≠ 0 := by exact_mod_cast hN
  rw [rfft_ew]
  have e : ∀ j ∈ range N, (((half N (fun m' => (a m'*ew N (m'*(j:ℤ))).re)/N : ℝ)):ℂ)*ew N (-(m*j)) = ∑ m' ∈ range N, full N (realEnds N a) m'/N*ew N (j*((m':ℤ) - m)) := by
    intro j _
    rw [ofReal_div, half_dft hN, ofReal_natCast, sum_div, sum_mul]
    refine sum_congr rfl fun m' _ => ?_
    rw [mul_div_right_comm, mul_assoc, ← ew_add]
    congr 2
    ring
  rw [sum_congr rfl e, sum_comm]
  have e2 : ∀ m' ∈ range N, ∑ j ∈ range N, full N (realEnds N a) m'/N*ew N (j*((m':ℤ) - m)) = if m' = m then full N (realEnds N a) m' else 0 := by
    intro m' h'
    rw [← mul_sum, ew_orth (mem_range.1 h') hm']
    split_ifs
    · field_simp
    · ring
  rw [sum_congr rfl e2, sum_ite_eq', if_pos (mem_range.2 hm'), full, if_pos hm]

/-- the kernel of a multiplication of the spectrum -/
def kern (N : ℕ) (u : ℕ → ℂ) (s : ℤ) : ℝ := half N (fun m => (u m*ew N (m*s)).re)/N

/-- multiplication of the spectrum is a convolution -/
theorem half_conv (N : ℕ) (f : ℕ → ℝ) (u : ℕ → ℂ) (s : ℤ) :
    half N (fun m => (rfft N f m*u m*ew N (m*s)).re)/N = ∑ j ∈ range N, f j*kern N u (s - j) := by
  have e : ∀ m, (rfft N f m*u m*ew N (m*s)).re = ∑ j ∈ range N, f j*(u m*ew N (m*(s - j))).re := by
    intro m
    rw [rfft_ew, sum_mul, sum_mul, re_sum]
    refine sum_congr rfl fun j _ => ?_
    rw [← re_ofReal_mul]
    congr 1
    rw [mul_sub, sub_eq_add_neg, ew_add]
    ring
  simp only [kern, half, e, mul_sum, sum_div]
  rw [sum_comm]
  refine sum_congr rfl fun j _ => sum_congr rfl fun m _ => ?_
  ring

theorem kern_full {N : ℕ} (hN : N ≠ 0) (u : ℕ → ℂ) (s : ℤ) : (kern N u s : ℂ) = (∑ m ∈ range N, full N (realEnds N u) m*ew N (m*s))/N := by
  rw [kern, ofReal_div, half_dft hN, ofReal_natCast]

theorem full_one {N : ℕ} (m : ℕ) : full N (realEnds N fun _ => 1) m = 1 := by
  have h : ∀ m, realEnds N (fun _ => 1) m = 1 := fun m => by rw [realEnds]; split_ifs <;> simp
  rw [full]; split_ifs <;> simp [h]

/-- the kernel of no change at all -/
theorem kern_one {N : ℕ} (hN : N ≠ 0) (s : ℤ) : kern N (fun _ => 1) s = if (N:ℤ) ∣ s then 1 else 0 := by
  have h0 : (N:ℂ) ≠ 0 := by exact_mod_cast hN
  have : ((kern N (fun _ => 1) s : ℝ):ℂ) = ((if (N:ℤ) ∣ s then 1 else 0 : ℝ):ℂ) := by
    rw [kern_full hN]
    simp only [full_one, one_mul]
    rw [ew_sum hN]
    split_ifs <;> simp [h0]
  exact_mod_cast this

theorem dvd_sub_iff {N j k : ℕ} (hj : j < N) (hk : k < N) : (N:ℤ) ∣ (j:ℤ) - k ↔ k = j := by
  constructor
  · rintro ⟨t, ht⟩
    have : t = 0 := by
      by_contra hne
      rcases lt_or_gt_of_ne hne with h1 | h1
      · nlinarith
      · nlinarith
    subst this
    omega
  · rintro rfl; simp

/-- inversion -/
theorem half_rfft {N : ℕ} (f : ℕ → ℝ) {j : ℕ} (hj : j < N) : half N (fun m => (rfft N f m*ew N (m*(j:ℤ))).re)/N = f j := by
  have hN : N ≠ 0 := by omega
  have := half_conv N f (fun _ => 1) j
  simp only [mul_one] at this
  rw [this]
  have e : ∀ k ∈ range N, f k*kern N (fun _ => 1) ((j:ℤ) - k) = if k = j then f k else 0 := by
    intro k hk
    rw [kern_one hN]
    simp only [dvd_sub_iff hj (mem_range.1 hk)]
    split_ifs <;> simp
  rw [sum_congr rfl e, sum_ite_eq', if_pos (mem_range.2 hj)]

theorem kern_periodic {N : ℕ} (hN : N ≠ 0) (u : ℕ → ℂ) (s t : ℤ) : kern N u (s + N*t) = kern N u s := by
  rw [kern, kern]
  congr 2
  funext m
  rw [mul_add, show (m:ℤ)*(N*t) = N*(m*t) by ring, ew_periodic hN]

theorem full_norm {N : ℕ} {u : ℕ → ℂ} (h : ∀ m, 2*m ≤ N → ‖realEnds N u m‖ = 1) {m : ℕ} : m < N → full N (realEnds N u) m*(starRingEnd ℂ) (full N (realEnds N u) m) = 1 := by
  intro hm
  rw [Complex.mul_conj, Complex.normSq_eq_norm_sq]
  have : ‖full N (realEnds N u) m‖ = 1 := by
    rw [full]
    split_ifs with c
    · exact h m c
    · rw [RCLike.norm_conj]; exact h _ (by omega)
  rw [this]; simp

/-- a kernel of unit phases is its own inverse -/
theorem kern_inv {N : ℕ} (hN : N ≠ 0) {u : ℕ → ℂ} (h : ∀ m, 2*m ≤ N → ‖realEnds N u m‖ = 1) (s t : ℤ) :
    ∑ k ∈ range N, kern N u (s - k)*kern N u (t - k) = if (N:ℤ) ∣ s - t then 1 else 0 := by
  have h0 : (N:ℂ) ≠ 0 := by exact_mod_cast hN
  have e : ∀ k ∈ range N, ((kern N u (s - k)*kern N u (t - k) : ℝ):ℂ) = ∑ m ∈ range N, ∑ m' ∈ range N, full N (realEnds N u) m*(starRingEnd ℂ) (full N (realEnds N u) m')*ew N (m*s - m'*t)/N^2*ew N (k*((m':ℤ) - m)) := by
    intro k _
    have c : ((kern N u (t - k) : ℝ):ℂ) = (starRingEnd ℂ) ((kern N u (t - k) : ℝ):ℂ) := (conj_ofReal _).symm
    rw [ofReal_mul, c, kern_full hN, kern_full hN, map_div₀, map_sum, map_natCast, div_mul_div_comm, sum_mul_sum, sum_div]
    refine sum_congr rfl fun m _ => ?_
    rw [sum_div]
    refine sum_congr rfl fun m' _ => ?_
    rw [map_mul, ew_conj]
    have e1 : ew N (m*(s-k))*ew N (-(m'*(t-k))) = ew N (m*s - m'*t)*ew N (k*((m':ℤ) - m)) := by
      rw [← ew_add, ← ew_add]; congr 1; ring
    have e2 : full N (realEnds N u) m*ew N (m*(s-k))*((starRingEnd ℂ) (full N (realEnds N u) m')*ew N (-(m'*(t-k)))) = full N (realEnds N u) m*(starRingEnd ℂ) (full N (realEnds N u) m')*(ew N (m*(s-k))*ew N (-(m'*(t-k)))) := by ring
    rw [e2, e1, pow_two]; ring
  have : ((∑ k ∈ range N, kern N u (s - k)*kern N u (t - k) : ℝ):ℂ) = ((if (N:ℤ) ∣ s - t then 1 else 0 : ℝ):ℂ) := by
    rw [ofReal_sum, sum_congr rfl e, sum_comm]
    have e2 : ∀ m ∈ range N, ∑ k ∈ range N, ∑ m' ∈ range N, full N (realEnds N u) m*(starRingEnd ℂ) (full N (realEnds N u) m')*ew N (m*s - m'*t)/N^2*ew N (k*((m':ℤ) - m)) = ew N (m*(s-t))/N := by
      intro m hm
      rw [sum_comm]
      have e3 : ∀ m' ∈ range N, ∑ k ∈ range N, full N (realEnds N u) m*(starRingEnd ℂ) (full N (realEnds N u) m')*ew N (m*s - m'*t)/N^2*ew N (k*((m':ℤ) - m)) = if m' = m then ew N (m*(s-t))/N else 0 := by
        intro m' hm'
        rw [← mul_sum, ew_orth (mem_range.1 hm') (mem_range.1 hm)]
        split_ifs with c
        · subst c
          rw [full_norm h (mem_range.1 hm'), mul_sub]
          field_simp
        · ring
      rw [sum_congr rfl e3, sum_ite_eq', if_pos hm]
    rw [sum_congr rfl e2, ← sum_div, ew_sum hN]
    split_ifs <;> simp [h0]
  exact_mod_cast this

end
end Verif.FFTLog
