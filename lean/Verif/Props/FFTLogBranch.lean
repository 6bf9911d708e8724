/-
C111: the method FFTLog of `ComputeXiLM`.
-/
import Verif.Props.FFTLogFortran
import Verif.Props.Spline

namespace Verif.FFTLog

open Complex Finset Verif.Xi

noncomputable section

theorem amin_eq {N : ℕ} {k : ℕ → ℝ} (hk : ∀ i, i < N → k 0 ≤ k i) : amin N k = k 0 := by
  have : ∀ n, n ≤ N → (List.range n).foldl (fun a i => min a (k i)) (k 0) = k 0 := by
    intro n
    induction n with
    | zero => intro _; rfl
    | succ n ih =>
      intro hn
      rw [List.range_succ, List.foldl_append, ih (by omega)]
      simp only [List.foldl_cons, List.foldl_nil]
      exact min_eq_left (hk n (by omega))
  exact this N le_rfl

theorem amax_eq {N : ℕ} (hN : 1 ≤ N) {k : ℕ → ℝ} (hk : ∀ i, i + 1 < N → k i < k (i+1)) : amax N k = k (N-1) := by
  have : ∀ n, n + 1 ≤ N → (List.range (n+1)).foldl (fun a i => max a (k i)) (k 0) = k n := by
    intro n
    induction n with
    | zero => intro _; simp
    | succ n ih =>
      intro hn
      rw [List.range_succ, List.foldl_append, ih (by omega)]
      simp only [List.foldl_cons, List.foldl_nil]
      exact max_eq_right (hk n (by omega)).le
  have h := this (N-1) (by omega)
  rwa [show N-1+1 = N by omega] at h

theorem ten_rpow_log10 {x : ℝ} (hx : 0 < x) : (10:ℝ)^(log10 x) = x := Real.rpow_logb (by norm_num) (by norm_num) hx

theorem log10_eq (x : ℝ) : log10 x*Real.log 10 = Real.log x := by
  rw [log10, Real.logb, div_mul_cancel₀]
  exact (Real.log_pos (by norm_num)).ne'

theorem ten_rpow (x : ℝ) : (10:ℝ)^x = Real.exp (x*Real.log 10) := by
  rw [Real.rpow_def_of_pos (by norm_num), mul_comm]

/-- the wavenumbers of the transform: from the first to the last, in equal ratios -/
theorem regrid_eq {N : ℕ} (hN : 2 ≤ N) {k : ℕ → ℝ} (h0 : 0 < k 0) (hk : ∀ i, i + 1 < N → k i < k (i+1)) (j : ℕ) :
    regrid N k j = k 0*Real.exp (j*(Real.log (k (N-1)/k 0)/((N:ℝ)-1))) := by
  have hl : k 0 ≤ k (N-1) := Spline.mono_le hk (Nat.zero_le _) (by omega)
  have hl' : 0 < k (N-1) := h0.trans_le hl
  have h1 : (N:ℝ) - 1 ≠ 0 := by
    have : (2:ℝ) ≤ N := by exact_mod_cast hN
    linarith
  simp only [regrid]
  rw [amin_eq (fun i hi => Spline.mono_le hk (Nat.zero_le _) hi), amax_eq (by omega) hk, ten_rpow, Real.log_div hl'.ne' h0.ne']
  nth_rw 3 [← Real.exp_log h0]
  rw [← Real.exp_add]
  congr 1
  rw [← log10_eq (k 0), ← log10_eq (k (N-1))]
  obtain ⟨A, hA⟩ : ∃ A, A = log10 (k 0) := ⟨_, rfl⟩
  obtain ⟨B, hB⟩ : ∃ B, B = log10 (k (N-1)) := ⟨_, rfl⟩
  rw [← hA, ← hB]
  field_simp
  ring

theorem regrid_log {N : ℕ} (hN : 2 ≤ N) {k : ℕ → ℝ} (h0 : 0 < k 0) (hk : ∀ i, i + 1 < N → k i < k (i+1)) :
    LogGrid N (Real.log (k (N-1)/k 0)/((N:ℝ)-1)) (regrid N k) ∧ 0 < Real.log (k (N-1)/k 0)/((N:ℝ)-1) := by
  have h1 : 0 < (N:ℝ) - 1 := by
    have : (2:ℝ) ≤ N := by exact_mod_cast hN
    linarith
  have hl : k 0 < k (N-1) := (hk 0 (by omega)).trans_le (Spline.mono_le hk (by omega) (by omega))
  have hp : 0 < Real.log (k (N-1)/k 0)/((N:ℝ)-1) := div_pos (Real.log_pos ((one_lt_div h0).2 hl)) h1
  refine ⟨⟨hN, hp.ne', ?_, fun j _ => ?_⟩, hp⟩
  · rw [regrid_eq hN h0 hk]; positivity
  · rw [regrid_eq hN h0 hk, regrid_eq hN h0 hk 0]; simp

/-- the separations of the transform increase -/
theorem xiR_mono (L : ℂ → ℂ) (l : ℕ) (q : ℝ) {N : ℕ} {Δ : ℝ} {k : ℕ → ℝ} (G : LogGrid N Δ k) (hΔ : 0 < Δ) (i : ℕ) : xiR L l N q k i < xiR L l N q k (i+1) := by
  obtain ⟨p, e⟩ := xiR_log (L := L) (l := l) (q := q) G i
  obtain ⟨p', e'⟩ := xiR_log (L := L) (l := l) (q := q) G (i+1)
  rw [← Real.log_lt_log_iff p p', e, e']
  push_cast
  nlinarith

/-- **C111** (`ComputeXiLM`, method FFTLog): for every table with increasing wavenumbers, the table is first put on as many log-spaced wavenumbers, with the same ends, by a cubic spline; at each of the log-spaced separations of the transform, the result is exactly `∫ k^m dk/2π² P(k) jℓ(kr)` of the function that interpolates the smoothed values -/
theorem C111_method_fftlog {L : ℂ → ℂ} (hL : IsLogGamma L) (l m : ℕ) (smoothing : ℝ) {N : ℕ} (hN : 2 ≤ N) {k pk : ℕ → ℝ} (h0 : 0 < k 0) (hk : ∀ i, i + 1 < N → k i < k (i+1)) (s t : Spline.Arr) :
    ∃ κ p ρ : ℕ → ℝ, ∃ Δ, LogGrid N Δ κ ∧ κ 0 = k 0 ∧ κ (N-1) = k (N-1) ∧ LogGrid N Δ ρ ∧
      (∀ j, j < N → Spline.evaluate (Spline.cubic N k pk s) (κ j) = some (p j)) ∧
      (∀ F, Interp N Δ (κ 0) (m - 1/2) (fun j => p j*Real.exp (-(κ j*smoothing)^2)) F → ∀ i, i < N → ∃ ξ, xiLM L l m N smoothing k pk s t (ρ i) = some ξ ∧ Integral (fun u => u^m/(2*Real.pi^2)*F u*sph l (u*ρ i)) ξ) ∧
      ∀ r, r < ρ 0 ∨ ρ (N-1) < r → xiLM L l m N smoothing k pk s t r = some 0 := by
  obtain ⟨G, hΔ⟩ := regrid_log hN h0 hk
  obtain ⟨Δ, hΔd⟩ : ∃ Δ, Δ = Real.log (k (N-1)/k 0)/((N:ℝ)-1) := ⟨_, rfl⟩
  rw [← hΔd] at G hΔ
  have h1 : (N:ℝ) - 1 ≠ 0 := by
    have : (2:ℝ) ≤ N := by exact_mod_cast hN
    linarith
  have hl : k 0 ≤ k (N-1) := Spline.mono_le hk (Nat.zero_le _) (by omega)
  have e0 : regrid N k 0 = k 0 := by rw [regrid_eq hN h0 hk]; simp
  have e1 : regrid N k (N-1) = k (N-1) := by
    rw [regrid_eq hN h0 hk, Nat.cast_sub (by omega), Nat.cast_one, mul_div_assoc', mul_comm ((N:ℝ)-1), mul_div_assoc, div_self h1, mul_one, Real.exp_log (div_pos (h0.trans_le hl) h0)]
    field_simp
  have inside : ∀ j, j < N → regrid N k j ∈ Set.Icc (k 0) (k (N-1)) := by
    intro j hj
    have a : (j:ℝ) ≤ (N-1:ℕ) := by exact_mod_cast (by omega : j ≤ N-1)
    have hp := G.pos
    constructor
    · rw [← e0, G.spaced j hj]
      have : 1 ≤ Real.exp (j*Δ) := Real.one_le_exp (by positivity)
      nlinarith
    · rw [← e1, G.spaced j hj, G.spaced (N-1) (by omega)]
      exact mul_le_mul_of_nonneg_left (Real.exp_le_exp.2 (by nlinarith)) hp.le
  obtain ⟨-, P, P', P'', hP, -⟩ := Spline.C108_cubic hN hk pk s
  have hp : ∀ j, j < N → Spline.evaluate (Spline.cubic N k pk s) (regrid N k j) = some (P (regrid N k j)) := fun j hj => (hP _ (inside j hj)).1
  have all : (List.range N).all (fun i => (Spline.evaluate (Spline.cubic N k pk s) (regrid N k i)).isSome) = true := by
    rw [List.all_eq_true]
    intro i hi
    rw [List.mem_range] at hi
    rw [hp i hi]; rfl
  have hv : ∀ r, xiLM L l m N smoothing k pk s t r = Spline.evaluate (Spline.cubic N (xiR L l N 0 (regrid N k)) (xiFFTLog L l m N 0 smoothing (regrid N k) fun i => (Spline.evaluate (Spline.cubic N k pk s) (regrid N k i)).getD 0) t) r := by
    intro r
    simp only [xiLM]
    rw [if_pos all]
  refine ⟨regrid N k, fun j => P (regrid N k j), xiR L l N 0 (regrid N k), Δ, G, e0, e1, ⟨hN, G.step, (xiR_log G 0).1, fun j _ => ?_⟩, hp, fun F hF i hi => ?_, fun r hr => ?_⟩
  · obtain ⟨p0, l0⟩ := xiR_log (L := L) (l := l) (q := 0) G 0
    obtain ⟨pj, lj⟩ := xiR_log (L := L) (l := l) (q := 0) G j
    rw [← Real.exp_log pj, ← Real.exp_log p0, ← Real.exp_add, l0, lj]
    congr 1
    push_cast
    ring
  · refine ⟨_, (hv _).trans ((Spline.C108_cubic hN (fun i _ => xiR_mono L l 0 G hΔ i) _ t).1 i hi), ?_⟩
    refine C111_xi_fftlog hL l m (by norm_num) (by norm_num) smoothing G _ ?_ hi
    rw [sub_zero]
    refine ⟨hF.wave, fun j hj => ?_⟩
    rw [hF.hits j hj, hp j hj]
    rfl
  · rw [hv]
    exact (Spline.C108_outside _ hr).1

/-- **C111** (`ComputeXiLM`, method FFTLog): and for a table that is log-spaced already, the values are those of the table -/
theorem C111_method_fftlog_table {L : ℂ → ℂ} (hL : IsLogGamma L) (l m : ℕ) (smoothing : ℝ) {N : ℕ} {Δ : ℝ} (hΔ : 0 < Δ) {k pk : ℕ → ℝ} (G : LogGrid N Δ k) (s t : Spline.Arr) :
    ∃ ρ : ℕ → ℝ, LogGrid N Δ ρ ∧ ∀ F, Interp N Δ (k 0) (m - 1/2) (fun j => pk j*Real.exp (-(k j*smoothing)^2)) F → ∀ i, i < N → ∃ ξ, xiLM L l m N smoothing k pk s t (ρ i) = some ξ ∧ Integral (fun u => u^m/(2*Real.pi^2)*F u*sph l (u*ρ i)) ξ := by
  have hk : ∀ i, i + 1 < N → k i < k (i+1) := by
    intro i hi
    have h0 := G.pos
    rw [G.spaced i (by omega), G.spaced (i+1) hi]
    refine mul_lt_mul_of_pos_left (Real.exp_lt_exp.2 ?_) h0
    push_cast
    nlinarith
  obtain ⟨κ, p, ρ, Δ', G', e0, e1, Gρ, hp, h, -⟩ := C111_method_fftlog hL l m smoothing G.two (pk := pk) G.pos hk s t
  have two := G.two
  have eΔ : Δ' = Δ := by
    rw [← G'.delta_eq, ← G.delta_eq, delta, delta, e0, e1]
  rw [eΔ] at G' Gρ h
  have eκ : ∀ j, j < N → κ j = k j := by
    intro j hj
    rw [G'.spaced j hj, e0, ← G.spaced j hj]
  refine ⟨ρ, Gρ, fun F hF i hi => h F ⟨?_, fun j hj => ?_⟩ i hi⟩
  · rw [e0]; exact hF.wave
  · rw [e0, hF.hits j hj, eκ j hj]
    have := hp j hj
    rw [eκ j hj, (Spline.C108_cubic two hk pk s).1 j hj] at this
    rw [Option.some.inj this]

/-! ### the hypotheses are met -/

/-- a table of four wavenumbers that are not log-spaced -/
example : ∃ ρ : ℕ → ℝ, ∀ r, ρ 3 < r → xiLM (fun z => Complex.log (Gamma z)) 0 2 4 1 (fun i => (i:ℝ)+1) (fun i => (i:ℝ)^2) ⟨fun _ => 0, fun _ => 0, fun _ => 0⟩ ⟨fun _ => 0, fun _ => 0, fun _ => 0⟩ r = some 0 := by
  obtain ⟨-, -, ρ, -, -, -, -, -, -, -, h⟩ := C111_method_fftlog isLogGamma_log 0 2 1 (N := 4) (by norm_num) (k := fun i => (i:ℝ)+1) (pk := fun i => (i:ℝ)^2) (by norm_num) (fun i _ => by push_cast; linarith) ⟨fun _ => 0, fun _ => 0, fun _ => 0⟩ ⟨fun _ => 0, fun _ => 0, fun _ => 0⟩
  exact ⟨ρ, fun r hr => h r (Or.inr hr)⟩

end
end Verif.FFTLog
