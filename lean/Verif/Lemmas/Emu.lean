/-
Lemmas for C137.
-/
import Verif.Model.EmuTables
import Verif.Props.Spline
import Verif.Props.SimFit

namespace Verif.Emu

open Set

noncomputable section

/-- What is used of the tables: positive precisions and inverse lengths, increasing wavenumbers and scale factors, the output inside of the range of the components, and snapshots from redshift 4 to 0. -/
structure Table.Good (T : Table) : Prop where
  lamz : ∀ i, 0 < T.lamz i
  lamws : ∀ i, 0 < T.lamws i
  beta : ∀ i l, 0 < T.beta i l
  nk : 2 ≤ T.nk
  rs : 2 ≤ T.rs
  ns : 2 ≤ T.ns
  kemu : ∀ i, i + 1 < T.nk → T.kemu i < T.kemu (i+1)
  ksim : ∀ i, i + 1 < T.ns → T.ksim i < T.ksim (i+1)
  kpos : 0 < T.ksim 0
  klo : T.kemu 0 ≤ T.ksim 0
  khi : T.ksim (T.ns-1) ≤ T.kemu (T.nk-1)
  aemu : ∀ i, i + 1 < T.rs → T.aemu i < T.aemu (i+1)
  afirst : T.aemu 0 = 1 / 5
  alast : T.aemu (T.rs-1) = 1

/-! ### The tables that are shipped -/

/-- whether a list increases -/
def inc : List ℕ → Bool
  | a :: b :: l => Nat.blt a b && inc (b :: l)
  | _ => true

theorem inc_getD : ∀ (l : List ℕ), inc l = true → ∀ i, i + 1 < l.length → l.getD i 0 < l.getD (i+1) 0
  | [], _, i, h => by simp at h
  | [_], _, i, h => by simp at h
  | a :: b :: l, h, 0, _ => by
    simp only [inc, Bool.and_eq_true, Nat.blt_eq] at h
    simpa using h.1
  | a :: b :: l, h, i+1, hi => by
    simp only [inc, Bool.and_eq_true] at h
    have := inc_getD (b :: l) h.2 i (by simpa using hi)
    simpa using this

theorem inc_div {l : List ℕ} (h : inc l = true) {c : ℝ} (hc : 0 < c) {i : ℕ} (hi : i + 1 < l.length) : ((l.getD i 0 : ℕ) : ℝ) / c < ((l.getD (i+1) 0 : ℕ) : ℝ) / c :=
  (div_lt_div_iff_of_pos_right hc).2 (Nat.cast_lt.2 (inc_getD l h i hi))

set_option maxRecDepth 20000 in
theorem ksimN_inc : inc ksimN = true := by decide

set_option maxRecDepth 20000 in
theorem kemuN_inc : inc kemuN = true := by decide

theorem aemuN_inc : inc aemuN = true := by decide

set_option maxRecDepth 20000 in
theorem ksimN_length : ksimN.length = 582 := by decide

set_option maxRecDepth 20000 in
theorem kemuN_length : kemuN.length = 500 := by decide

set_option maxRecDepth 20000 in
theorem ksimN_last : ksimN.getD 581 0 = 85692000000000000000 := by decide

set_option maxRecDepth 20000 in
theorem kemuN_last : kemuN.getD 499 0 = 856920000 := by decide

theorem betaN_pos : ∀ (i : Fin 9) (l : Fin 6), 0 < betaN.getD (6*(i:ℕ) + (l:ℕ)) 0 := by decide

theorem betaNohN_pos : ∀ (i : Fin 6) (l : Fin 5), 0 < betaNohN.getD (5*(i:ℕ) + (l:ℕ)) 0 := by decide

theorem lamzN_pos : ∀ i : Fin 9, 0 < lamzN.getD (i:ℕ) 0 := by decide
theorem lamwsN_pos : ∀ i : Fin 9, 0 < lamwsN.getD (i:ℕ) 0 := by decide
theorem lamzNohN_pos : ∀ i : Fin 6, 0 < lamzNohN.getD (i:ℕ) 0 := by decide
theorem lamwsNohN_pos : ∀ i : Fin 6, 0 < lamwsNohN.getD (i:ℕ) 0 := by decide

theorem cast_div_pos {n : ℕ} (h : 0 < n) {c : ℝ} (hc : 0 < c) : 0 < (n : ℝ) / c := div_pos (Nat.cast_pos.2 h) hc

theorem shipped_good (x w K mean) : (shipped x w K mean).Good where
  lamz := fun i => cast_div_pos (lamzN_pos i) (by norm_num)
  lamws := fun i => cast_div_pos (lamwsN_pos i) (by norm_num)
  beta := fun i l => cast_div_pos (betaN_pos i l) (by norm_num)
  nk := by simp [shipped]
  rs := by simp [shipped]
  ns := by simp [shipped]
  kemu := fun i hi => inc_div kemuN_inc (by norm_num) (by rw [kemuN_length]; exact hi)
  ksim := fun i hi => inc_div ksimN_inc (by norm_num) (by rw [ksimN_length]; exact hi)
  kpos := cast_div_pos (by decide) (by norm_num)
  klo := by
    show ((kemuN.getD 0 0 : ℕ) : ℝ) / 10 ^ 8 ≤ ((ksimN.getD 0 0 : ℕ) : ℝ) / 10 ^ 19
    rw [show kemuN.getD 0 0 = 86940 from rfl, show ksimN.getD 0 0 = 8694000000000000 from rfl]
    norm_num
  khi := by
    show ((ksimN.getD 581 0 : ℕ) : ℝ) / 10 ^ 19 ≤ ((kemuN.getD 499 0 : ℕ) : ℝ) / 10 ^ 8
    rw [ksimN_last, kemuN_last]
    norm_num
  aemu := fun i hi => inc_div aemuN_inc (by norm_num) hi
  afirst := by
    show ((aemuN.getD 0 0 : ℕ) : ℝ) / 10 ^ 4 = 1 / 5
    rw [show aemuN.getD 0 0 = 2000 from rfl]
    norm_num
  alast := by
    show ((aemuN.getD 10 0 : ℕ) : ℝ) / 10 ^ 4 = 1
    rw [show aemuN.getD 10 0 = 10000 from rfl]
    norm_num

theorem shippedNoh_good (x w K mean) : (shippedNoh x w K mean).Good where
  lamz := fun i => cast_div_pos (lamzNohN_pos i) (by norm_num)
  lamws := fun i => cast_div_pos (lamwsNohN_pos i) (by norm_num)
  beta := fun i l => cast_div_pos (betaNohN_pos i l) (by norm_num)
  nk := by simp [shippedNoh]
  rs := by simp [shippedNoh]
  ns := by simp [shippedNoh]
  kemu := fun i hi => inc_div kemuN_inc (by norm_num) (by rw [kemuN_length]; exact hi)
  ksim := fun i hi => inc_div ksimN_inc (by norm_num) (by rw [ksimN_length]; exact hi)
  kpos := cast_div_pos (by decide) (by norm_num)
  klo := (shipped_good 0 0 0 0).klo
  khi := (shipped_good 0 0 0 0).khi
  aemu := fun i hi => inc_div aemuN_inc (by norm_num) hi
  afirst := (shipped_good 0 0 0 0).afirst
  alast := (shipped_good 0 0 0 0).alast

/-! ### Linear interpolation -/

theorem bsearch_spec {X : ℕ → ℝ} {x : ℝ} : ∀ (fuel lo hi : ℕ), hi - lo ≤ fuel + 1 → lo < hi → X lo ≤ x → x ≤ X hi →
    lo ≤ bsearch X x fuel lo hi ∧ bsearch X x fuel lo hi + 1 ≤ hi ∧ X (bsearch X x fuel lo hi) ≤ x ∧ x ≤ X (bsearch X x fuel lo hi + 1)
  | 0, lo, hi, hf, hl, h0, h1 => by
    have : hi = lo + 1 := by omega
    subst this
    exact ⟨le_rfl, le_rfl, h0, h1⟩
  | fuel+1, lo, hi, hf, hl, h0, h1 => by
    rw [bsearch]
    by_cases h : lo + 1 < hi
    · rw [if_pos h]
      by_cases hx : x < X ((lo + hi) / 2)
      · rw [if_pos hx]
        obtain ⟨a, b, c, d⟩ := bsearch_spec fuel lo ((lo + hi) / 2) (by omega) (by omega) h0 hx.le
        exact ⟨a, by omega, c, d⟩
      · rw [if_neg hx]
        obtain ⟨a, b, c, d⟩ := bsearch_spec fuel ((lo + hi) / 2) hi (by omega) (by omega) (not_lt.1 hx) h1
        exact ⟨by omega, b, c, d⟩
    · rw [if_neg h]
      have : hi = lo + 1 := by omega
      subst this
      exact ⟨le_rfl, le_rfl, h0, h1⟩

/-- the linear interpolation is the chord over the interval of the table -/
theorem linEval_chord {n : ℕ} {X : ℕ → ℝ} (hn : 2 ≤ n) (hX : ∀ i, i + 1 < n → X i < X (i+1)) (Y : ℕ → ℝ) {j : ℕ} (hj : j + 1 < n) {x : ℝ} (h0 : X j ≤ x) (h1 : x ≤ X (j+1)) :
    linEval n X Y x = chord (X j) (Y j) (X (j+1)) (Y (j+1)) x := by
  have a0 : X 0 ≤ x := (Spline.mono_le hX (Nat.zero_le j) (by omega)).trans h0
  have a1 : x ≤ X (n-1) := h1.trans (Spline.mono_le hX (show j + 1 ≤ n - 1 by omega) (by omega))
  obtain ⟨_, hi, b0, b1⟩ := bsearch_spec (X := X) (x := x) n 0 (n-1) (by omega) (by omega) a0 a1
  obtain ⟨i, e⟩ : ∃ i, i = bsearch X x n 0 (n-1) := ⟨_, rfl⟩
  rw [← e] at hi b0 b1
  have hi' : i + 1 < n := by omega
  have e1 := Spline.linear_piece hn hX Y hi' b0 b1
  have e2 := Spline.linear_piece hn hX Y hj h0 h1
  rw [e1] at e2
  have e3 := Option.some.inj e2
  have hw := sub_pos.2 (hX i hi')
  have hw' := sub_pos.2 (hX j hj)
  unfold linEval
  rw [← e]
  dsimp only
  rw [if_pos hw, show Y i + (x - X i) / (X (i+1) - X i) * (Y (i+1) - Y i) = Y i + (Y (i+1) - Y i) * (x - X i) / (X (i+1) - X i) by ring, e3]
  unfold chord
  have : X (j+1) - X j ≠ 0 := hw'.ne'
  field_simp
  ring

variable {T : Table}

theorem zemu_step (hT : T.Good) {r : ℕ} (hr : r + 1 < T.rs) : zemu T r < zemu T (r+1) := by
  have h := hT.aemu (T.rs - (r+1) - 1) (by omega)
  have e : T.rs - (r+1) - 1 + 1 = T.rs - r - 1 := by omega
  rw [e] at h
  have hpos : 0 < T.aemu (T.rs - (r+1) - 1) := by
    have := Spline.mono_le hT.aemu (Nat.zero_le (T.rs - (r+1) - 1)) (by omega)
    rw [hT.afirst] at this
    linarith
  unfold zemu
  have := one_div_lt_one_div_of_lt hpos h
  linarith

/-- the output at a wavenumber and a redshift between the points of the tables -/
theorem atZ_chord (hT : T.Good) (u : Fin T.p → ℝ) {i c r : ℕ} (hc : c + 1 < T.nk) (hr : r + 1 < T.rs) {z : ℝ} (k0 : T.kemu c ≤ T.ksim i) (k1 : T.ksim i ≤ T.kemu (c+1))
    (z0 : 1 / T.aemu (r+1) - 1 ≤ z) (z1 : z ≤ 1 / T.aemu r - 1) :
    atZ T u z i = chord (1 / T.aemu (r+1) - 1) (chord (T.kemu c) (ystaremu T u ((r+1)*T.nk + c)) (T.kemu (c+1)) (ystaremu T u ((r+1)*T.nk + (c+1))) (T.ksim i))
      (1 / T.aemu r - 1) (chord (T.kemu c) (ystaremu T u (r*T.nk + c)) (T.kemu (c+1)) (ystaremu T u (r*T.nk + (c+1))) (T.ksim i)) z := by
  obtain ⟨s, hs⟩ : ∃ s, s = T.rs - (r+1) - 1 := ⟨_, rfl⟩
  have e1 : T.rs - s - 1 = r + 1 := by omega
  have e2 : T.rs - (s+1) - 1 = r := by omega
  have y : ∀ r', ystarAllz T u r' i = chord (T.kemu c) (ystaremu T u (r'*T.nk + c)) (T.kemu (c+1)) (ystaremu T u (r'*T.nk + (c+1))) (T.ksim i) := fun r' =>
    linEval_chord hT.nk hT.kemu (fun c => ystaremu T u (r'*T.nk + c)) hc k0 k1
  have := linEval_chord hT.rs (X := zemu T) (fun i hi => zemu_step hT hi) (fun r => ystarAllz T u (T.rs-r-1) i) (j := s) (x := z) (by omega)
    (by unfold zemu; rw [e1]; exact z0) (by unfold zemu; rw [e2]; exact z1)
  unfold atZ
  rw [this]
  unfold zemu
  rw [e1, e2, y, y]

/-! ### The weights -/

theorem kernel_eq (hT : T.Good) (i : Fin T.q) (u v : Fin T.p → ℝ) :
    Real.exp (-∑ k, T.beta i k * (v k - u k) ^ 2) / T.lamz i = SimFit.gaussian (1 / T.lamz i) (fun k => 1 / (2 * T.beta i k)) u v := by
  unfold SimFit.gaussian
  have : (∑ a, (u a - v a) ^ 2 / (1 / (2 * T.beta i a))) = 2 * ∑ k, T.beta i k * (v k - u k) ^ 2 := by
    rw [Finset.mul_sum]
    refine Finset.sum_congr rfl fun a _ => ?_
    have := (hT.beta i a).ne'
    field_simp
    ring
  rw [this, show -(2 * ∑ k, T.beta i k * (v k - u k) ^ 2) / 2 = -∑ k, T.beta i k * (v k - u k) ^ 2 by ring]
  ring

theorem inv_sqrt_sq {a : ℝ} (h : 0 < a) : (1 / Real.sqrt a) ^ 2 = 1 / a := by
  rw [div_pow, Real.sq_sqrt h.le]; simp

theorem sigmaSim_eq (hT : T.Good) (i : Fin T.q) :
    sigmaSim T i = SimFit.GP.cov ⟨T.m, T.p, fun u v => 1 / T.lamz i * GPKernel.gauss (fun k => 1 / (2 * T.beta i k)) u v, T.x, fun _ => 1 / Real.sqrt (T.lamws i)⟩ := by
  ext j k
  unfold sigmaSim SimFit.GP.cov
  dsimp only
  have hk : ∀ u v, 1 / T.lamz i * GPKernel.gauss (fun k => 1 / (2 * T.beta i k)) u v = SimFit.gaussian (1 / T.lamz i) (fun k => 1 / (2 * T.beta i k)) u v := by
    intro u v; unfold SimFit.gaussian GPKernel.gauss; congr 2; ring
  rw [hk, ← kernel_eq hT, inv_sqrt_sq (hT.lamws i)]
  split_ifs with h
  · subst h; simp
  · rw [add_zero]
    congr 3
    exact Finset.sum_congr rfl fun l _ => by ring

theorem sigmaSim_posDef (hT : T.Good) (i : Fin T.q) : (sigmaSim T i).PosDef := by
  rw [sigmaSim_eq hT]
  exact SimFit.gauss_cov (one_div_pos.2 (hT.lamz i)) (fun a => one_div_pos.2 (mul_pos two_pos (hT.beta i a))) _ _
    (Or.inl fun _ => (one_div_pos.2 (Real.sqrt_pos.2 (hT.lamws i))).ne')

theorem wstar_isMean (hT : T.Good) (i : Fin T.q) :
    SimFit.IsMean (SimFit.gaussian (1 / T.lamz i) (fun k => 1 / (2 * T.beta i k))) T.x (fun _ => 1 / Real.sqrt (T.lamws i)) (T.w i) (fun u => wstar T u i) := by
  have hp := sigmaSim_posDef hT i
  have hu : IsUnit (sigmaSim T i).det := (Matrix.isUnit_iff_isUnit_det _).1 hp.isUnit
  refine ⟨krig T i, fun j => ?_, fun u => ?_⟩
  · have h : (sigmaSim T i).mulVec (krig T i) = T.w i := by
      unfold krig
      rw [Matrix.mulVec_mulVec, Matrix.mul_nonsing_inv _ hu, Matrix.one_mulVec]
    rw [← congrFun h j, inv_sqrt_sq (hT.lamws i)]
    have e : ∀ k, sigmaSim T i j k = SimFit.gaussian (1 / T.lamz i) (fun k => 1 / (2 * T.beta i k)) (T.x j) (T.x k) + if j = k then 1 / T.lamws i else 0 := by
      intro k
      rw [← kernel_eq hT]
      unfold sigmaSim
      split_ifs with h
      · subst h; simp
      · rw [add_zero]
        congr 3
        exact Finset.sum_congr rfl fun l _ => by ring
    simp only [Matrix.mulVec, dotProduct, e, add_mul, Finset.sum_add_distrib, ite_mul, zero_mul, Finset.sum_ite_eq, Finset.mem_univ, if_true]
  · unfold wstar
    refine Finset.sum_congr rfl fun j _ => ?_
    rw [← kernel_eq hT]
    rfl

theorem mean_eq (hT : T.Good) {i : Fin T.q} {f : (Fin T.p → ℝ) → ℝ}
    (hf : SimFit.IsMean (SimFit.gaussian (1 / T.lamz i) (fun k => 1 / (2 * T.beta i k))) T.x (fun _ => 1 / Real.sqrt (T.lamws i)) (T.w i) f) : f = fun u => wstar T u i :=
  (SimFit.C129_unique (one_div_pos.2 (hT.lamz i)) (fun a => one_div_pos.2 (mul_pos two_pos (hT.beta i a)))
    (fun _ => (one_div_pos.2 (Real.sqrt_pos.2 (hT.lamws i))).ne')).unique hf (wstar_isMean hT i)

theorem convert_power {k : ℝ} (hk : 0 < k) (y : ℝ) : convert 2 k y = 2 * Real.pi ^ 2 * (10:ℝ) ^ y / k ^ (3 / 2 : ℝ) := by
  unfold convert
  rw [if_neg (by norm_num), if_pos rfl, Real.rpow_sub (by norm_num), mul_comm (1.5:ℝ), Real.rpow_mul (by norm_num), Real.rpow_logb (by norm_num) (by norm_num) hk,
    show (1.5:ℝ) = 3 / 2 by norm_num]
  ring

end

end Verif.Emu
