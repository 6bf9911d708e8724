/-
C55, smooth integrands: the error of the Simpson rule of the code and of the multipoles computed with it.
-/
import Verif.Lemmas.Simpson
import Verif.Props.Quad

namespace Verif.Quad

open Set Verif.Simpson Verif.Legendre Verif.Transfers

noncomputable section

/-- Specification: `f` has four derivatives on `[a, b]`, the second at most `M2` and the fourth at most `M4`. -/
def Smooth4 (f : ℝ → ℝ) (a b M2 M4 : ℝ) : Prop :=
  ∃ f1 f2 f3 f4 : ℝ → ℝ, (∀ x ∈ Icc a b, HasDerivWithinAt f (f1 x) (Icc a b) x) ∧ (∀ x ∈ Icc a b, HasDerivWithinAt f1 (f2 x) (Icc a b) x) ∧
    (∀ x ∈ Icc a b, HasDerivWithinAt f2 (f3 x) (Icc a b) x) ∧ (∀ x ∈ Icc a b, HasDerivWithinAt f3 (f4 x) (Icc a b) x) ∧
    (∀ x ∈ Icc a b, |f2 x| ≤ M2) ∧ ∀ x ∈ Icc a b, |f4 x| ≤ M4

theorem Smooth4.mono {f : ℝ → ℝ} {a b a' b' M2 M4 : ℝ} (h : Smooth4 f a b M2 M4) (ha : a ≤ a') (hb : b' ≤ b) : Smooth4 f a' b' M2 M4 := by
  obtain ⟨f1, f2, f3, f4, h0, h1, h2, h3, h4, h5⟩ := h
  have hs : Icc a' b' ⊆ Icc a b := Icc_subset_Icc ha hb
  exact ⟨f1, f2, f3, f4, fun x hx => (h0 x (hs hx)).mono hs, fun x hx => (h1 x (hs hx)).mono hs, fun x hx => (h2 x (hs hx)).mono hs,
    fun x hx => (h3 x (hs hx)).mono hs, fun x hx => h4 x (hs hx), fun x hx => h5 x (hs hx)⟩

theorem Smooth4.continuousOn {f : ℝ → ℝ} {a b M2 M4 : ℝ} (h : Smooth4 f a b M2 M4) : ContinuousOn f (Icc a b) := by
  obtain ⟨f1, f2, f3, f4, h0, -⟩ := h
  exact fun x hx => (h0 x hx).continuousWithinAt

theorem Smooth4.integrable {f : ℝ → ℝ} {a b M2 M4 : ℝ} (h : Smooth4 f a b M2 M4) {x y : ℝ} (hx : x ∈ Icc a b) (hy : y ∈ Icc a b) :
    IntervalIntegrable f MeasureTheory.volume x y :=
  (h.continuousOn.mono (ordConnected_Icc.uIcc_subset hx hy)).intervalIntegrable

/-- Equal spacing: one panel. -/
theorem panel_uniform (u h : ℝ) (hh : h ≠ 0) (y : ℕ → ℝ) (i : ℕ) :
    panel (fun j => u + j * h) y i = h / 3 * (y i + 4 * y (i + 1) + y (i + 2)) := by
  have e0 : (u + ((i + 1 : ℕ) : ℝ) * h) - (u + (i : ℝ) * h) = h := by push_cast; ring
  have e1 : (u + ((i + 2 : ℕ) : ℝ) * h) - (u + ((i + 1 : ℕ) : ℝ) * h) = h := by push_cast; ring
  simp only [panel, e0, e1]
  field_simp
  ring

theorem panels_error {f : ℝ → ℝ} (u h M2 M4 : ℝ) (hh : 0 < h) (start : ℕ) : ∀ M : ℕ,
    Smooth4 f (u + start * h) (u + (start + 2 * M : ℕ) * h) M2 M4 →
    |∑ m ∈ Finset.range M, panel (fun j => u + j * h) (fun j => f (u + j * h)) (start + 2 * m) -
      ∫ x in (u + start * h)..(u + (start + 2 * M : ℕ) * h), f x| ≤ M * (M4 * h ^ 5 / 90)
  | 0, _ => by simp
  | M + 1, hs => by
    have hle : u + (start : ℝ) * h ≤ u + (start + 2 * M : ℕ) * h := by push_cast; nlinarith [Nat.cast_nonneg (α := ℝ) M]
    have hle2 : u + (start + 2 * M : ℕ) * h ≤ u + (start + 2 * (M + 1) : ℕ) * h := by push_cast; nlinarith
    have ih := panels_error u h M2 M4 hh start M (hs.mono le_rfl hle2)
    have hp := hs.mono hle le_rfl
    have hc1 : u + (start + 2 * M : ℕ) * h = (u + (start + 2 * M + 1 : ℕ) * h) - h := by push_cast; ring
    have hc2 : u + (start + 2 * (M + 1) : ℕ) * h = (u + (start + 2 * M + 1 : ℕ) * h) + h := by push_cast; ring
    rw [Finset.sum_range_succ, panel_uniform u h hh.ne',
      ← intervalIntegral.integral_add_adjacent_intervals (b := u + (start + 2 * M : ℕ) * h) (hs.integrable ⟨le_rfl, hle.trans hle2⟩ ⟨hle, hle2⟩)
        (hs.integrable ⟨hle, hle2⟩ ⟨hle.trans hle2, le_rfl⟩)]
    have hc3 : ((start + 2 * M + 2 : ℕ) : ℝ) = ((start + 2 * (M + 1) : ℕ) : ℝ) := by push_cast; ring
    beta_reduce
    rw [hc3]
    rw [hc1, hc2] at hp
    obtain ⟨f1, f2, f3, f4, h0, h1, h2, h3, -, h5⟩ := hp
    have hpan := simpson_panel _ h M4 hh.le h0 h1 h2 h3 h5
    rw [← hc1, ← hc2] at hpan
    have := (abs_add_le _ _).trans (add_le_add ih hpan)
    refine le_trans (le_of_eq ?_) (this.trans (le_of_eq ?_))
    · congr 1; ring
    · push_cast; ring

/-- C55: with an odd number of equally spaced points, the error of the Simpson rule is at most `M4 h^4/180` times the length, `M4` a bound on
the fourth derivative. -/
theorem C55_simps_error {f : ℝ → ℝ} (N : ℕ) (hN : 3 ≤ N) (hodd : N % 2 = 1) (u h M2 M4 : ℝ) (hh : 0 < h)
    (hf : Smooth4 f u (u + (N - 1 : ℕ) * h) M2 M4) :
    |simps N (fun j => u + j * h) (fun j => f (u + j * h)) - ∫ x in u..(u + (N - 1 : ℕ) * h), f x| ≤ M4 * h ^ 4 / 180 * ((N - 1 : ℕ) * h) := by
  obtain ⟨m, rfl⟩ : ∃ m, N = 2 * m + 3 := ⟨(N - 3) / 2, by omega⟩
  rw [simps, if_neg (by omega), basicSimps]
  rw [show 1 + (2 * m + 3 - 2 - 0 - 1) / 2 = m + 1 by omega]
  have h1 : ((2 * m + 3 - 1 : ℕ) : ℝ) = ((0 + 2 * (m + 1) : ℕ) : ℝ) := by norm_cast; omega
  rw [h1] at hf ⊢
  have hu : u = u + (0 : ℕ) * h := by simp
  have := panels_error (f := f) u h M2 M4 hh 0 (m + 1) (by rw [← hu]; exact hf)
  rw [← hu] at this
  refine this.trans (le_of_eq ?_)
  push_cast; ring

/-- C55: with an even number (at least four) the error is at most `M2 h^3/12` plus the same, `M2` a bound on the second derivative. -/
theorem C55_simps_error_even {f : ℝ → ℝ} (N : ℕ) (hN : 4 ≤ N) (heven : N % 2 = 0) (u h M2 M4 : ℝ) (hh : 0 < h)
    (hf : Smooth4 f u (u + (N - 1 : ℕ) * h) M2 M4) :
    |simps N (fun j => u + j * h) (fun j => f (u + j * h)) - ∫ x in u..(u + (N - 1 : ℕ) * h), f x| ≤
      M2 * h ^ 3 / 12 + M4 * h ^ 4 / 180 * ((N - 2 : ℕ) * h) := by
  obtain ⟨m, rfl⟩ : ∃ m, N = 2 * m + 4 := ⟨(N - 4) / 2, by omega⟩
  have c1 : ((2 * m + 4 - 1 : ℕ) : ℝ) = ((1 + 2 * (m + 1) : ℕ) : ℝ) := by norm_cast; omega
  rw [c1] at hf ⊢
  set v := u + (1 + 2 * (m + 1) : ℕ) * h with hv
  have hu : u = u + (0 : ℕ) * h := by simp
  have hmh : 0 ≤ (m : ℝ) * h := by positivity
  have a1 : u + h ≤ v := by rw [hv]; push_cast; nlinarith
  have a2 : u ≤ v - h := by rw [hv]; push_cast; nlinarith
  have hv1 : u + (0 + 2 * (m + 1) : ℕ) * h = v - h := by rw [hv]; push_cast; ring
  have hu1 : u + (1 : ℕ) * h = u + h := by push_cast; ring
  have p1 := panels_error (f := f) u h M2 M4 hh 0 (m + 1) (by rw [← hu, hv1]; exact hf.mono le_rfl (by linarith))
  have p2 := panels_error (f := f) u h M2 M4 hh 1 (m + 1) (by rw [hu1]; exact hf.mono (by linarith) le_rfl)
  rw [← hu, hv1] at p1
  rw [hu1, ← hv] at p2
  have t1 : |h / 2 * (f u + f (u + h)) - ∫ x in u..(u + h), f x| ≤ M2 * h ^ 3 / 12 := by
    obtain ⟨f1, f2, f3, f4, h0, h1, -, -, h4, -⟩ := hf.mono le_rfl a1
    exact trapezoid_panel u h M2 hh.le h0 h1 h4
  have t2 : |h / 2 * (f (v - h) + f v) - ∫ x in (v - h)..v, f x| ≤ M2 * h ^ 3 / 12 := by
    obtain ⟨f1, f2, f3, f4, h0, h1, -, -, h4, -⟩ := hf.mono a2 le_rfl
    have := trapezoid_panel (f := f) (f1 := f1) (f2 := f2) (v - h) h M2 hh.le
    rw [sub_add_cancel] at this
    exact this h0 h1 h4
  have i1 : (∫ x in u..(v - h), f x) + ∫ x in (v - h)..v, f x = ∫ x in u..v, f x :=
    intervalIntegral.integral_add_adjacent_intervals (hf.integrable ⟨le_rfl, by linarith⟩ ⟨a2, by linarith⟩) (hf.integrable ⟨a2, by linarith⟩ ⟨by linarith, le_rfl⟩)
  have i2 : (∫ x in u..(u + h), f x) + ∫ x in (u + h)..v, f x = ∫ x in u..v, f x :=
    intervalIntegral.integral_add_adjacent_intervals (hf.integrable ⟨le_rfl, by linarith⟩ ⟨by linarith, a1⟩) (hf.integrable ⟨by linarith, a1⟩ ⟨by linarith, le_rfl⟩)
  rw [simps, if_pos heven, basicSimps, basicSimps]
  rw [show 1 + (2 * m + 4 - 3 - 0 - 1) / 2 = m + 1 by omega, show 1 + (2 * m + 4 - 2 - 1 - 1) / 2 = m + 1 by omega]
  have x1 : u + ((2 * m + 4 - 1 : ℕ) : ℝ) * h = v := by rw [c1]
  have x2 : u + ((2 * m + 4 - 2 : ℕ) : ℝ) * h = v - h := by
    rw [← hv1, show 2 * m + 4 - 2 = 0 + 2 * (m + 1) by omega]
  simp only [x1, x2, hu1, ← hu]
  obtain ⟨S1, hS1⟩ : ∃ S, S = ∑ m ∈ Finset.range (m + 1), panel (fun j => u + j * h) (fun j => f (u + j * h)) (0 + 2 * m) := ⟨_, rfl⟩
  obtain ⟨S2, hS2⟩ : ∃ S, S = ∑ m ∈ Finset.range (m + 1), panel (fun j => u + j * h) (fun j => f (u + j * h)) (1 + 2 * m) := ⟨_, rfl⟩
  rw [← hS1] at p1 ⊢
  rw [← hS2] at p2 ⊢
  have e2 : ((2 * m + 4 - 2 : ℕ) : ℝ) = 2 * (m + 1) := by
    rw [show 2 * m + 4 - 2 = 2 * (m + 1) by omega]; push_cast; ring
  rw [e2]
  clear_value v
  push_cast at p1 p2
  rw [abs_le] at *
  constructor <;> linarith [p1.1, p1.2, p2.1, p2.2, t1.1, t1.2, t2.1, t2.2]

theorem linspace01_eq (N : ℕ) : linspace01 N = fun j : ℕ => 0 + (j : ℝ) * (1 / ((N : ℝ) - 1)) := by
  funext j; simp only [linspace01]; ring

/-- On `[0, 1]`, an odd number of points. -/
theorem simps01_error {f : ℝ → ℝ} (N : ℕ) (hN : 3 ≤ N) (hodd : N % 2 = 1) (M2 M4 : ℝ) (hf : Smooth4 f 0 1 M2 M4) :
    |simps N (linspace01 N) (fun j => f (linspace01 N j)) - ∫ x in (0 : ℝ)..1, f x| ≤ M4 / (180 * ((N : ℝ) - 1) ^ 4) := by
  have h3 : (3 : ℝ) ≤ N := by exact_mod_cast hN
  have hpos : (0 : ℝ) < (N : ℝ) - 1 := by linarith
  have e1 : (((N - 1 : ℕ) : ℝ)) * (1 / ((N : ℝ) - 1)) = 1 := by
    rw [Nat.cast_sub (by omega)]; field_simp; norm_num
  have e2 : (0 : ℝ) + 1 = 1 := by norm_num
  have := C55_simps_error (f := f) N hN hodd 0 (1 / ((N : ℝ) - 1)) M2 M4 (by positivity) (by rw [e1, e2]; exact hf)
  rw [e1, e2] at this
  rw [linspace01_eq]
  refine this.trans (le_of_eq ?_)
  field_simp

/-- On `[0, 1]`, an even number of points. -/
theorem simps01_error_even {f : ℝ → ℝ} (N : ℕ) (hN : 4 ≤ N) (heven : N % 2 = 0) (M2 M4 : ℝ) (hf : Smooth4 f 0 1 M2 M4) :
    |simps N (linspace01 N) (fun j => f (linspace01 N j)) - ∫ x in (0 : ℝ)..1, f x| ≤ M2 / (12 * ((N : ℝ) - 1) ^ 3) + M4 / (180 * ((N : ℝ) - 1) ^ 4) := by
  have h3 : (4 : ℝ) ≤ N := by exact_mod_cast hN
  have hpos : (0 : ℝ) < (N : ℝ) - 1 := by linarith
  have e1 : (((N - 1 : ℕ) : ℝ)) * (1 / ((N : ℝ) - 1)) = 1 := by
    rw [Nat.cast_sub (by omega)]; field_simp; norm_num
  have e2 : (0 : ℝ) + 1 = 1 := by norm_num
  have hM4 : 0 ≤ M4 := by
    obtain ⟨f1, f2, f3, f4, -, -, -, -, -, h5⟩ := hf
    exact (abs_nonneg _).trans (h5 0 ⟨le_rfl, zero_le_one⟩)
  have := C55_simps_error_even (f := f) N hN heven 0 (1 / ((N : ℝ) - 1)) M2 M4 (by positivity) (by rw [e1, e2]; exact hf)
  rw [e1, e2] at this
  rw [linspace01_eq]
  refine this.trans ?_
  have e3 : (((N - 2 : ℕ) : ℝ)) * (1 / ((N : ℝ) - 1)) ≤ 1 := by
    rw [Nat.cast_sub (by omega)]
    push_cast
    rw [mul_one_div, div_le_one hpos]
    linarith
  have e4 : M2 * (1 / ((N : ℝ) - 1)) ^ 3 / 12 = M2 / (12 * ((N : ℝ) - 1) ^ 3) := by field_simp
  have e5 : M4 * (1 / ((N : ℝ) - 1)) ^ 4 / 180 = M4 / (180 * ((N : ℝ) - 1) ^ 4) := by field_simp
  rw [e4, e5]
  have : 0 ≤ M4 / (180 * ((N : ℝ) - 1) ^ 4) := by positivity
  nlinarith

/-- C55: for a power smooth in `mu`, the multipoles of `poles(k, ells, Nmu)` are those of the power up to `(2 ell + 1) M4/(180 N^4)`, with `N` the
number of intervals used and `M4` a bound on the fourth derivative of the integrand. -/
theorem C55_poles_error {nk : ℕ} (k : Fin nk → ℝ) (Nmu : ℕ) (hN : 2 ≤ Nmu) (f : ℝ → ℝ → ℝ) :
    ∃ R, polesCall k Nmu (.flat (List.zipWith (fun k mu => some (f k mu)) (polesGrid k Nmu).flatk (polesGrid k Nmu).flatmu)) = .ok R ∧
      ∀ i ell M2 M4, Smooth4 (fun mu => leg ell mu * f (k i) mu) 0 1 M2 M4 →
        |R i ell - halfPole ell (f (k i))| ≤ (2 * ell + 1) * (M4 / (180 * ((oddNmu Nmu : ℝ) - 1) ^ 4)) := by
  obtain ⟨p, hp, hpv⟩ := C53_scatter (polesGrid k Nmu) (fun k mu => some (f k mu))
  simp only [polesCall, hp]
  refine ⟨_, rfl, fun i ell M2 M4 hf => ?_⟩
  have h3 := oddNmu_ge Nmu hN
  have he := simps01_error (oddNmu Nmu) h3 (oddNmu_odd Nmu) M2 M4 hf
  have hl := (C55_linear (oddNmu Nmu) (linspace01 (oddNmu Nmu))
    (fun j => leg ell (linspace01 (oddNmu Nmu) j) * f (k i) (linspace01 (oddNmu Nmu) j)) (fun _ => 0) (2 * ell + 1) 0).1
  simp only [zero_mul, add_zero] at hl
  rw [simps_congr _ h3 _ _ (fun j => (2 * ell + 1) * (leg ell (linspace01 (oddNmu Nmu) j) * f (k i) (linspace01 (oddNmu Nmu) j))), hl,
    halfPole, ← mul_sub, abs_mul, abs_of_nonneg (by positivity : (0 : ℝ) ≤ 2 * ell + 1)]
  · exact mul_le_mul_of_nonneg_left he (by positivity)
  · intro j hj
    simp only [dif_pos hj, hpv, if_pos (polesGrid_notnull k Nmu _), Option.getD_some]
    have h3 : f ((polesGrid k Nmu).k i ⟨j, hj⟩) ((polesGrid k Nmu).mu i ⟨j, hj⟩) = f (k i) (linspace01 (oddNmu Nmu) j) := rfl
    rw [h3]
    ring

/-- Case: the monopole of a power damped by an exponential is within the hypotheses. -/
example : ∃ M2 M4, Smooth4 (fun mu => leg 0 mu * Real.exp (-mu)) 0 1 M2 M4 := by
  refine ⟨1, 1, fun mu => -Real.exp (-mu), fun mu => Real.exp (-mu), fun mu => -Real.exp (-mu), fun mu => Real.exp (-mu), ?_, ?_, ?_, ?_, ?_, ?_⟩
  all_goals intro x hx
  · have h := (((hasDerivAt_id x).neg).exp).hasDerivWithinAt (s := Icc 0 1)
    have e : (fun mu => leg 0 mu * Real.exp (-mu)) = fun mu => Real.exp (-mu) := by funext mu; simp [leg]
    rw [e]
    exact h.congr_deriv (by simp)
  · exact ((((hasDerivAt_id x).neg).exp).neg).hasDerivWithinAt.congr_deriv (by simp)
  · exact ((((hasDerivAt_id x).neg).exp)).hasDerivWithinAt.congr_deriv (by simp)
  · exact ((((hasDerivAt_id x).neg).exp).neg).hasDerivWithinAt.congr_deriv (by simp)
  · rw [abs_of_pos (Real.exp_pos _), Real.exp_le_one_iff]; linarith [hx.1]
  · rw [abs_of_pos (Real.exp_pos _), Real.exp_le_one_iff]; linarith [hx.1]

end

end Verif.Quad
