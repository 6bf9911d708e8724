/-
C119: the Zel'dovich power spectra of a linear power spectrum.
-/
import Verif.Props.ZelSeries
import Verif.Lemmas.ZelKernels

namespace Verif.Hzpt

open Verif.Xi Verif.ZelPower intervalIntegral MeasureTheory

noncomputable section

/-! ### the integrals of the code -/

theorem poisson_at_zero : poisson 0 0 = 2 ∧ poisson 1 0 = 4 / 3 := by
  constructor
  · simp [poisson]; norm_num
  · have := int_one_sub_sq
    simp only [poisson, mul_zero, Real.cos_zero, mul_one, pow_one]
    exact this

theorem skyMean_sq_zero {ν : ℝ} (hν : |ν| ≤ 1) : skyMean (fun c => c ^ 2) 0 ν = 1 / 3 := by
  rw [skyMean_sq 0 hν, poisson_at_zero.1, poisson_at_zero.2]; ring

/-- **C119** (dispersion): the velocity dispersion of the code is the variance of the displacement along any direction -/
theorem C119_dispersion (P : ℝ → ℝ) {ν : ℝ} (hν : |ν| ≤ 1) : velocityDispersion P = dispCorr P qlo qhi 0 ν := by
  unfold velocityDispersion dispCorr
  simp only [mul_zero, skyMean_sq_zero hν]
  rw [intervalIntegral.integral_mul_const]
  have := Real.pi_pos.ne'
  field_simp
  ring

theorem poisson_cont (n : ℕ) : Continuous (poisson n) := by
  unfold poisson
  exact intervalIntegral.continuous_parametric_intervalIntegral_of_continuous' (by fun_prop) _ _

/-- the exact kernel -/
def exactKernel (ν x : ℝ) : ℝ := 1 / 4 * poisson 1 x + ν ^ 2 * (1 / 2 * poisson 0 x - 3 / 4 * poisson 1 x)

theorem exactKernel_bound {ν : ℝ} (hν : |ν| ≤ 1) (x : ℝ) : |exactKernel ν x| ≤ 3 := by
  have h2 : ν ^ 2 ≤ 1 := by nlinarith [abs_le.1 hν]
  have h1 := poisson_one_le x
  have h0 := poisson_zero_le x
  unfold exactKernel
  refine (abs_add_le _ _).trans ?_
  rw [abs_mul, abs_mul, abs_of_nonneg (sq_nonneg ν)]
  have h3 : |1 / 2 * poisson 0 x - 3 / 4 * poisson 1 x| ≤ 2 := by
    rw [abs_le] at *; constructor <;> linarith [h1.1, h1.2, h0.1, h0.2]
  have : ν ^ 2 * |1 / 2 * poisson 0 x - 3 / 4 * poisson 1 x| ≤ 1 * 2 := mul_le_mul h2 h3 (abs_nonneg _) zero_le_one
  norm_num
  linarith

theorem exactKernel_int {P : ℝ → ℝ} (hP : IntervalIntegrable P volume qlo qhi) {r ν : ℝ} (hr : 0 < r) (hν : |ν| ≤ 1) :
    IntervalIntegrable (fun q => P q * exactKernel ν (r * q)) volume qlo qhi := by
  refine mul_kernel_int hP (C := 3) ?_ hr fun x _ => exactKernel_bound hν x
  have := poisson_cont 0
  have := poisson_cont 1
  unfold exactKernel
  fun_prop

theorem codeKernel_int {P : ℝ → ℝ} (hP : IntervalIntegrable P volume qlo qhi) {r : ℝ} (ν : ℝ) (hr : 0 < r) :
    IntervalIntegrable (fun q => P q * (-(xKernel (r * q) + yKernel (r * q) * ν ^ 2) / 2)) volume qlo qhi := by
  have h := ((mul_kernel_int hP xKernel_meas hr fun x hx => xKernel_bound hx).mul_const (-1 / 2)).add ((mul_kernel_int hP yKernel_meas hr fun x hx => yKernel_bound hx).mul_const (-ν ^ 2 / 2))
  refine h.congr fun q _ => ?_
  ring

theorem code_eq {P : ℝ → ℝ} (hP : IntervalIntegrable P volume qlo qhi) {r : ℝ} (ν : ℝ) (hr : 0 < r) :
    -(xZel P r + yZel P r * ν ^ 2) / 2 = 1 / (2 * Real.pi ^ 2) * ∫ q in qlo..qhi, P q * (-(xKernel (r * q) + yKernel (r * q) * ν ^ 2) / 2) := by
  have e : (∫ q in qlo..qhi, P q * (-(xKernel (r * q) + yKernel (r * q) * ν ^ 2) / 2)) = (-1 / 2) * (∫ q in qlo..qhi, P q * xKernel (r * q)) + (-ν ^ 2 / 2) * ∫ q in qlo..qhi, P q * yKernel (r * q) := by
    rw [← intervalIntegral.integral_const_mul, ← intervalIntegral.integral_const_mul,
      ← intervalIntegral.integral_add ((mul_kernel_int hP xKernel_meas hr fun x hx => xKernel_bound hx).const_mul _) ((mul_kernel_int hP yKernel_meas hr fun x hx => yKernel_bound hx).const_mul _)]
    congr 1; funext q; ring
  rw [e, xZel, yZel]
  ring

theorem exact_eq (P : ℝ → ℝ) {r ν : ℝ} (hν : |ν| ≤ 1) : dispCorr P qlo qhi r ν = 1 / (2 * Real.pi ^ 2) * ∫ q in qlo..qhi, P q * exactKernel ν (r * q) := by
  unfold dispCorr
  simp only [skyMean_sq _ hν, exactKernel, mul_comm r]

theorem kernel_eq {x ν : ℝ} (hx : 1 / 10 ^ 4 ≤ x) : -(xKernel x + yKernel x * ν ^ 2) / 2 = exactKernel ν x := by
  have h0 : (0:ℝ) < x := lt_of_lt_of_le (by norm_num) hx
  have ha : 1 / 10 ^ 4 ≤ |x| := by rwa [abs_of_pos h0]
  unfold xKernel yKernel exactKernel
  rw [besselJ1_far ha, besselJ0_far ha, mul_div_assoc, mul_div_assoc, sph_one_poisson h0.ne', sph_zero_poisson h0.ne']
  ring

theorem kernel_close {x ν : ℝ} (hx : 0 < x) (hν : |ν| ≤ 1) : |-(xKernel x + yKernel x * ν ^ 2) / 2 - exactKernel ν x| ≤ 5 / 2 / 10 ^ 19 := by
  have h2 : ν ^ 2 ≤ 1 := by nlinarith [abs_le.1 hν]
  have h1 := xKernel_close hx
  have h0 := yKernel_close hx
  rw [sph_one_poisson hx.ne'] at h1
  rw [sph_one_poisson hx.ne', sph_zero_poisson hx.ne'] at h0
  unfold exactKernel
  rw [show -(xKernel x + yKernel x * ν ^ 2) / 2 - (1 / 4 * poisson 1 x + ν ^ 2 * (1 / 2 * poisson 0 x - 3 / 4 * poisson 1 x)) =
    -1 / 2 * (xKernel x - -2 * (1 / 4 * poisson 1 x)) + ν ^ 2 * (-1 / 2 * (yKernel x - (-2 * (1 / 2 * poisson 0 x) + 6 * (1 / 4 * poisson 1 x)))) by ring]
  refine (abs_add_le _ _).trans ?_
  rw [abs_mul, abs_mul, abs_mul, abs_of_nonneg (sq_nonneg ν)]
  have : ν ^ 2 * (|(-1:ℝ) / 2| * |yKernel x - (-2 * (1 / 2 * poisson 0 x) + 6 * (1 / 4 * poisson 1 x))|) ≤ 1 * (|(-1:ℝ) / 2| * (4 / 10 ^ 19)) := by gcongr
  norm_num at this h1 h0 ⊢
  linarith

/-- **C119** (displacements): the integrals `X`, `Y` of the code at the distance `r` give the correlation of the displacements along every direction, exactly from `10 Mpc/h` on -/
theorem C119_displacement {P : ℝ → ℝ} (hP : IntervalIntegrable P volume qlo qhi) {r ν : ℝ} (hr : 10 ≤ r) (hν : |ν| ≤ 1) :
    -(xZel P r + yZel P r * ν ^ 2) / 2 = dispCorr P qlo qhi r ν := by
  have hr0 : 0 < r := by linarith
  rw [code_eq hP ν hr0, exact_eq P hν]
  congr 1
  refine intervalIntegral.integral_congr fun q hq => ?_
  rw [Set.uIcc_of_le qlo_le] at hq
  have : 1 / 10 ^ 4 ≤ r * q := by
    have h1 : 10 * qlo ≤ r * q := mul_le_mul hr hq.1 qlo_pos.le hr0.le
    norm_num [qlo] at h1 ⊢
    exact h1
  simp only [kernel_eq this]

/-- and at any distance up to `10⁻¹⁸` of the variance -/
theorem C119_displacement_near {P : ℝ → ℝ} (hP : IntervalIntegrable P volume qlo qhi) (h0 : ∀ q ∈ Set.Icc qlo qhi, 0 ≤ P q) {r ν : ℝ} (hr : 0 < r) (hν : |ν| ≤ 1) :
    |-(xZel P r + yZel P r * ν ^ 2) / 2 - dispCorr P qlo qhi r ν| ≤ 1 / 10 ^ 18 * dispCorr P qlo qhi 0 0 := by
  rw [code_eq hP ν hr, exact_eq P hν, ← C119_dispersion P (by simp), velocityDispersion, ← mul_sub, ← intervalIntegral.integral_sub (codeKernel_int hP ν hr) (exactKernel_int hP hr hν)]
  have hb := intervalIntegral.norm_integral_le_of_norm_le (a := qlo) (b := qhi) (μ := volume) (f := fun q => P q * (-(xKernel (r * q) + yKernel (r * q) * ν ^ 2) / 2) - P q * exactKernel ν (r * q))
    (g := fun q => (5 / 2 / 10 ^ 19) * P q) qlo_le (Filter.Eventually.of_forall fun q hq => by
      have hq0 := h0 q ⟨hq.1.le, hq.2⟩
      rw [← mul_sub, norm_mul, Real.norm_eq_abs, Real.norm_eq_abs, abs_of_nonneg hq0, mul_comm]
      exact mul_le_mul_of_nonneg_right (kernel_close (mul_pos hr (qlo_pos.trans hq.1)) hν) hq0) (hP.const_mul _)
  rw [intervalIntegral.integral_const_mul, Real.norm_eq_abs] at hb
  have hI : 0 ≤ ∫ q in qlo..qhi, P q := intervalIntegral.integral_nonneg qlo_le h0
  rw [abs_mul, abs_of_pos (by positivity : 0 < 1 / (2 * Real.pi ^ 2))]
  generalize (∫ q in qlo..qhi, P q) = I at hb hI ⊢
  have hpi : 0 < 1 / (2 * Real.pi ^ 2) := by positivity
  calc _ ≤ 1 / (2 * Real.pi ^ 2) * (5 / 2 / 10 ^ 19 * I) := mul_le_mul_of_nonneg_left hb hpi.le
    _ ≤ 1 / (2 * Real.pi ^ 2) * (1 / 3 * (1 / 10 ^ 18) * I) := by gcongr; norm_num
    _ = _ := by field_simp; ring

/-- **C119** (exponents): for a spectrum that is not negative, the variances of the relative displacements of the code are not negative, along all directions -/
theorem C119_variance {P : ℝ → ℝ} (hP : IntervalIntegrable P volume qlo qhi) (h0 : ∀ q ∈ Set.Icc qlo qhi, 0 ≤ P q) {r ν : ℝ} (hr : 0 < r) (hν : |ν| ≤ 1) :
    0 ≤ xZel P r + 2 * velocityDispersion P + yZel P r * ν ^ 2 := by
  have e : xZel P r + 2 * velocityDispersion P + yZel P r * ν ^ 2 = 1 / (2 * Real.pi ^ 2) * ∫ q in qlo..qhi, P q * ((1 - ν ^ 2) * (2 / 3 + xKernel (r * q)) + ν ^ 2 * (2 / 3 + (xKernel (r * q) + yKernel (r * q)))) := by
    have hx := mul_kernel_int hP xKernel_meas hr fun x hx => xKernel_bound hx
    have hy := mul_kernel_int hP yKernel_meas hr fun x hx => yKernel_bound hx
    have e2 : (∫ q in qlo..qhi, P q * ((1 - ν ^ 2) * (2 / 3 + xKernel (r * q)) + ν ^ 2 * (2 / 3 + (xKernel (r * q) + yKernel (r * q))))) =
        (∫ q in qlo..qhi, P q * xKernel (r * q)) + ((2 / 3) * (∫ q in qlo..qhi, P q) + ν ^ 2 * ∫ q in qlo..qhi, P q * yKernel (r * q)) := by
      rw [← intervalIntegral.integral_const_mul, ← intervalIntegral.integral_const_mul, ← intervalIntegral.integral_add (hP.const_mul _) (hy.const_mul _),
        ← intervalIntegral.integral_add hx ((hP.const_mul _).add (hy.const_mul _))]
      congr 1; funext q; ring
    rw [e2, xZel, yZel, velocityDispersion]
    have := Real.pi_pos.ne'
    field_simp
    ring
  rw [e]
  refine mul_nonneg (by positivity) (intervalIntegral.integral_nonneg qlo_le fun q hq => ?_)
  have hx := mul_pos hr (qlo_pos.trans_le hq.1)
  have hν2 : 0 ≤ 1 - ν ^ 2 := by nlinarith [abs_le.1 hν]
  exact mul_nonneg (h0 q hq) (add_nonneg (mul_nonneg hν2 (xKernel_pos hx)) (mul_nonneg (sq_nonneg ν) (xyKernel_pos hx)))

/-! ### the spectra -/

theorem exp_quad {u : ℝ} (hu : 0 ≤ u) : 1 + u + u ^ 2 / 2 + u ^ 3 / 6 ≤ Real.exp u := by
  have := Real.sum_le_exp_of_nonneg hu 4
  simp [Finset.sum_range_succ, Nat.factorial] at this
  linarith

/-- the statistics change by at most a multiple of the change of the correlation -/
theorem moment_lip (kind : Kind) {k v c c' : ℝ} (hv : 0 ≤ v) (hc : 0 ≤ v - c) (hc' : 0 ≤ v - c') :
    |kind.moment k v c - kind.moment k v c'| ≤ (1 + k ^ 2 * v) * (k ^ 2 * |c - c'|) := by
  have hw : 0 ≤ k ^ 2 * v := by positivity
  obtain ⟨w, hwd⟩ : ∃ w, w = k ^ 2 * v := ⟨_, rfl⟩
  rw [← hwd] at hw
  have key : ∀ (F F' : ℝ → ℝ), (∀ u, HasDerivAt F (F' u) u) → (∀ u, 0 ≤ u → |F' u| ≤ 1 + w) → ∀ u u', 0 ≤ u → 0 ≤ u' → |F u - F u'| ≤ (1 + w) * |u - u'| := by
    intro F F' hd hb u u' hu hu'
    have := Convex.norm_image_sub_le_of_norm_hasDerivWithin_le (f := F) (f' := F') (s := Set.Ici 0) (C := 1 + w) (x := u') (y := u)
      (fun x _ => (hd x).hasDerivWithinAt) (fun x hx => hb x hx) (convex_Ici 0) hu' hu
    simpa [Real.norm_eq_abs] using this
  have he : ∀ u : ℝ, HasDerivAt (fun u : ℝ => Real.exp (-u)) (-Real.exp (-u)) u := fun u => ((hasDerivAt_id u).neg.exp).congr_deriv (by simp)
  have hu : 0 ≤ k ^ 2 * (v - c) := by positivity
  have hu' : 0 ≤ k ^ 2 * (v - c') := by positivity
  have hd : k ^ 2 * |c - c'| = |k ^ 2 * (v - c) - k ^ 2 * (v - c')| := by
    rw [← mul_sub, abs_mul, abs_of_nonneg (sq_nonneg k), show v - c - (v - c') = -(c - c') by ring, abs_neg]
  have hpos : ∀ u : ℝ, 0 < Real.exp (-u) := fun u => Real.exp_pos _
  have hmul : ∀ u : ℝ, Real.exp u * Real.exp (-u) = 1 := fun u => by rw [← Real.exp_add]; simp
  -- a bound on the factor in front of the exponential bounds the product
  have hbd : ∀ (u p : ℝ), |p| ≤ (1 + w) * Real.exp u → |p * Real.exp (-u)| ≤ 1 + w := by
    intro u p hp
    rw [abs_mul, abs_of_pos (hpos u)]
    calc |p| * Real.exp (-u) ≤ (1 + w) * Real.exp u * Real.exp (-u) := mul_le_mul_of_nonneg_right hp (hpos u).le
      _ = 1 + w := by rw [mul_assoc, hmul, mul_one]
  rw [hd, ← hwd]
  cases kind
  · simp only [Kind.moment, density_eq]
    have := key (fun u => Real.exp (-u)) (fun u => -Real.exp (-u)) he (fun u hu => by
      rw [show -Real.exp (-u) = (-1) * Real.exp (-u) by ring]
      refine hbd u _ ?_
      have := exp_quad hu
      have h3 : 0 ≤ u ^ 3 := by positivity
      norm_num
      nlinarith [sq_nonneg u]) _ _ hu hu'
    refine le_trans (le_of_eq ?_) this
    congr 1; ring_nf
  · simp only [Kind.moment, momentum_eq]
    have := key (fun u => -u * Real.exp (-u)) (fun u => (u - 1) * Real.exp (-u)) (fun u => (((hasDerivAt_id u).neg).mul (he u)).congr_deriv (by simp; ring)) (fun u hu => by
      refine hbd u _ ?_
      have := exp_quad hu
      have h3 : 0 ≤ u ^ 3 := by positivity
      have h4 : 0 ≤ w * Real.exp u := by positivity
      rw [abs_le]
      constructor <;> nlinarith [sq_nonneg u]) _ _ hu hu'
    refine le_trans (le_of_eq ?_) this
    congr 1; ring_nf
  · simp only [Kind.moment, momenta_eq]
    have := key (fun u => (u ^ 2 - u + w) * Real.exp (-u)) (fun u => (3 * u - u ^ 2 - 1 - w) * Real.exp (-u)) (fun u => by
        have hp : HasDerivAt (fun u : ℝ => u ^ 2 - u + w) (2 * u - 1) u := by
          simpa using (((hasDerivAt_pow 2 u).sub (hasDerivAt_id u)).add_const w)
        exact (hp.mul (he u)).congr_deriv (by ring)) (fun u hu => by
      refine hbd u _ ?_
      have := exp_quad hu
      have h3 : 0 ≤ u ^ 3 := by positivity
      have h4 : w * 1 ≤ w * Real.exp u := mul_le_mul_of_nonneg_left (Real.one_le_exp hu) hw
      have h5 : 0 ≤ u * ((u - 3 / 2) ^ 2) := by positivity
      rw [abs_le]
      constructor <;> nlinarith [sq_nonneg u, sq_nonneg (u - 2 / 3)]) _ _ hu hu'
    refine le_trans (le_of_eq ?_) this
    rw [hwd]
    congr 1; ring_nf

/-- the code's integrals near zero: the slack in the correlation of the displacements below `10 Mpc/h` -/
def slack (k r v : ℝ) : ℝ := if 10 ≤ r then 0 else (1 + k ^ 2 * v) * (k ^ 2 * (1 / 10 ^ 18 * v))

theorem zel_history (E : Env) (hE : E.s80 ≠ 0) (l : List ℝ) (hl : ∀ s ∈ l, s ≠ 0) (s : ℝ) : (l.foldl Zel.setSigma8 (Zel.new E)).setSigma8 s = zelAt E s false := by
  have : ∀ (l : List ℝ) (s0 : ℝ), s0 ≠ 0 → (∀ s ∈ l, s ≠ 0) → ((l.foldl Zel.setSigma8 (zelAt E s0 false))).setSigma8 s = zelAt E s false := by
    intro l
    induction l with
    | nil => intro s0 h0 _; exact set_zelAt E s0 s false h0
    | cons a l ih =>
      intro s0 h0 hl
      rw [List.foldl_cons, set_zelAt E s0 a false h0]
      exact ih a (hl a List.mem_cons_self) fun s hs => hl s (List.mem_cons_of_mem _ hs)
  rw [new_eq E hE]
  exact this l E.s80 hE hl

theorem eval_zelAt (E : Env) (s : ℝ) (kind : Kind) {k : ℝ} (b : Bool) (hb : b = false ∨ 5 / 1000 ≤ k) :
    (zelAt E s b).eval E kind k = some (fftlog E ((arr0 E).scale ((s / E.s80) ^ 2)) k kind) := by
  unfold Zel.eval zelAt
  have : k0Low ≤ k ∨ b = false := by rcases hb with h | h; exacts [Or.inr h, Or.inl h]
  simp only [Option.map_some, this, if_true]

/-- the exact correlation is a quadratic function of the cosine -/
theorem dispCorr_quad {P : ℝ → ℝ} (hP : IntervalIntegrable P volume qlo qhi) {r : ℝ} (hr : 0 < r) :
    ∃ A B : ℝ, ∀ ν, |ν| ≤ 1 → dispCorr P qlo qhi r ν = A + B * ν ^ 2 := by
  have h0 := exactKernel_int hP hr (ν := 0) (by simp)
  have h1 := exactKernel_int hP hr (ν := 1) (by simp)
  refine ⟨dispCorr P qlo qhi r 0, dispCorr P qlo qhi r 1 - dispCorr P qlo qhi r 0, fun ν hν => ?_⟩
  rw [exact_eq P hν, exact_eq P (by simp : |(0:ℝ)| ≤ 1), exact_eq P (by simp : |(1:ℝ)| ≤ 1)]
  have e : (∫ q in qlo..qhi, P q * exactKernel ν (r * q)) = (∫ q in qlo..qhi, P q * exactKernel 0 (r * q)) + ν ^ 2 * ((∫ q in qlo..qhi, P q * exactKernel 1 (r * q)) - ∫ q in qlo..qhi, P q * exactKernel 0 (r * q)) := by
    rw [← intervalIntegral.integral_sub h1 h0, ← intervalIntegral.integral_const_mul, ← intervalIntegral.integral_add h0 ((h1.sub h0).const_mul _)]
    congr 1; funext q; unfold exactKernel; ring
  rw [e]
  ring

/-- the correlation is not larger than the variance -/
theorem dispCorr_le {P : ℝ → ℝ} (hP : IntervalIntegrable P volume qlo qhi) (h0 : ∀ q ∈ Set.Icc qlo qhi, 0 ≤ P q) {r ν : ℝ} (hr : 0 < r) (hν : |ν| ≤ 1) :
    dispCorr P qlo qhi r ν ≤ velocityDispersion P := by
  have hν2 : 0 ≤ 1 - ν ^ 2 := by nlinarith [abs_le.1 hν]
  rw [exact_eq P hν, velocityDispersion, show 1 / (6 * Real.pi ^ 2) * ∫ q in qlo..qhi, P q = 1 / (2 * Real.pi ^ 2) * ((∫ q in qlo..qhi, P q) * (1 / 3)) by field_simp; ring, ← intervalIntegral.integral_mul_const]
  refine mul_le_mul_of_nonneg_left (intervalIntegral.integral_mono_on qlo_le (exactKernel_int hP hr hν) (hP.mul_const _) fun q hq => ?_) (by positivity)
  refine mul_le_mul_of_nonneg_left ?_ (h0 q hq)
  have h1 := (abs_le.1 (poisson_one_le (r * q))).2
  have h2 := poisson_sub_le (r * q)
  unfold exactKernel
  rw [show 1 / 4 * poisson 1 (r * q) + ν ^ 2 * (1 / 2 * poisson 0 (r * q) - 3 / 4 * poisson 1 (r * q)) = (1 - ν ^ 2) * (1 / 4 * poisson 1 (r * q)) + ν ^ 2 * (1 / 2 * (poisson 0 (r * q) - poisson 1 (r * q))) by ring]
  nlinarith [sq_nonneg ν]

/-- shells with correlations that are close -/
theorem shell_close (kind : Kind) {k r v s : ℝ} {c c' : ℝ → ℝ} (hc : Continuous c) (A B : ℝ) (hc' : ∀ t, |t| ≤ 1 → c' t = A + B * t ^ 2) (h : ∀ t, |t| ≤ 1 → |kind.moment k v (c t) - kind.moment k v (c' t)| ≤ s) :
    |shell kind.moment k r v c - shell kind.moment k r v c'| ≤ 4 * Real.pi * r ^ 2 * s := by
  have hm : Continuous (kind.moment k v) := by
    cases kind
    · simp only [Kind.moment]; rw [show density k v = fun c => _ from funext fun c => density_eq k v c]; fun_prop
    · simp only [Kind.moment]; rw [show momentum k v = fun c => _ from funext fun c => momentum_eq k v c]; fun_prop
    · simp only [Kind.moment]; rw [show momenta k v = fun c => _ from funext fun c => momenta_eq k v c]; fun_prop
  have e : shell kind.moment k r v c' = shell kind.moment k r v fun t => A + B * t ^ 2 := by
    unfold shell
    congr 2
    refine intervalIntegral.integral_congr fun t ht => ?_
    rw [Set.uIcc_of_le (by norm_num)] at ht
    simp only [hc' t (abs_le.2 ⟨ht.1, ht.2⟩)]
  rw [e]
  unfold shell
  rw [← mul_sub, ← mul_sub, ← intervalIntegral.integral_sub (Continuous.intervalIntegrable (by fun_prop) _ _) (Continuous.intervalIntegrable (by fun_prop) _ _), abs_mul,
    abs_of_nonneg (by positivity : 0 ≤ 4 * Real.pi * r ^ 2)]
  refine mul_le_mul_of_nonneg_left ?_ (by positivity)
  have hb := intervalIntegral.norm_integral_le_of_norm_le_const (a := (-1:ℝ)) (b := 1) (C := s) (f := fun t => Real.cos (k * r * t) * kind.moment k v (c t) - Real.cos (k * r * t) * kind.moment k v (A + B * t ^ 2)) (fun t ht => by
    rw [Set.uIoc_of_le (by norm_num)] at ht
    have ht' : |t| ≤ 1 := abs_le.2 ⟨ht.1.le, ht.2⟩
    have hs := h t ht'
    rw [hc' t ht'] at hs
    rw [← mul_sub, norm_mul, Real.norm_eq_abs, Real.norm_eq_abs]
    calc _ ≤ 1 * |kind.moment k v (c t) - kind.moment k v (A + B * t ^ 2)| := mul_le_mul_of_nonneg_right (Real.abs_cos_le_one _) (abs_nonneg _)
      _ ≤ s := by rw [one_mul]; exact hs)
  rw [Real.norm_eq_abs] at hb
  rw [abs_mul]
  norm_num at hb ⊢
  linarith

/-- **C119** (spectra): an object made from a linear power spectrum `P` and set to any sequence of amplitudes, the last of which is `s`, gives for each class the Fourier transform, over the shells of the mesh, of the exact connected statistic of Gaussian displacements with the variance and the correlation of the
spectrum `D² P`, `D = s/sigma8`; up to the orders above 15 of the series (`left`) and, below `10 Mpc/h`, the rounding of the Bessel functions near zero (`slack`). -/
theorem C119_spectrum (E : Env) (hE : E.s80 ≠ 0) (hx : E.Exact) (hP : IntervalIntegrable E.plin0 volume qlo qhi) (h0 : ∀ q ∈ Set.Icc qlo qhi, 0 ≤ E.plin0 q) {k : ℝ} (hk : 0 < k)
    (hr : ∀ i < 1024, 0 < E.r i) (δ : ℕ → ℝ) (hw : ∀ n < 16, ∀ i < 1024, E.w n k i = δ i * (k * besselHalf n (k * E.r i))) (l : List ℝ) (hl : ∀ s ∈ l, s ≠ 0) (s : ℝ) (b : Bool) (hb : b = false ∨ 5 / 1000 ≤ k) (kind : Kind) :
    ∃ p, (if b then ((l.foldl Zel.setSigma8 (Zel.new E)).setSigma8 s).setLowK else (l.foldl Zel.setSigma8 (Zel.new E)).setSigma8 s).eval E kind k = some p ∧
      |p - ∑ i ∈ Finset.range 1024, δ i * shell kind.moment k (E.r i) ((s / E.s80) ^ 2 * dispCorr E.plin0 qlo qhi 0 0) (fun t => (s / E.s80) ^ 2 * dispCorr E.plin0 qlo qhi (E.r i) t)| ≤
      ∑ i ∈ Finset.range 1024, |δ i| * (4 * Real.pi * E.r i ^ 2) * (left ((arr0 E).scale ((s / E.s80) ^ 2)) k i kind + slack k (E.r i) ((s / E.s80) ^ 2 * dispCorr E.plin0 qlo qhi 0 0)) := by
  rw [zel_history E hE l hl s]
  have eb : (if b then (zelAt E s false).setLowK else zelAt E s false) = zelAt E s b := by
    cases b <;> rfl
  rw [eb]
  refine ⟨_, eval_zelAt E s kind b hb, ?_⟩
  have hser := C119_series E ((arr0 E).scale ((s / E.s80) ^ 2)) (fun i => by simp only [Arr.scale, arr0]; ring) hk hr δ hw kind
  obtain ⟨D, hD⟩ : ∃ D, D = (s / E.s80) ^ 2 := ⟨_, rfl⟩
  have hD0 : 0 ≤ D := hD ▸ sq_nonneg _
  rw [← hD] at hser ⊢
  have hv0 : dispCorr E.plin0 qlo qhi 0 0 = velocityDispersion E.plin0 := (C119_dispersion E.plin0 (by simp)).symm
  have hvn : 0 ≤ velocityDispersion E.plin0 := mul_nonneg (by positivity) (intervalIntegral.integral_nonneg qlo_le h0)
  have hvd : ((arr0 E).scale D).sq = D * dispCorr E.plin0 qlo qhi 0 0 := by simp only [Arr.scale, arr0, hx.disp, hv0]; ring
  have hsh := sum_close 1024 (fun i => δ i * shell kind.moment k (E.r i) ((arr0 E).scale D).sq (fun t => -(((arr0 E).scale D).x0 i + ((arr0 E).scale D).yy i * t ^ 2) / 2))
    (fun i => δ i * shell kind.moment k (E.r i) (D * dispCorr E.plin0 qlo qhi 0 0) (fun t => D * dispCorr E.plin0 qlo qhi (E.r i) t))
    (fun i => |δ i| * (4 * Real.pi * E.r i ^ 2) * slack k (E.r i) (D * dispCorr E.plin0 qlo qhi 0 0)) (by
    intro i hi
    have hri := hr i hi
    rw [hvd, ← mul_sub, abs_mul, mul_assoc]
    refine mul_le_mul_of_nonneg_left ?_ (abs_nonneg _)
    obtain ⟨A, B, hAB⟩ := dispCorr_quad hP hri
    have hcode : ∀ t, -(((arr0 E).scale D).x0 i + ((arr0 E).scale D).yy i * t ^ 2) / 2 = D * (-(xZel E.plin0 (E.r i) + yZel E.plin0 (E.r i) * t ^ 2) / 2) := by
      intro t; simp only [Arr.scale, arr0, hx.x, hx.y]; ring
    refine shell_close kind (by fun_prop) (D * A) (D * B) (fun t ht => by rw [hAB t ht]; ring) fun t ht => ?_
    rw [hcode t]
    unfold slack
    by_cases h10 : 10 ≤ E.r i
    · rw [if_pos h10, C119_displacement hP h10 ht, sub_self, abs_zero]
    · rw [if_neg h10, hv0]
      have hvar := C119_variance hP h0 hri ht
      have hle := dispCorr_le hP h0 hri ht
      refine (moment_lip kind (mul_nonneg hD0 hvn) ?_ ?_).trans ?_
      · rw [← mul_sub]; exact mul_nonneg hD0 (by linarith)
      · rw [← mul_sub]; exact mul_nonneg hD0 (by linarith)
      · have hn := C119_displacement_near hP h0 hri ht
        rw [hv0] at hn
        rw [← mul_sub, abs_mul, abs_of_nonneg hD0]
        have hD1 : D * |-(xZel E.plin0 (E.r i) + yZel E.plin0 (E.r i) * t ^ 2) / 2 - dispCorr E.plin0 qlo qhi (E.r i) t| ≤ 1 / 10 ^ 18 * (D * velocityDispersion E.plin0) :=
          (mul_le_mul_of_nonneg_left hn hD0).trans (le_of_eq (by ring))
        have h1 : 0 ≤ 1 + k ^ 2 * (D * velocityDispersion E.plin0) := add_nonneg zero_le_one (mul_nonneg (sq_nonneg k) (mul_nonneg hD0 hvn))
        exact mul_le_mul_of_nonneg_left (mul_le_mul_of_nonneg_left hD1 (sq_nonneg k)) h1)
  have ht := (abs_sub_le _ _ _).trans (add_le_add hser hsh)
  refine ht.trans (le_of_eq ?_)
  rw [← Finset.sum_add_distrib]
  refine Finset.sum_congr rfl fun i _ => ?_
  ring

theorem diff_sum (N : ℕ) (f g h : ℕ → ℝ) (e : ∀ i, f i - g i = h i) : ∑ i ∈ Finset.range N, f i - ∑ i ∈ Finset.range N, g i = ∑ i ∈ Finset.range N, h i := by
  rw [← Finset.sum_sub_distrib]; exact Finset.sum_congr rfl fun i _ => e i

/-- **C119** (any transform): for any linear transform, as FFTLog with the interpolation at `k` is, the same holds up to the error of the transform in the Hankel integrals of the sixteen arrays. -/
theorem C119_transform (E : Env) (a : Arr) (hx : ∀ i, a.xx i = a.x0 i + 2 * a.sq) {k : ℝ} (hk : 0 < k) (hr : ∀ i < 1024, 0 < E.r i) (δ : ℕ → ℝ) (kind : Kind) :
    |fftlog E a k kind - ∑ i ∈ Finset.range 1024, δ i * shell kind.moment k (E.r i) a.sq (fun t => -(a.x0 i + a.yy i * t ^ 2) / 2)| ≤
      (∑ i ∈ Finset.range 1024, |δ i| * (4 * Real.pi * E.r i ^ 2) * left a k i kind) +
      ∑ n ∈ Finset.range 16, |factor kind| * Real.sqrt (1 / 2 * Real.pi) * k ^ (-(3 / 2) : ℝ) * |∑ i ∈ Finset.range 1024, (E.w n k i - δ i * (k * besselHalf n (k * E.r i))) * (if n = 0 then fprim E a k i kind else fsec E a k n i kind)| := by
  obtain ⟨E', hE'⟩ : ∃ E' : Env, E' = { E with w := fun n k i => δ i * (k * besselHalf n (k * E.r i)) } := ⟨_, rfl⟩
  have hr' : E'.r = E.r := by rw [hE']
  have hw' : E'.w = fun n k i => δ i * (k * besselHalf n (k * E.r i)) := by rw [hE']
  have hs := C119_series E' a hx hk (hr'.symm ▸ hr) δ (fun n _ i _ => by rw [hw', hr']) kind
  rw [hr'] at hs
  have hp : ∀ i, fprim E' a k i kind = fprim E a k i kind := fun i => by cases kind <;> simp only [fprim, hr']
  have hq : ∀ n i, fsec E' a k n i kind = fsec E a k n i kind := fun n i => by cases kind <;> simp only [fsec, hr']
  have hd : |fftlog E a k kind - fftlog E' a k kind| ≤ ∑ n ∈ Finset.range 16, |factor kind| * Real.sqrt (1 / 2 * Real.pi) * k ^ (-(3 / 2) : ℝ) * |∑ i ∈ Finset.range 1024, (E.w n k i - δ i * (k * besselHalf n (k * E.r i))) * (if n = 0 then fprim E a k i kind else fsec E a k n i kind)| := by
    unfold fftlog
    simp only [list_sum_eq]
    refine sum_close 16 _ _ _ fun n _ => ?_
    rw [← mul_sub, abs_mul, abs_mul, abs_mul, abs_of_nonneg (Real.sqrt_nonneg _), abs_of_pos (Real.rpow_pos_of_pos hk _),
      diff_sum 1024 _ _ (fun i => (E.w n k i - δ i * (k * besselHalf n (k * E.r i))) * (if n = 0 then fprim E a k i kind else fsec E a k n i kind)) (fun i => by rw [hp, hq, hw']; ring)]
  have := (abs_sub_le _ _ _).trans (add_le_add hd hs)
  linarith

/-- an environment with a flat spectrum, a mesh from `5 Mpc/h` on and the quadrature itself -/
def zelCase : Env where
  s80 := 1
  plin0 := fun _ => 1
  r := fun i => 5 + i
  x0 := fun i => xZel (fun _ => 1) (5 + i)
  y0 := fun i => yZel (fun _ => 1) (5 + i)
  disp0 := velocityDispersion fun _ => 1
  w := fun n k i => 1 * (k * besselHalf n (k * (5 + i)))
  quad := fun _ => 0
  quad_smul := fun _ _ => by simp

/-- the hypotheses of `C119_spectrum` are met by a spectrum with displacements, on a mesh with distances below and above `10 Mpc/h` -/
theorem C119_case : zelCase.Exact ∧ zelCase.s80 ≠ 0 ∧ IntervalIntegrable zelCase.plin0 volume qlo qhi ∧ (∀ q ∈ Set.Icc qlo qhi, 0 ≤ zelCase.plin0 q) ∧ (∀ i < 1024, 0 < zelCase.r i) ∧
    (∀ k n i, zelCase.w n k i = 1 * (k * besselHalf n (k * zelCase.r i))) ∧ 0 < dispCorr zelCase.plin0 qlo qhi 0 0 := by
  refine ⟨⟨rfl, fun _ => rfl, fun _ => rfl⟩, one_ne_zero, by simp [zelCase], fun _ _ => zero_le_one, fun i _ => ?_, fun _ _ _ => rfl, ?_⟩
  · simp only [zelCase]; linarith [Nat.cast_nonneg (α := ℝ) i]
  · rw [← C119_dispersion _ (by simp)]
    simp only [velocityDispersion, zelCase, intervalIntegral.integral_const, smul_eq_mul, mul_one]
    have : 0 < qhi - qlo := by norm_num [qhi, qlo]
    positivity

end
end Verif.Hzpt
