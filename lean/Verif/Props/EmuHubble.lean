/-
C137: the Hubble parameter of the CMB.
-/
import Verif.Props.EmuSpectrum
import Mathlib.MeasureTheory.Integral.IntervalIntegral.IntegrationByParts

namespace Verif.Emu

open Set MeasureTheory

noncomputable section

/-! ### The distance falls with the Hubble parameter -/

/-- the integral itself, in the place of the quadrature -/
def exact (f : ℝ → ℝ) (a b : ℝ) : ℝ := ∫ x in a..b, f x

/-- the square of the Hubble rate, with the density of dark energy from the parameter `h` -/
def rate2 (wm w h a : ℝ) : ℝ := 4.15e-5 / a ^ 4 + wm / a ^ 3 + (h ^ 2 - wm) * a ^ (-3 * (1 + w))

theorem hubble_eq {wm wb w h a : ℝ} (hh : 0 < h) : hubble ⟨h, w, 0, wm, wb⟩ a = 100 * Real.sqrt (rate2 wm w h a) := by
  unfold hubble rate2
  dsimp only
  have e : 4.15e-5 / h ^ 2 / a ^ 4 + wm / h ^ 2 / a ^ 3 + 0 / a ^ 2 + (1 - wm / h ^ 2) * a ^ (-3 * (1 + w + 0)) * Real.exp (-3 * 0 * (1 - a)) =
      (4.15e-5 / a ^ 4 + wm / a ^ 3 + (h ^ 2 - wm) * a ^ (-3 * (1 + w))) / h ^ 2 := by
    rw [add_zero, mul_zero, zero_mul, Real.exp_zero, mul_one, zero_div, add_zero]
    have : h ≠ 0 := hh.ne'
    field_simp
  rw [e, Real.sqrt_div' _ (sq_nonneg h), Real.sqrt_sq hh.le]
  have : h ≠ 0 := hh.ne'
  field_simp

theorem rate2_pos {wm w h a : ℝ} (hwm : 0 < wm) (hw : w ≤ 0) (hh : 0 < h) (ha : 0 < a) (ha1 : a ≤ 1) : 0 < rate2 wm w h a := by
  unfold rate2
  have h1 : a ^ (-3 * (1 + w)) ≤ a ^ (-3 : ℝ) := Real.rpow_le_rpow_of_exponent_ge ha ha1 (by linarith)
  have h2 : a ^ (-3 : ℝ) = 1 / a ^ 3 := by
    rw [Real.rpow_neg ha.le, show (3:ℝ) = ((3:ℕ):ℝ) by norm_num, Real.rpow_natCast, one_div]
  have h3 : 0 < a ^ (-3 * (1 + w)) := Real.rpow_pos_of_pos ha _
  have h4 : 0 < (4.15e-5 : ℝ) / a ^ 4 := by positivity
  have h5 : wm / a ^ 3 = wm * a ^ (-3 : ℝ) := by rw [h2]; ring
  rw [h5]
  by_cases hc : wm ≤ h ^ 2
  · have := mul_nonneg (sub_nonneg.2 hc) h3.le
    have := mul_pos hwm (Real.rpow_pos_of_pos ha (-3))
    linarith
  · have hc := not_le.1 hc
    have : (wm - h ^ 2) * a ^ (-3 * (1 + w)) ≤ (wm - h ^ 2) * a ^ (-3 : ℝ) := mul_le_mul_of_nonneg_left h1 (by linarith)
    have := mul_pos (pow_pos hh 2) (Real.rpow_pos_of_pos ha (-3))
    nlinarith

theorem rate2_lt {wm w h h' a : ℝ} (h0 : 0 < h) (hl : h < h') (ha : 0 < a) : rate2 wm w h a < rate2 wm w h' a := by
  unfold rate2
  have h3 : 0 < a ^ (-3 * (1 + w)) := Real.rpow_pos_of_pos ha _
  have : h ^ 2 < h' ^ 2 := by nlinarith
  nlinarith

theorem rate2_cont {wm w h a : ℝ} (ha : 0 < a) : ContinuousOn (fun x => rate2 wm w h x) (Icc a 1) := by
  unfold rate2
  have hp : ∀ x ∈ Icc a (1:ℝ), x ≠ 0 := fun x hx => (ha.trans_le hx.1).ne'
  refine ((continuousOn_const.div (continuousOn_id.pow 4) fun x hx => pow_ne_zero 4 (hp x hx)).add (continuousOn_const.div (continuousOn_id.pow 3) fun x hx => pow_ne_zero 3 (hp x hx))).add
    (continuousOn_const.mul (continuousOn_id.rpow_const fun x hx => Or.inl (hp x hx)))

theorem zLast_pos {c : CMB} (hb : 0 < c.wb) (hm : 0 < c.wm) : 0 < zLast c := by
  unfold zLast
  positivity

theorem distLS_eq {wm wb w h : ℝ} (hwm : 0 < wm) (hwb : 0 < wb) (hh : 0 < h) {a : ℝ} (ha : a = 1 / (1 + zLast ⟨h, w, 0, wm, wb⟩)) :
    distLS exact ⟨h, w, 0, wm, wb⟩ = (∫ x in a..1, 1 / (x * x * (100 * Real.sqrt (rate2 wm w h x)))) * 299792.458 := by
  unfold distLS coDistance exact
  rw [← ha]
  simp only [hubble_eq hh]
  rw [mul_div_assoc, div_self hh.ne', mul_one]

/-- C137: with exact integrals, the distance to the last scattering falls strictly with the Hubble parameter, at fixed physical densities, for every equation of state that is not positive: there
is at most one Hubble parameter with the distance of the CMB. -/
theorem C137_distance {wm wb w : ℝ} (hwm : 0 < wm) (hwb : 0 < wb) (hw : w ≤ 0) : StrictAntiOn (fun h => distLS exact ⟨h, w, 0, wm, wb⟩) (Ioi 0) := by
  intro h hh h' hh' hl
  obtain ⟨a, ha⟩ : ∃ a, a = 1 / (1 + zLast ⟨h, w, 0, wm, wb⟩) := ⟨_, rfl⟩
  have ha' : a = 1 / (1 + zLast ⟨h', w, 0, wm, wb⟩) := ha
  have hz := zLast_pos (c := ⟨h, w, 0, wm, wb⟩) hwb hwm
  have a0 : 0 < a := by rw [ha]; positivity
  have a1 : a < 1 := by rw [ha, div_lt_one (by positivity)]; linarith
  show distLS exact ⟨h', w, 0, wm, wb⟩ < distLS exact ⟨h, w, 0, wm, wb⟩
  rw [distLS_eq hwm hwb hh ha, distLS_eq hwm hwb hh' ha']
  have cont : ∀ g : ℝ, 0 < g → ContinuousOn (fun x => 1 / (x * x * (100 * Real.sqrt (rate2 wm w g x)))) (Icc a 1) := by
    intro g hg
    refine continuousOn_const.div ((continuousOn_id.mul continuousOn_id).mul (continuousOn_const.mul (rate2_cont a0).sqrt)) fun x hx => ?_
    have := Real.sqrt_pos.2 (rate2_pos hwm hw hg (a0.trans_le hx.1) hx.2)
    have := a0.trans_le hx.1
    positivity
  have lt : ∀ x ∈ Icc a (1:ℝ), 1 / (x * x * (100 * Real.sqrt (rate2 wm w h' x))) < 1 / (x * x * (100 * Real.sqrt (rate2 wm w h x))) := by
    intro x hx
    have x0 := a0.trans_le hx.1
    have p := Real.sqrt_pos.2 (rate2_pos hwm hw hh x0 hx.2)
    have q := Real.sqrt_lt_sqrt (rate2_pos hwm hw hh x0 hx.2).le (rate2_lt (wm := wm) (w := w) hh hl x0)
    apply one_div_lt_one_div_of_lt (by positivity)
    have : 0 < x * x * 100 := by positivity
    nlinarith
  have := intervalIntegral.integral_lt_integral_of_continuousOn_of_le_of_exists_lt a1 (cont h' hh') (cont h hh) (fun x hx => (lt x ⟨hx.1.le, hx.2⟩).le) ⟨1, ⟨a1.le, le_rfl⟩, lt 1 ⟨a1.le, le_rfl⟩⟩
  nlinarith

/-! ### The bisection -/

theorem bisect_root {f : ℝ → ℝ} {g : ℝ} (hf : StrictAntiOn f (Icc 0.3 1)) (hg : g ∈ Icc (0.3:ℝ) 1) (h0 : f g = 0) (grid : ∀ j : ℕ, g ≠ 0.3 + 0.7 * j / 1024) :
    ∀ (n fuel j : ℕ) (lo hi mid : ℝ), n < fuel → lo = 0.3 + 0.7 * j / 1024 → hi = lo + 0.7 * 2 ^ n / 1024 → hi ≤ 1 → lo < g → g < hi → (n < 10 → mid = lo ∨ mid = hi) → n ≤ 10 →
      (n = 0 → mid = lo ∨ mid = hi) → ∃ h, bisect f fuel lo hi (f lo) mid = some h ∧ |h - g| ≤ 7 / 10240
  | _, 0, _, _, _, _, h, _, _, _, _, _, _, _, _ => by omega
  | 0, fuel+1, j, lo, hi, mid, _, e1, e2, _, h1, h2, _, _, hm => by
    have e2' : hi - lo = 7 / 10240 := by rw [e2]; norm_num
    rw [bisect, if_neg]
    · refine ⟨mid, rfl, ?_⟩
      rcases hm rfl with rfl | rfl
      · rw [abs_le]; constructor <;> linarith
      · rw [abs_le]; constructor <;> linarith
    · rw [e2', abs_of_pos (by norm_num)]; norm_num
  | n+1, fuel+1, j, lo, hi, mid, hn, e1, e2, h3, h1, h2, _, hn10, _ => by
    have hw : hi - lo = 2 * (0.7 * 2 ^ n / 1024) := by rw [e2, pow_succ]; ring
    have hp : (1:ℝ) ≤ 2 ^ n := one_le_pow₀ (by norm_num)
    have hlo : 0.3 ≤ lo := by rw [e1]; have : (0:ℝ) ≤ j := Nat.cast_nonneg j; linarith [mul_nonneg (by norm_num : (0:ℝ) ≤ 0.7) this]
    obtain ⟨m, hm⟩ : ∃ m, m = (hi + lo) / 2 := ⟨_, rfl⟩
    have em : m = lo + 0.7 * 2 ^ n / 1024 := by rw [hm]; linarith
    have em' : hi = m + 0.7 * 2 ^ n / 1024 := by rw [em]; linarith
    have ej : m = 0.3 + 0.7 * ((j + 2 ^ n : ℕ) : ℝ) / 1024 := by rw [em, e1]; push_cast; ring
    have hmg : m ≠ g := fun h => grid _ (h ▸ ej)
    have hlm : lo < m := by rw [em]; linarith
    have hmh : m < hi := by rw [em']; linarith
    have flo : 0 < f lo := by
      have := hf ⟨hlo, by linarith⟩ hg h1
      rw [h0] at this; exact this
    rw [bisect, if_pos (by rw [hw, abs_of_pos (by linarith)]; linarith)]
    dsimp only
    rw [← hm]
    rcases lt_or_gt_of_ne hmg with hlt | hgt
    · have fm : 0 < f m := by
        have := hf ⟨by linarith, by linarith⟩ hg hlt
        rw [h0] at this; exact this
      rw [if_neg (not_lt.2 (mul_pos flo fm).le)]
      exact bisect_root hf hg h0 grid n fuel (j + 2 ^ n) m hi m (by omega) ej em' h3 hlt h2 (fun _ => Or.inl rfl) (by omega) (fun _ => Or.inl rfl)
    · have fm : f m < 0 := by
        have := hf hg ⟨by linarith, by linarith⟩ hgt
        rw [h0] at this; exact this
      rw [if_pos (mul_neg_of_pos_of_neg flo fm)]
      exact bisect_root hf hg h0 grid n fuel j lo m m (by omega) e1 em (by linarith) h1 hgt (fun _ => Or.inr rfl) (by omega) (fun _ => Or.inr rfl)

/-- C137: the Hubble parameter from the CMB.  If, with the quadrature that is used, the distance falls strictly with the Hubble parameter between 0.3 and 1, and `g` is the one between them for which the distance
to the last scattering is 302.4/π sound horizons, then the result is within 7/10240 of it - unless `g` is exactly one of the 1023 numbers that the bisection may try. -/
theorem C137_hubble_partial {quad : (ℝ → ℝ) → ℝ → ℝ → ℝ} {wb wm w : ℝ} (hD : StrictAntiOn (fun h => distLS quad ⟨h, w, 0, wm, wb⟩) (Icc 0.3 1)) {g : ℝ} (hg : g ∈ Ioo (0.3:ℝ) 1)
    (h0 : distLS quad ⟨g, w, 0, wm, wb⟩ = 302.4 / 3.141592653589793 * soundHorizon ⟨g, w, 0, wm, wb⟩) (grid : ∀ j : ℕ, g ≠ 0.3 + 0.7 * j / 1024) :
    ∃ h, h0FromCMB quad wb wm w = some h ∧ |h - g| ≤ 7 / 10240 := by
  unfold h0FromCMB solvehh
  dsimp only
  obtain ⟨d, hd⟩ : ∃ d, d = 302.4 * soundHorizon ⟨0.72, w, 0, wm, wb⟩ / 3.141592653589793 := ⟨_, rfl⟩
  rw [← hd]
  have hd' : distLS quad ⟨g, w, 0, wm, wb⟩ = d := by
    rw [h0, hd, show soundHorizon ⟨g, w, 0, wm, wb⟩ = soundHorizon ⟨0.72, w, 0, wm, wb⟩ from rfl]; ring
  exact bisect_root (f := fun h => distLS quad ⟨h, w, 0, wm, wb⟩ - d) (fun x hx y hy hxy => sub_lt_sub_right (hD hx hy hxy) d) ⟨hg.1.le, hg.2.le⟩ (sub_eq_zero.2 hd') grid 10 20 0 0.3 1 0.72
    (by norm_num) (by norm_num) (by norm_num) le_rfl hg.1 hg.2 (fun h => absurd h (by norm_num)) le_rfl (fun h => absurd h (by norm_num))

theorem bisect_right {f : ℝ → ℝ} {hi w : ℝ} (w0 : 1e-3 / 2 < w) (w1 : w ≤ 1e-3) : ∀ (n fuel : ℕ) (lo y : ℝ), n < fuel → hi - lo = 2 ^ n * w →
    (∀ a b, lo < a → a < hi → lo < b → b < hi → 0 ≤ f a * f b) → (∀ a, lo < a → a < hi → 0 ≤ y * f a) → bisect f fuel lo hi y lo = some (hi - w)
  | _, 0, _, _, h, _, _, _ => by omega
  | 0, fuel+1, lo, y, _, e, _, _ => by
    rw [pow_zero, one_mul] at e
    rw [bisect, if_neg, show hi - w = lo by linarith]
    rw [e, abs_of_pos (by linarith), not_lt]
    exact w1
  | n+1, fuel+1, lo, y, hn, e, h1, h2 => by
    have hp : (1:ℝ) ≤ 2 ^ n := one_le_pow₀ (by norm_num)
    rw [pow_succ] at e
    have e2 : 1e-3 / 2 < 2 ^ n * w := by nlinarith
    rw [bisect, if_pos (by rw [abs_of_pos (by linarith)]; linarith)]
    dsimp only
    have l1 : lo < (hi + lo) / 2 := by linarith
    have l2 : (hi + lo) / 2 < hi := by linarith
    rw [if_neg (not_lt.2 (h2 _ l1 l2))]
    exact bisect_right w0 w1 n fuel _ _ (by omega) (by linarith) (fun a b ha ha' hb hb' => h1 a b (by linarith) ha' (by linarith) hb') fun a ha ha' => h1 _ a l1 l2 (by linarith) ha'

/-- C137, what is missing: if the distance of the CMB is not reached between 0.3 and 1, the result is 1 - 7/10240, without a word. -/
theorem C137_unbracketed_counterexample {quad : (ℝ → ℝ) → ℝ → ℝ → ℝ} {wb wm w : ℝ} (h : (∀ h ∈ Icc (0.3:ℝ) 1, 302.4 * soundHorizon ⟨0.72, w, 0, wm, wb⟩ / 3.141592653589793 < distLS quad ⟨h, w, 0, wm, wb⟩) ∨
      ∀ h ∈ Icc (0.3:ℝ) 1, distLS quad ⟨h, w, 0, wm, wb⟩ < 302.4 * soundHorizon ⟨0.72, w, 0, wm, wb⟩ / 3.141592653589793) :
    h0FromCMB quad wb wm w = some (1 - 7 / 10240) := by
  unfold h0FromCMB solvehh
  dsimp only
  obtain ⟨d, hd⟩ : ∃ d, d = 302.4 * soundHorizon ⟨0.72, w, 0, wm, wb⟩ / 3.141592653589793 := ⟨_, rfl⟩
  rw [← hd] at h ⊢
  have hh : ∀ a ∈ Icc (0.3:ℝ) 1, ∀ b ∈ Icc (0.3:ℝ) 1, 0 ≤ (distLS quad ⟨a, w, 0, wm, wb⟩ - d) * (distLS quad ⟨b, w, 0, wm, wb⟩ - d) := by
    intro a ha b hb
    rcases h with h | h
    · exact mul_nonneg (sub_nonneg.2 (h a ha).le) (sub_nonneg.2 (h b hb).le)
    · exact mul_nonneg_of_nonpos_of_nonpos (sub_nonpos.2 (h a ha).le) (sub_nonpos.2 (h b hb).le)
  have m : ((1:ℝ) + 0.3) / 2 ∈ Icc (0.3:ℝ) 1 := by constructor <;> norm_num
  have l : (0.3:ℝ) ∈ Icc (0.3:ℝ) 1 := by constructor <;> norm_num
  rw [bisect, if_pos (by rw [abs_of_pos] <;> norm_num)]
  dsimp only
  rw [if_neg (not_lt.2 (hh _ l _ m))]
  exact bisect_right (by norm_num) (by norm_num) 9 19 _ _ (by norm_num) (by norm_num) (fun a b ha ha' hb hb' => hh a ⟨by linarith [m.1], ha'.le⟩ b ⟨by linarith [m.1], hb'.le⟩)
    fun a ha ha' => hh _ m a ⟨by linarith [m.1], ha'.le⟩

/-- C137, what is missing: if the bisection hits the Hubble parameter exactly it loses it: if 0.65 is the right one, the result is 1 - 7/10240. -/
theorem C137_hit_counterexample {quad : (ℝ → ℝ) → ℝ → ℝ → ℝ} {wb wm w : ℝ} (hD : StrictAntiOn (fun h => distLS quad ⟨h, w, 0, wm, wb⟩) (Icc 0.3 1))
    (h0 : distLS quad ⟨0.65, w, 0, wm, wb⟩ = 302.4 * soundHorizon ⟨0.65, w, 0, wm, wb⟩ / 3.141592653589793) : h0FromCMB quad wb wm w = some (1 - 7 / 10240) := by
  unfold h0FromCMB solvehh
  dsimp only
  rw [show soundHorizon ⟨0.65, w, 0, wm, wb⟩ = soundHorizon ⟨0.72, w, 0, wm, wb⟩ from rfl] at h0
  obtain ⟨d, hd⟩ : ∃ d, d = 302.4 * soundHorizon ⟨0.72, w, 0, wm, wb⟩ / 3.141592653589793 := ⟨_, rfl⟩
  rw [← hd] at h0 ⊢
  have e : ((1:ℝ) + 0.3) / 2 = 0.65 := by norm_num
  have neg : ∀ a, 0.65 < a → a ≤ 1 → distLS quad ⟨a, w, 0, wm, wb⟩ - d < 0 := by
    intro a ha ha'
    have := hD (show (0.65:ℝ) ∈ Icc (0.3:ℝ) 1 by constructor <;> norm_num) ⟨by linarith, ha'⟩ ha
    dsimp only at this
    linarith
  rw [bisect, if_pos (by rw [abs_of_pos] <;> norm_num)]
  dsimp only
  rw [e, h0, sub_self, mul_zero, if_neg (lt_irrefl 0)]
  exact bisect_right (by norm_num) (by norm_num) 9 19 _ _ (by norm_num) (by norm_num) (fun a b ha ha' hb hb' => (mul_pos_of_neg_of_neg (neg a ha ha'.le) (neg b hb hb'.le)).le)
    fun a _ _ => by rw [zero_mul]

/-- a case of `C137_hubble_partial`: with this quadrature the distance falls with the Hubble parameter, and 0.7 is the right one -/
example : ∃ (quad : (ℝ → ℝ) → ℝ → ℝ → ℝ) (wb wm w : ℝ), StrictAntiOn (fun h => distLS quad ⟨h, w, 0, wm, wb⟩) (Icc 0.3 1) ∧
    distLS quad ⟨0.7, w, 0, wm, wb⟩ = 302.4 / 3.141592653589793 * soundHorizon ⟨0.7, w, 0, wm, wb⟩ ∧ ∀ j : ℕ, (0.7:ℝ) ≠ 0.3 + 0.7 * j / 1024 := by
  obtain ⟨d, hd⟩ : ∃ d, d = 302.4 / 3.141592653589793 * soundHorizon ⟨0.7, -1, 0, 0.13, 0.0225⟩ := ⟨_, rfl⟩
  -- the rate at a = 1 tells the Hubble parameter
  have hr : ∀ h : ℝ, 0 < h → hubble ⟨h, -1, 0, 0.13, 0.0225⟩ 1 = 100 * Real.sqrt (4.15e-5 + h ^ 2) := by
    intro h hh
    rw [hubble_eq hh]
    unfold rate2
    congr 2
    norm_num
    ring
  refine ⟨fun f _ _ => (1 / (f 1) / 100 * (-1) + Real.sqrt (4.15e-5 + 0.7 ^ 2)) / 299792.458 + d / 299792.458, 0.0225, 0.13, -1, ?_, ?_, ?_⟩
  · intro a ha b hb hab
    have a0 : 0 < a := by linarith [ha.1]
    have b0 : 0 < b := by linarith [hb.1]
    unfold distLS coDistance
    dsimp only
    rw [hr a a0, hr b b0]
    have := Real.sqrt_lt_sqrt (show (0:ℝ) ≤ 4.15e-5 + a ^ 2 by positivity) (show 4.15e-5 + a ^ 2 < 4.15e-5 + b ^ 2 by nlinarith)
    rw [mul_div_assoc, div_self b0.ne', mul_div_assoc, div_self a0.ne']
    have e : ∀ s : ℝ, 1 / (1 / (1 * 1 * (100 * s))) / 100 = s := by intro s; rw [one_div_one_div]; ring
    rw [e, e]
    have k : ∀ s : ℝ, ((s * (-1) + Real.sqrt (4.15e-5 + 0.7 ^ 2)) / 299792.458 + d / 299792.458) * 299792.458 * 1 = -s + Real.sqrt (4.15e-5 + 0.7 ^ 2) + d := by
      intro s; field_simp
    rw [k, k]
    linarith
  · unfold distLS coDistance
    dsimp only
    rw [hr 0.7 (by norm_num), ← hd, mul_div_assoc, div_self (by norm_num)]
    have e : ∀ s : ℝ, 1 / (1 / (1 * 1 * (100 * s))) / 100 = s := by intro s; rw [one_div_one_div]; ring
    rw [e]
    ring
  · intro j h
    have h1 : (7:ℝ) * j = 4096 := by linarith
    have h2 : 7 * j = 4096 := by exact_mod_cast h1
    omega

/-- a case of `C137_accept_partial` -/
example {W : World} (hW : W.Shipped) : ∃ s, create W ⟨0.0225 / 0.49, 0.13 / 0.49, 0.96, 0.7, -1, 0.8⟩ (some 0.5) false = .ok s :=
  (C137_accept_partial hW _ 0.5 false).2.2 (by unfold Box dy; norm_num) (by unfold dy; norm_num) (by unfold dy; norm_num)

end

end Verif.Emu
