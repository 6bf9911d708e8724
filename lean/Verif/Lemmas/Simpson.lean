/-
The errors of one panel of the trapezoid rule and of the Simpson rule.
-/
import Mathlib.MeasureTheory.Integral.IntervalIntegral.FundThmCalculus
import Mathlib.Analysis.Calculus.MeanValue
import Mathlib.Analysis.Calculus.Deriv.Pow
import Mathlib.Tactic

namespace Verif.Simpson

open Set

/-- A function that vanishes at zero with derivative at most `C t^n` is at most `C t^(n+1)/(n+1)`. -/
theorem grow (F F' : ℝ → ℝ) (T C : ℝ) (n : ℕ) (h0 : F 0 = 0) (hF : ∀ t ∈ Icc 0 T, HasDerivWithinAt F (F' t) (Icc 0 T) t)
    (hb : ∀ t ∈ Icc 0 T, |F' t| ≤ C * t ^ n) : ∀ t ∈ Icc 0 T, |F t| ≤ C * t ^ (n + 1) / (n + 1) := by
  intro t ht
  have hn : ((n : ℝ) + 1) ≠ 0 := by positivity
  have := image_norm_le_of_norm_deriv_right_le_deriv_boundary (f := F) (f' := F') (a := 0) (b := T)
    (B := fun t => C * t ^ (n + 1) / (n + 1)) (B' := fun t => C * t ^ n)
    (fun t ht => (hF t ht).continuousWithinAt)
    (fun t ht => (hF t ⟨ht.1, ht.2.le⟩).mono_of_mem_nhdsWithin (Filter.mem_of_superset (Icc_mem_nhdsGE ht.2) (Icc_subset_Icc_left ht.1)))
    (by simp [h0]) (fun t => by
      have := ((hasDerivAt_pow (n + 1) t).const_mul C).div_const ((n : ℝ) + 1)
      refine this.congr_deriv ?_
      push_cast
      field_simp)
    (fun t ht => by simpa using hb t ⟨ht.1, ht.2.le⟩) (x := t) ht
  simpa using this

variable {f f1 f2 f3 f4 : ℝ → ℝ}

/-- A function with a derivative on an interval has an antiderivative on it, which gives its integrals. -/
theorem antiderivative (a b : ℝ) (hab : a ≤ b) (h0 : ContinuousOn f (Icc a b)) :
    ∃ A : ℝ → ℝ, (∀ x ∈ Icc a b, HasDerivWithinAt A (f x) (Icc a b) x) ∧
      ∀ x ∈ Icc a b, ∀ y ∈ Icc a b, ∫ s in x..y, f s = A y - A x := by
  have hint : ∀ x ∈ Icc a b, ∀ y ∈ Icc a b, IntervalIntegrable f MeasureTheory.volume x y :=
    fun x hx y hy => (h0.mono (ordConnected_Icc.uIcc_subset hx hy)).intervalIntegrable
  have ha : a ∈ Icc a b := ⟨le_rfl, hab⟩
  refine ⟨fun x => ∫ s in a..x, f s, fun x hx => ?_, fun x hx y hy => ?_⟩
  · have : Fact (x ∈ Icc a b) := ⟨hx⟩
    exact intervalIntegral.integral_hasDerivWithinAt_right (hint a ha x hx)
      (h0.stronglyMeasurableAtFilter_nhdsWithin measurableSet_Icc x) (h0 x hx)
  · rw [eq_sub_iff_add_eq, add_comm]
    exact intervalIntegral.integral_add_adjacent_intervals (hint a ha x hx) (hint x hx y hy)

/-- The Simpson rule on `[c-T, c+T]`. -/
theorem simpson_panel (c T M : ℝ) (hT : 0 ≤ T)
    (h0 : ∀ x ∈ Icc (c - T) (c + T), HasDerivWithinAt f (f1 x) (Icc (c - T) (c + T)) x)
    (h1 : ∀ x ∈ Icc (c - T) (c + T), HasDerivWithinAt f1 (f2 x) (Icc (c - T) (c + T)) x)
    (h2 : ∀ x ∈ Icc (c - T) (c + T), HasDerivWithinAt f2 (f3 x) (Icc (c - T) (c + T)) x)
    (h3 : ∀ x ∈ Icc (c - T) (c + T), HasDerivWithinAt f3 (f4 x) (Icc (c - T) (c + T)) x)
    (hM : ∀ x ∈ Icc (c - T) (c + T), |f4 x| ≤ M) :
    |T / 3 * (f (c - T) + 4 * f c + f (c + T)) - ∫ x in (c - T)..(c + T), f x| ≤ M * T ^ 5 / 90 := by
  have hp : ∀ t ∈ Icc 0 T, c + t ∈ Icc (c - T) (c + T) := fun t ht => ⟨by linarith [ht.1], by linarith [ht.2]⟩
  have hm : ∀ t ∈ Icc 0 T, c - t ∈ Icc (c - T) (c + T) := fun t ht => ⟨by linarith [ht.2], by linarith [ht.1]⟩
  have dp : ∀ {u u' : ℝ → ℝ}, (∀ x ∈ Icc (c - T) (c + T), HasDerivWithinAt u (u' x) (Icc (c - T) (c + T)) x) →
      ∀ t ∈ Icc 0 T, HasDerivWithinAt (fun t => u (c + t)) (u' (c + t)) (Icc 0 T) t := by
    intro u u' hu t ht
    have := (hu _ (hp t ht)).comp t ((hasDerivAt_id t).const_add c).hasDerivWithinAt hp
    exact this.congr_deriv (by simp)
  have dm : ∀ {u u' : ℝ → ℝ}, (∀ x ∈ Icc (c - T) (c + T), HasDerivWithinAt u (u' x) (Icc (c - T) (c + T)) x) →
      ∀ t ∈ Icc 0 T, HasDerivWithinAt (fun t => u (c - t)) (-u' (c - t)) (Icc 0 T) t := by
    intro u u' hu t ht
    have := (hu _ (hm t ht)).comp t ((hasDerivAt_id t).const_sub c).hasDerivWithinAt hm
    exact this.congr_deriv (by simp)
  have hid : ∀ t, HasDerivWithinAt (fun t : ℝ => t / 3) (1 / 3) (Icc 0 T) t := fun t => ((hasDerivAt_id t).div_const 3).hasDerivWithinAt
  have hf3 : ∀ t ∈ Icc 0 T, |f3 (c + t) - f3 (c - t)| ≤ M * (2 * t) := by
    intro t ht
    have := (convex_Icc (c - T) (c + T)).norm_image_sub_le_of_norm_hasDerivWithin_le (f := f3) (f' := f4) (C := M)
      h3 (fun x hx => by simpa using hM x hx) (hm t ht) (hp t ht)
    simp only [Real.norm_eq_abs] at this
    rwa [show c + t - (c - t) = 2 * t by ring, abs_of_nonneg (by linarith [ht.1] : (0 : ℝ) ≤ 2 * t)] at this
  have e2 := grow (fun t => 1 / 3 * (f1 (c + t) - f1 (c - t)) - t / 3 * (f2 (c + t) + f2 (c - t))) (fun t => -(t / 3) * (f3 (c + t) - f3 (c - t)))
    T (2 / 3 * M) 2 (by simp)
    (fun t ht => by
      have := (((dp h1 t ht).sub (dm h1 t ht)).const_mul (1 / 3)).sub ((hid t).mul ((dp h2 t ht).add (dm h2 t ht)))
      refine this.congr_deriv ?_
      simp only [Pi.add_apply]
      ring)
    (fun t ht => by
      rw [abs_mul, abs_neg, abs_of_nonneg (by linarith [ht.1] : (0 : ℝ) ≤ t / 3)]
      have := mul_le_mul_of_nonneg_left (hf3 t ht) (by linarith [ht.1] : (0 : ℝ) ≤ t / 3)
      calc _ ≤ _ := this
        _ = _ := by ring)
  have e1 := grow (fun t => 2 / 3 * (f (c + t) + f (c - t)) - 4 / 3 * f c - t / 3 * (f1 (c + t) - f1 (c - t)))
    (fun t => 1 / 3 * (f1 (c + t) - f1 (c - t)) - t / 3 * (f2 (c + t) + f2 (c - t)))
    T (2 / 9 * M) 3 (by simp; ring)
    (fun t ht => by
      have := ((((dp h0 t ht).add (dm h0 t ht)).const_mul (2 / 3)).sub_const (4 / 3 * f c)).sub ((hid t).mul ((dp h1 t ht).sub (dm h1 t ht)))
      refine this.congr_deriv ?_
      simp only [Pi.sub_apply]
      ring)
    (fun t ht => by
      have := e2 t ht
      calc _ ≤ _ := this
        _ = _ := by push_cast; ring)
  obtain ⟨A, hA, hAint⟩ := antiderivative (f := f) (c - T) (c + T) (by linarith) fun x hx => (h0 x hx).continuousWithinAt
  have e0 := grow (fun t => t / 3 * (f (c - t) + 4 * f c + f (c + t)) - (A (c + t) - A (c - t)))
    (fun t => -(2 / 3 * (f (c + t) + f (c - t)) - 4 / 3 * f c - t / 3 * (f1 (c + t) - f1 (c - t))))
    T (1 / 18 * M) 4 (by simp)
    (fun t ht => by
      have := ((hid t).mul (((dm h0 t ht).add_const (4 * f c)).add (dp h0 t ht))).sub ((dp hA t ht).sub (dm hA t ht))
      refine this.congr_deriv ?_
      simp only [Pi.add_apply]
      ring)
    (fun t ht => by
      rw [abs_neg]
      have := e1 t ht
      calc _ ≤ _ := this
        _ = _ := by push_cast; ring)
  have hTT : T ∈ Icc 0 T := ⟨hT, le_rfl⟩
  rw [hAint _ (hm T hTT) _ (hp T hTT)]
  calc _ ≤ _ := e0 T hTT
    _ = _ := by push_cast; ring

/-- The trapezoid rule on `[c, c+T]`. -/
theorem trapezoid_panel (c T M : ℝ) (hT : 0 ≤ T)
    (h0 : ∀ x ∈ Icc c (c + T), HasDerivWithinAt f (f1 x) (Icc c (c + T)) x)
    (h1 : ∀ x ∈ Icc c (c + T), HasDerivWithinAt f1 (f2 x) (Icc c (c + T)) x)
    (hM : ∀ x ∈ Icc c (c + T), |f2 x| ≤ M) :
    |T / 2 * (f c + f (c + T)) - ∫ x in c..(c + T), f x| ≤ M * T ^ 3 / 12 := by
  have hp : ∀ t ∈ Icc 0 T, c + t ∈ Icc c (c + T) := fun t ht => ⟨by linarith [ht.1], by linarith [ht.2]⟩
  have dp : ∀ {u u' : ℝ → ℝ}, (∀ x ∈ Icc c (c + T), HasDerivWithinAt u (u' x) (Icc c (c + T)) x) →
      ∀ t ∈ Icc 0 T, HasDerivWithinAt (fun t => u (c + t)) (u' (c + t)) (Icc 0 T) t := by
    intro u u' hu t ht
    have := (hu _ (hp t ht)).comp t ((hasDerivAt_id t).const_add c).hasDerivWithinAt hp
    exact this.congr_deriv (by simp)
  have hid : ∀ t, HasDerivWithinAt (fun t : ℝ => t / 2) (1 / 2) (Icc 0 T) t := fun t => ((hasDerivAt_id t).div_const 2).hasDerivWithinAt
  have e1 := grow (fun t => t / 2 * f1 (c + t) - 1 / 2 * (f (c + t) - f c)) (fun t => t / 2 * f2 (c + t))
    T (1 / 2 * M) 1 (by simp)
    (fun t ht => by
      have := ((hid t).mul (dp h1 t ht)).sub (((dp h0 t ht).sub_const (f c)).const_mul (1 / 2))
      refine this.congr_deriv ?_
      ring)
    (fun t ht => by
      rw [abs_mul, abs_of_nonneg (by linarith [ht.1] : (0 : ℝ) ≤ t / 2)]
      have := mul_le_mul_of_nonneg_left (hM _ (hp t ht)) (by linarith [ht.1] : (0 : ℝ) ≤ t / 2)
      calc _ ≤ _ := this
        _ = _ := by ring)
  obtain ⟨A, hA, hAint⟩ := antiderivative (f := f) c (c + T) (by linarith) fun x hx => (h0 x hx).continuousWithinAt
  have e0 := grow (fun t => t / 2 * (f c + f (c + t)) - (A (c + t) - A c)) (fun t => t / 2 * f1 (c + t) - 1 / 2 * (f (c + t) - f c))
    T (1 / 4 * M) 2 (by simp)
    (fun t ht => by
      have := ((hid t).mul ((dp h0 t ht).const_add (f c))).sub ((dp hA t ht).sub_const (A c))
      refine this.congr_deriv ?_
      ring)
    (fun t ht => by
      have := e1 t ht
      calc _ ≤ _ := this
        _ = _ := by push_cast; ring)
  have hTT : T ∈ Icc 0 T := ⟨hT, le_rfl⟩
  have hcc : c ∈ Icc c (c + T) := ⟨le_rfl, by linarith⟩
  rw [hAint _ hcc _ (hp T hTT)]
  calc _ ≤ _ := e0 T hTT
    _ = _ := by push_cast; ring

end Verif.Simpson
