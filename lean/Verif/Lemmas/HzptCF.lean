/-
Fourier integrals of decaying exponentials, and the algebra of the poles of the Pade function.
-/
import Verif.Model.HzptCF
import Mathlib.MeasureTheory.Integral.IntegralEqImproper
import Mathlib.MeasureTheory.Integral.ExpDecay
import Mathlib.Analysis.SpecialFunctions.Trigonometric.Deriv

namespace Verif.Hzpt

open MeasureTheory Set Filter Topology

theorem exp_sin_int {m k : ℝ} (hm : 0 < m) : IntegrableOn (fun r => Real.exp (-m * r) * Real.sin (k * r)) (Ioi 0) := by
  have h : IntegrableOn (fun r : ℝ => Real.exp (-m * r)) (Ioi 0) := exp_neg_integrableOn_Ioi 0 hm
  refine h.mono' (by fun_prop) ?_
  refine Eventually.of_forall fun r => ?_
  rw [Real.norm_eq_abs, abs_mul, Real.abs_exp]
  exact mul_le_of_le_one_right (Real.exp_pos _).le (Real.abs_sin_le_one _)

theorem exp_sin_integral {m k : ℝ} (hm : 0 < m) : ∫ r in Ioi (0:ℝ), Real.exp (-m * r) * Real.sin (k * r) = k / (m ^ 2 + k ^ 2) := by
  have hd : m ^ 2 + k ^ 2 ≠ 0 := by positivity
  have hder : ∀ r ∈ Ici (0:ℝ), HasDerivAt (fun r => -(Real.exp (-m * r) * (m * Real.sin (k * r) + k * Real.cos (k * r))) / (m ^ 2 + k ^ 2)) (Real.exp (-m * r) * Real.sin (k * r)) r := by
    intro r _
    have e1 : HasDerivAt (fun r : ℝ => Real.exp (-m * r)) (Real.exp (-m * r) * (-m * 1)) r := ((hasDerivAt_id r).const_mul (-m)).exp
    have e2 : HasDerivAt (fun r : ℝ => Real.sin (k * r)) (Real.cos (k * r) * (k * 1)) r := ((hasDerivAt_id r).const_mul k).sin
    have e3 : HasDerivAt (fun r : ℝ => Real.cos (k * r)) (-Real.sin (k * r) * (k * 1)) r := ((hasDerivAt_id r).const_mul k).cos
    refine (((e1.mul ((e2.const_mul m).add (e3.const_mul k))).neg).div_const (m ^ 2 + k ^ 2)).congr_deriv ?_
    simp only [Pi.add_apply]
    field_simp
    ring
  have hlim : Tendsto (fun r => -(Real.exp (-m * r) * (m * Real.sin (k * r) + k * Real.cos (k * r))) / (m ^ 2 + k ^ 2)) atTop (𝓝 0) := by
    have h0 : Tendsto (fun r : ℝ => Real.exp (-m * r)) atTop (𝓝 0) := by
      refine Real.tendsto_exp_atBot.comp ?_
      exact tendsto_id.const_mul_atTop_of_neg (by linarith)
    have hb : Tendsto (fun r : ℝ => Real.exp (-m * r) * (m * Real.sin (k * r) + k * Real.cos (k * r))) atTop (𝓝 0) := by
      refine squeeze_zero_norm (a := fun r => Real.exp (-m * r) * (|m| + |k|)) (fun r => ?_) ?_
      · rw [Real.norm_eq_abs, abs_mul, Real.abs_exp]
        refine mul_le_mul_of_nonneg_left ?_ (Real.exp_pos _).le
        refine (abs_add_le _ _).trans ?_
        rw [abs_mul, abs_mul]
        exact add_le_add (mul_le_of_le_one_right (abs_nonneg _) (Real.abs_sin_le_one _)) (mul_le_of_le_one_right (abs_nonneg _) (Real.abs_cos_le_one _))
      · simpa using h0.mul_const (|m| + |k|)
    simpa using (hb.neg).div_const (m ^ 2 + k ^ 2)
  rw [integral_Ioi_of_hasDerivAt_of_tendsto' hder (exp_sin_int hm) hlim]
  simp [neg_div]

/-- the transform of a sum of three such terms -/
theorem three_transform {N c1 c2 c3 m1 m2 m3 k : ℝ} (h1 : 0 < m1) (h2 : 0 < m2) (h3 : 0 < m3) (hk : 0 < k) {f : ℝ → ℝ}
    (hf : ∀ r, 0 < r → 4 * Real.pi * r ^ 2 * f r * (Real.sin (k * r) / (k * r)) = N / k * (c1 * Real.exp (-m1 * r) + c2 * Real.exp (-m2 * r) + c3 * Real.exp (-m3 * r)) * Real.sin (k * r)) :
    IntegrableOn (fun r => 4 * Real.pi * r ^ 2 * f r * (Real.sin (k * r) / (k * r))) (Ioi 0) ∧
    ∫ r in Ioi (0:ℝ), 4 * Real.pi * r ^ 2 * f r * (Real.sin (k * r) / (k * r)) = N * (c1 / (m1 ^ 2 + k ^ 2) + c2 / (m2 ^ 2 + k ^ 2) + c3 / (m3 ^ 2 + k ^ 2)) := by
  have i1 := (exp_sin_int (k := k) h1).const_mul (N / k * c1)
  have i2 := (exp_sin_int (k := k) h2).const_mul (N / k * c2)
  have i3 := (exp_sin_int (k := k) h3).const_mul (N / k * c3)
  have i12 : IntegrableOn (fun r => N / k * c1 * (Real.exp (-m1 * r) * Real.sin (k * r)) + N / k * c2 * (Real.exp (-m2 * r) * Real.sin (k * r))) (Ioi 0) := i1.add i2
  have hI : IntegrableOn (fun r => N / k * c1 * (Real.exp (-m1 * r) * Real.sin (k * r)) + N / k * c2 * (Real.exp (-m2 * r) * Real.sin (k * r)) + N / k * c3 * (Real.exp (-m3 * r) * Real.sin (k * r))) (Ioi 0) := i12.add i3
  have he : ∀ r ∈ Ioi (0:ℝ), N / k * c1 * (Real.exp (-m1 * r) * Real.sin (k * r)) + N / k * c2 * (Real.exp (-m2 * r) * Real.sin (k * r)) + N / k * c3 * (Real.exp (-m3 * r) * Real.sin (k * r)) =
      4 * Real.pi * r ^ 2 * f r * (Real.sin (k * r) / (k * r)) := by
    intro r hr
    rw [hf r hr]
    ring
  refine ⟨hI.congr_fun he measurableSet_Ioi, ?_⟩
  rw [← setIntegral_congr_fun measurableSet_Ioi he, integral_add i12 i3, integral_add i1 i2,
    integral_const_mul, integral_const_mul, integral_const_mul, exp_sin_integral h1, exp_sin_integral h2, exp_sin_integral h3]
  have := hk.ne'
  field_simp

/-- partial fractions -/
theorem pade_fractions {A0 X Y K α β : ℝ} (hX : X ≠ 0) (hα : α ≠ 0) (hβ : β ≠ 0) (h1 : X - α ≠ 0) (h2 : X - β ≠ 0) (h3 : α - β ≠ 0) (g1 : 1 + K * X ≠ 0) (g2 : 1 + K * α ≠ 0) (g3 : 1 + K * β ≠ 0) :
    -A0 * X / ((X - β) * (X - α)) * ((X - Y) / (1 + K * X) + (Y - α) * (X - β) / (α - β) / (1 + K * α) + -(Y - β) * (X - α) / (α - β) / (1 + K * β)) =
      (1 - 1 / (1 + K * X)) * A0 * (1 + K * Y) / ((1 + K * β) * (1 + K * α)) := by
  obtain ⟨p, hp⟩ : ∃ p, p = 1 + K * X := ⟨_, rfl⟩
  obtain ⟨q, hq⟩ : ∃ p, p = 1 + K * α := ⟨_, rfl⟩
  obtain ⟨w, hw⟩ : ∃ p, p = 1 + K * β := ⟨_, rfl⟩
  obtain ⟨a, ha⟩ : ∃ p, p = X - α := ⟨_, rfl⟩
  obtain ⟨b, hb⟩ : ∃ p, p = X - β := ⟨_, rfl⟩
  obtain ⟨c, hc⟩ : ∃ p, p = α - β := ⟨_, rfl⟩
  rw [← hp, ← hq, ← hw, ← ha, ← hb, ← hc]
  rw [← hp] at g1; rw [← hq] at g2; rw [← hw] at g3; rw [← ha] at h1; rw [← hb] at h2; rw [← hc] at h3
  field_simp
  subst hp hq hw ha hb hc
  ring

end Verif.Hzpt
