/-
C130: the fitting formulas for the velocity spectra, and concrete cases.
-/
import Verif.Props.SimSpectra
import Mathlib.Tactic.NormNum.OfScientific
import Mathlib.Analysis.SpecialFunctions.Pow.NNReal

namespace Verif.SimSpectra

open Verif.Interp Spec

noncomputable section

theorem jennings_eq (c : Coef) (m : Dark) (k p q : ℝ) (hp : m.P00 (m.sigma8_z / m.D) k = some p) (hq : m.P00 m.sigma8_z k = some q) :
    jennings c m k = ({ m with hzpt_sigma8 := m.sigma8_z }, some (fit c.a0 c.a1 c.a2 c.a3 m.D p q)) := by
  unfold jennings
  simp only [hp, hq, Prod.mk.injEq, true_and, Option.some.injEq]
  unfold fit today
  rw [← Real.sqrt_eq_rpow]
  have : ((D : ℝ) → (x : ℝ) → x / (3 / (D + D ^ 2 + D ^ 3)) ^ 2 = x * ((D + D ^ 2 + D ^ 3) / 3) ^ 2) := by
    intro D x
    rw [div_pow, div_div_eq_mul_div, div_pow, mul_div_assoc]
  rw [this]
  ring

/-- C130: the density-velocity and velocity spectra are `-f` and `f^2` times the formula of Jennings with the coefficients of the paper, from the matter spectrum today (sigma8
over the growth factor) and at the redshift asked for, and the model is left as it was. -/
theorem C130_jennings (m : Dark) (hsync : m.hzpt_sigma8 = m.sigma8_z) (k p q : ℝ) (hp : m.P00 (m.sigma8_z / m.D) k = some p) (hq : m.P00 m.sigma8_z k = some q) :
    pdvJennings m k = (m, some (-m.f * fit (-12483.8) 2.554 1381.29 2.540 m.D p q)) ∧
    pvvJennings m k = (m, some (m.f ^ 2 * fit (-12480.5) 1.824 2165.87 1.796 m.D p q)) := by
  have e : ({ m with hzpt_sigma8 := m.sigma8_z } : Dark) = m := by
    cases m
    simp only at hsync
    subst hsync
    rfl
  unfold pdvJennings pvvJennings
  rw [jennings_eq _ _ _ _ _ hp hq, jennings_eq _ _ _ _ _ hp hq, e]
  exact ⟨rfl, rfl⟩

/-- C130 is false of the code if the matter spectrum today cannot be computed: the exception leaves the model with the sigma8 of today, and later results of the matter
spectrum are those of another redshift. -/
theorem C130_exception_counterexample (m : Dark) (k : ℝ) (hp : m.P00 (m.sigma8_z / m.D) k = none) (hD : m.D ≠ 1) (hs : m.sigma8_z ≠ 0) (hsync : m.hzpt_sigma8 = m.sigma8_z) (hD0 : m.D ≠ 0) :
    (pdvJennings m k).2 = none ∧ (pdvJennings m k).1.hzpt_sigma8 = m.sigma8_z / m.D ∧ (pdvJennings m k).1.hzpt_sigma8 ≠ m.hzpt_sigma8 := by
  have e : (pdvJennings m k) = ({ m with hzpt_sigma8 := m.sigma8_z / m.D }, none) := by
    unfold pdvJennings jennings
    simp only [hp, Option.map_none]
  rw [e]
  refine ⟨rfl, rfl, ?_⟩
  simp only [hsync]
  intro h
  rw [div_eq_iff hD0] at h
  exact hD (mul_left_cancel₀ hs (by linarith))

/-- C130: the difference from the matter spectrum goes away at early times, at least as the square of the growth factor. -/
theorem C130_early (a0 a1 a2 a3 D p q : ℝ) (h0 : 0 ≤ D) (h1 : D ≤ 1) : |fit a0 a1 a2 a3 D p q - q| ≤ D ^ 2 * |fit a0 a1 a2 a3 1 p p - p| := by
  have e1 : fit a0 a1 a2 a3 D p q - q = ((D + D ^ 2 + D ^ 3) / 3) ^ 2 * (today a0 a1 a2 a3 p - p) := by unfold fit; ring
  have e2 : fit a0 a1 a2 a3 1 p p - p = today a0 a1 a2 a3 p - p := by unfold fit; ring
  rw [e1, e2, abs_mul, abs_of_nonneg (sq_nonneg _)]
  refine mul_le_mul_of_nonneg_right ?_ (abs_nonneg _)
  have : 0 ≤ (D + D ^ 2 + D ^ 3) / 3 := by positivity
  apply pow_le_pow_left₀ this
  nlinarith [mul_nonneg h0 (sub_nonneg.2 h1), mul_nonneg (mul_nonneg h0 h0) (sub_nonneg.2 h1)]

/-- C130: today the spectra are the fits themselves. -/
theorem C130_today (a0 a1 a2 a3 p : ℝ) : fit a0 a1 a2 a3 1 p p = (a0 * Real.sqrt p + a1 * p ^ 2) / (a2 + a3 * p) := by
  unfold fit today
  ring

/-- C130 is false of the code where the matter spectrum is small, on the largest and on the smallest scales: today the spectrum of the velocity divergence with itself,
which is never negative, comes out negative exactly if the matter spectrum is below `(12480.5 / 1.824)^(2/3)`, about 360 (Mpc/h)^3. -/
theorem C130_negative_counterexample (m : Dark) (hsync : m.hzpt_sigma8 = m.sigma8_z) (hD : m.D = 1) (hf : m.f ≠ 0) (k p : ℝ) (hp : m.P00 m.sigma8_z k = some p) (h0 : 0 < p) :
    ∃ v, (pvvJennings m k).2 = some v ∧ (v < 0 ↔ p ^ 3 < (12480.5 / 1.824) ^ 2) := by
  have hp' : m.P00 (m.sigma8_z / m.D) k = some p := by rw [hD, div_one]; exact hp
  refine ⟨_, by rw [(C130_jennings m hsync k p p hp' hp).2], ?_⟩
  rw [hD, C130_today]
  have hf2 : 0 < m.f ^ 2 := by positivity
  have hden : 0 < 2165.87 + 1.796 * p := by positivity
  rw [mul_neg_iff]
  have hsq : 0 < Real.sqrt p := Real.sqrt_pos.2 h0
  have hss : Real.sqrt p ^ 2 = p := Real.sq_sqrt h0.le
  have key : (-12480.5 * Real.sqrt p + 1.824 * p ^ 2) / (2165.87 + 1.796 * p) < 0 ↔ p ^ 3 < (12480.5 / 1.824) ^ 2 := by
    rw [div_lt_iff₀ hden, zero_mul]
    obtain ⟨r, hr⟩ : ∃ r, r = Real.sqrt p := ⟨_, rfl⟩
    rw [← hr] at hsq hss ⊢
    rw [← hss, show (r ^ 2) ^ 3 = (r ^ 3) ^ 2 by ring]
    have hr3 : 0 ≤ r ^ 3 := by positivity
    rw [sq_lt_sq₀ hr3 (by norm_num)]
    rw [lt_div_iff₀ (by norm_num)]
    constructor
    · intro h
      have : r * (r ^ 3 * 1.824) < r * 12480.5 := by nlinarith
      exact lt_of_mul_lt_mul_left this hsq.le
    · intro h
      have := mul_lt_mul_of_pos_left h hsq
      nlinarith
  rw [key]
  constructor
  · rintro (⟨_, h⟩ | ⟨h, _⟩)
    · exact h
    · linarith
  · exact fun h => Or.inl ⟨hf2, h⟩

/-! Concrete cases. -/

/-- two tables with two wavenumbers -/
def exData : List Sim := [(0, [(1, 6), (2, 4)]), (1, [(1, 3), (2, 1)])]

/-- a cosmology with growth factor `1 / (1 + z)` and growth rate `1 / 2` -/
def exF : Fiducial := ⟨fun z => 1 / (1 + z), fun _ => 1 / 2, fun k => 2 / k⟩

theorem ex_good : GoodData exData [0, 1] [1, 2] :=
  ⟨rfl, by intro s hs; fin_cases hs <;> rfl, ⟨by norm_num, by simp⟩, ⟨by norm_num, by simp⟩⟩

/-- In the middle of the table: the mean of the four normalised entries 12, 16, 24, 16 of P11, times `(f sigma8)^2 P / sigma8^2`. -/
example : ∃ o, Obj.make exF .P11 exData ⟨fun _ => 5, 0, 2⟩ (1 / 2) 3 1 = some o ∧ o.call (.scalar (3 / 2)) = .number (some (17 * (45 / 4))) := by
  obtain ⟨o, ho⟩ := (C130_make exF .P11 exData _ _ ex_good ⟨fun _ => 5, 0, 2⟩ (1 / 2) 3 1).2 rfl
  refine ⟨o, ho, ?_⟩
  rw [C130_inside exF .P11 exData _ _ ex_good _ _ _ _ o ho 2 (Or.inl ⟨rfl, rfl⟩) (3 / 2) 0 0 (by simp) (by simp) (by norm_num) (by norm_num) (fun _ _ => _) (fun _ _ => rfl)]
  congr 2
  norm_num [bilinear, simulated, exData, exF]

/-- At the last table, for the cosmology of the simulations. -/
example : ∃ o, Obj.make exF .Pdv exData ⟨exF.plin, 0, 2⟩ 1 (2 * exF.D 1) (exF.f 1) = some o ∧ o.call (.scalar 2) = .number (some 1) := by
  obtain ⟨o, ho⟩ := (C130_make exF .Pdv exData _ _ ex_good ⟨exF.plin, 0, 2⟩ 1 (2 * exF.D 1) (exF.f 1)).2 rfl
  exact ⟨o, ho, C130_fiducial exF .Pdv exData _ _ ex_good 2 1 1 (by simp) (by simp) (by norm_num) (by norm_num [exF]) (by norm_num [exF]) (by norm_num [exF]) o ho⟩

/-- Outside of the wavenumbers, and outside of the redshifts. -/
example : ∃ o, Obj.make exF .P11 exData ⟨fun _ => 5, 0, 2⟩ 3 3 1 = some o ∧ o.call (.array [1, 3]) = .domainError ∧ o.call (.scalar 2) = .number (some (16 * (15 / 4))) := by
  obtain ⟨o, ho⟩ := (C130_make exF .P11 exData _ _ ex_good ⟨fun _ => 5, 0, 2⟩ 3 3 1).2 rfl
  refine ⟨o, ho, ?_, ?_⟩
  · exact (C130_domain exF .P11 exData _ _ ex_good _ _ _ _ o ho _).1.2 ⟨3, by simp [Arg.list], Or.inr (by norm_num)⟩
  · have := (C130_outside exF .P11 exData _ _ ex_good _ _ _ _ o ho 2 (Or.inl ⟨rfl, rfl⟩) 1 (by simp)).1 (by norm_num)
    simp only [List.getD_cons_succ, List.getD_cons_zero] at this
    rw [this]
    congr 2
    norm_num [simulated, exData, exF]

/-- The velocity spectrum is negative for a matter spectrum of 100. -/
example : ∃ v, (pvvJennings ⟨fun _ _ => some 100, 1, 1, 1, 1 / 2⟩ 1).2 = some v ∧ v < 0 := by
  obtain ⟨v, h1, h2⟩ := C130_negative_counterexample ⟨fun _ _ => some 100, 1, 1, 1, 1 / 2⟩ rfl rfl (by norm_num) 1 100 rfl (by norm_num)
  exact ⟨v, h1, h2.2 (by norm_num)⟩

/-- An assignment history: the last values count. -/
example : ∃ o o', Obj.make exF .P11 exData ⟨fun _ => 5, 0, 2⟩ 3 3 1 = some o ∧ Obj.make exF .P11 exData ⟨fun _ => 7, 0, 2⟩ 1 4 1 = some o' ∧
    [Assign.z 2, .power_lin ⟨fun _ => 7, 0, 2⟩, .sigma8_z 4, .z 1].foldl Obj.assign o = o' := by
  obtain ⟨o, ho⟩ := (C130_make exF .P11 exData _ _ ex_good ⟨fun _ => 5, 0, 2⟩ 3 3 1).2 rfl
  exact ⟨o, _, ho, C130_assign_partial exF .P11 exData _ _ _ _ o ho [Assign.z 2, .power_lin ⟨fun _ => 7, 0, 2⟩, .sigma8_z 4, .z 1] ⟨fun _ => 7, 0, 2⟩ 1 4 1 rfl rfl rfl, rfl⟩

end

end Verif.SimSpectra
