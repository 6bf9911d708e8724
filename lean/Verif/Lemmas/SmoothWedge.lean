/-
Lemmas for C127: means over samples that lie one in each of equal cells.
-/
import Verif.Spec.SmoothWedge
import Mathlib.Analysis.SpecialFunctions.Integrals.Basic
import Mathlib.Topology.UniformSpace.HeineCantor

namespace Verif.SmoothWedge

open MeasureTheory intervalIntegral

noncomputable section

open Classical

theorem cell_sum (g : ℝ → ℝ) (lo w : ℝ) (hw : 0 ≤ w) (m : ℕ) (hc : ContinuousOn g (Set.Icc lo (lo + m * w))) :
    ∫ x in lo..(lo + m * w), g x = ∑ j ∈ Finset.range m, ∫ x in (lo + j * w)..(lo + (j + 1 : ℕ) * w), g x := by
  have h := sum_integral_adjacent_intervals (f := g) (a := fun j : ℕ => lo + j * w) (μ := volume) (n := m) (fun j hj => by
    refine ContinuousOn.intervalIntegrable (hc.mono ?_)
    have h1 : (j : ℝ) + 1 ≤ m := by exact_mod_cast hj
    have h2 : lo + (j : ℝ) * w ≤ lo + ((j + 1 : ℕ) : ℝ) * w := by push_cast; nlinarith
    rw [Set.uIcc_of_le h2]
    refine Set.Icc_subset_Icc ?_ ?_
    · have : 0 ≤ (j : ℝ) * w := by positivity
      linarith
    · push_cast; nlinarith)
  rw [h]
  simp

/-- Any bound `e j` of `∫ |g(x_j) - g|` over the `j`-th cell bounds the error of the mean. -/
theorem mean_error (g : ℝ → ℝ) (lo w : ℝ) (hw : 0 < w) (m : ℕ) (hm : 0 < m) (hc : ContinuousOn g (Set.Icc lo (lo + m * w))) (v : ℕ → ℝ) (E : ℝ)
    (he : ∀ j < m, |v j * w - ∫ x in (lo + j * w)..(lo + (j + 1 : ℕ) * w), g x| ≤ E) :
    |(∑ j ∈ Finset.range m, v j) / m - (∫ x in lo..(lo + m * w), g x) / (m * w)| ≤ E / w := by
  have hm' : (0 : ℝ) < m := by exact_mod_cast hm
  rw [cell_sum g lo w hw.le m hc]
  have h1 : (∑ j ∈ Finset.range m, v j) / m - (∑ j ∈ Finset.range m, ∫ x in (lo + j * w)..(lo + (j + 1 : ℕ) * w), g x) / (m * w) =
      (∑ j ∈ Finset.range m, (v j * w - ∫ x in (lo + j * w)..(lo + (j + 1 : ℕ) * w), g x)) / (m * w) := by
    rw [Finset.sum_sub_distrib, ← Finset.sum_mul]
    generalize (∑ j ∈ Finset.range m, ∫ x in (lo + j * w)..(lo + (j + 1 : ℕ) * w), g x) = I
    field_simp
  rw [h1, abs_div, abs_of_pos (by positivity : (0 : ℝ) < m * w), div_le_div_iff₀ (by positivity) hw]
  have h2 : |∑ j ∈ Finset.range m, (v j * w - ∫ x in (lo + j * w)..(lo + (j + 1 : ℕ) * w), g x)| ≤ m * E := by
    refine (Finset.abs_sum_le_sum_abs _ _).trans ?_
    calc _ ≤ ∑ _j ∈ Finset.range m, E := Finset.sum_le_sum (fun j hj => he j (Finset.mem_range.1 hj))
      _ = m * E := by simp
  nlinarith

theorem cell_const (g : ℝ → ℝ) (a b c e : ℝ) (hab : a ≤ b) (hc : ContinuousOn g (Set.Icc a b)) (he : ∀ x ∈ Set.Icc a b, |g c - g x| ≤ e) :
    |g c * (b - a) - ∫ x in a..b, g x| ≤ e * (b - a) := by
  have hi : IntervalIntegrable g volume a b := ContinuousOn.intervalIntegrable (by rwa [Set.uIcc_of_le hab])
  have h1 : g c * (b - a) - ∫ x in a..b, g x = ∫ x in a..b, (g c - g x) := by
    rw [integral_sub intervalIntegrable_const hi, intervalIntegral.integral_const, smul_eq_mul, mul_comm]
  rw [h1]
  have h2 := norm_integral_le_of_norm_le_const (a := a) (b := b) (C := e) (f := fun x => g c - g x) (fun x hx => by
    rw [Set.uIoc_of_le hab] at hx
    exact he x ⟨hx.1.le, hx.2⟩)
  rwa [abs_of_nonneg (by linarith : (0 : ℝ) ≤ b - a)] at h2

theorem cell_lip (g : ℝ → ℝ) (a b c L : ℝ) (hab : a < b) (hL : 0 ≤ L) (hc : ContinuousOn g (Set.Icc a b)) (hac : a ≤ c) (hcb : c ≤ b)
    (hl : ∀ x ∈ Set.Icc a b, |g c - g x| ≤ L * |c - x|) :
    |g c * (b - a) - ∫ x in a..b, g x| ≤ L * (b - a) ^ 2 / 2 := by
  have hi : IntervalIntegrable g volume a b := ContinuousOn.intervalIntegrable (by rwa [Set.uIcc_of_le hab.le])
  have h1 : g c * (b - a) - ∫ x in a..b, g x = ∫ x in a..b, (g c - g x) := by
    rw [integral_sub intervalIntegrable_const hi, intervalIntegral.integral_const, smul_eq_mul, mul_comm]
  have hb : ∀ x ∈ Set.Icc a b, |c - x| ≤ ((b - c) * (x - a) + (c - a) * (b - x)) / (b - a) := by
    intro x hx
    rw [le_div_iff₀ (by linarith)]
    rcases abs_cases (c - x) with ⟨h, _⟩ | ⟨h, _⟩ <;> rw [h] <;>
      nlinarith [mul_nonneg (sub_nonneg.2 hac) (sub_nonneg.2 hx.2), mul_nonneg (sub_nonneg.2 hcb) (sub_nonneg.2 hx.1)]
  rw [h1]
  have h2 : |∫ x in a..b, (g c - g x)| ≤ ∫ x in a..b, L * (((b - c) * (x - a) + (c - a) * (b - x)) / (b - a)) := by
    refine (abs_integral_le_integral_abs hab.le).trans ?_
    refine integral_mono_on hab.le ?_ ?_ ?_
    · exact (intervalIntegrable_const.sub hi).abs
    · exact Continuous.intervalIntegrable (by fun_prop) _ _
    · intro x hx
      exact (hl x hx).trans (mul_le_mul_of_nonneg_left (hb x hx) hL)
  refine h2.trans (le_of_eq ?_)
  have h3 : ∫ x in a..b, L * (((b - c) * (x - a) + (c - a) * (b - x)) / (b - a)) =
      ∫ x in a..b, (L / (b - a) * ((b - c) * (-a) + (c - a) * b) + L / (b - a) * ((b - c) - (c - a)) * x) := by
    congr 1; funext x; ring
  rw [h3, integral_add (by simp) (Continuous.intervalIntegrable (by fun_prop) _ _), intervalIntegral.integral_const, intervalIntegral.integral_const_mul, integral_id, smul_eq_mul]
  have : b - a ≠ 0 := by linarith
  field_simp
  ring

/-! ### The samples are consecutive -/

/-- The first and one past the last sample of a bin. -/
def first (N : ℕ) (lo : ℝ) : ℕ := ⌈lo * N⌉₊

/-- see `first` -/
def past (N : ℕ) (hi : ℝ) : ℕ := if EndsAtOne hi then N + 1 else ⌈hi * N⌉₊

theorem mem_samples_iff (N : ℕ) (hN : 0 < N) (lo hi : ℝ) (j : Fin (N + 1)) :
    j ∈ samples N lo hi ↔ first N lo ≤ j.val ∧ j.val < past N hi := by
  have hN' : (0 : ℝ) < N := by exact_mod_cast hN
  simp only [samples, Finset.mem_filter, Finset.mem_univ, true_and, first, past]
  rw [Nat.ceil_le, le_div_iff₀ hN']
  refine and_congr_right fun _ => ?_
  by_cases h : EndsAtOne hi
  · simp [h, j.isLt]
  · simp only [h, or_false, if_false]
    rw [Nat.lt_ceil, div_lt_iff₀ hN']

theorem past_le (N : ℕ) (hi : ℝ) (h1 : hi ≤ 1) : past N hi ≤ N + 1 := by
  unfold past
  split_ifs
  · exact le_rfl
  · rw [Nat.ceil_le]
    push_cast
    have : (0 : ℝ) ≤ N := by positivity
    nlinarith

theorem sum_samples (N : ℕ) (hN : 0 < N) (lo hi : ℝ) (h1 : hi ≤ 1) (f : ℕ → ℝ) :
    ∑ j ∈ samples N lo hi, f j.val = ∑ j ∈ Finset.range (past N hi - first N lo), f (first N lo + j) := by
  rw [← Finset.sum_Ico_eq_sum_range]
  refine Finset.sum_bij (fun j _ => j.val) ?_ ?_ ?_ ?_
  · intro j hj
    exact Finset.mem_Ico.2 ((mem_samples_iff N hN lo hi j).1 hj)
  · intro a _ b _ h; exact Fin.ext h
  · intro j hj
    rw [Finset.mem_Ico] at hj
    have := past_le N hi h1
    exact ⟨⟨j, by omega⟩, (mem_samples_iff N hN lo hi _).2 hj, rfl⟩
  · intro _ _; rfl

theorem card_samples (N : ℕ) (hN : 0 < N) (lo hi : ℝ) (h1 : hi ≤ 1) : (samples N lo hi).card = past N hi - first N lo := by
  have h := sum_samples N hN lo hi h1 (fun _ => 1)
  simp only [Finset.sum_const, nsmul_eq_mul, mul_one, Finset.card_range] at h
  exact_mod_cast h

theorem first_bounds (N : ℕ) (lo : ℝ) (h0 : 0 ≤ lo) : lo * N ≤ first N lo ∧ (first N lo : ℝ) < lo * N + 1 :=
  ⟨Nat.le_ceil _, Nat.ceil_lt_add_one (by positivity)⟩

theorem past_bounds (N : ℕ) (hi : ℝ) (h0 : 0 ≤ hi) (h1 : hi = 1 ∨ ¬ EndsAtOne hi) : hi * N ≤ past N hi ∧ (past N hi : ℝ) ≤ hi * N + 1 := by
  unfold past
  rcases h1 with rfl | h1
  · have : EndsAtOne 1 := by norm_num [EndsAtOne]
    rw [if_pos this]; push_cast; constructor <;> linarith
  · rw [if_neg h1]
    exact ⟨Nat.le_ceil _, (Nat.ceil_lt_add_one (by positivity)).le⟩

/-- The `j`-th sample of a bin lies in the `j`-th of as many equal cells as there are samples. -/
theorem sample_in_cell (N : ℕ) (hN : 0 < N) (lo hi : ℝ) (h0 : 0 ≤ lo) (hlh : lo < hi) (h1 : hi = 1 ∨ ¬ EndsAtOne hi) (m : ℕ)
    (hm : m = past N hi - first N lo) (hpos : 0 < m) (j : ℕ) (hj : j < m) :
    lo + j * ((hi - lo) / m) ≤ (first N lo + j : ℕ) / (N : ℝ) ∧ ((first N lo + j : ℕ) : ℝ) / N ≤ lo + (j + 1 : ℕ) * ((hi - lo) / m) := by
  have hN' : (0 : ℝ) < N := by exact_mod_cast hN
  have hm' : (0 : ℝ) < m := by exact_mod_cast hpos
  obtain ⟨a1, a2⟩ := first_bounds N lo h0
  obtain ⟨b1, b2⟩ := past_bounds N hi (by linarith) h1
  have hp : past N hi = first N lo + m := by omega
  rw [hp] at b1 b2
  push_cast at b1 b2 ⊢
  generalize (first N lo : ℝ) = F at *
  have hj' : (j : ℝ) + 1 ≤ m := by exact_mod_cast hj
  have hj0 : (0 : ℝ) ≤ j := by positivity
  constructor
  · rw [le_div_iff₀ hN']
    have e : (lo + j * ((hi - lo) / m)) * N = (lo * N * m + j * (hi * N - lo * N)) / m := by field_simp
    rw [e, div_le_iff₀ hm']
    nlinarith
  · rw [div_le_iff₀ hN']
    have e : (lo + (j + 1) * ((hi - lo) / m)) * N = (lo * N * m + (j + 1) * (hi * N - lo * N)) / m := by field_simp
    rw [e, le_div_iff₀ hm']
    nlinarith [mul_nonneg (sub_nonneg.2 hj') (sub_nonneg.2 a2.le)]

end

end Verif.SmoothWedge
