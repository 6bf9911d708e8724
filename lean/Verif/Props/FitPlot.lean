/-
C144: plots of a fit show data and theory on the same footing.
-/
import Verif.Spec.FitPlot
import Verif.Props.TheoryAlign
import Mathlib.Analysis.SpecialFunctions.Integrals.Basic
import Mathlib.Data.List.GetD
import Mathlib.Tactic.FieldSimp
import Mathlib.Tactic.Linarith
import Mathlib.Tactic.NormNum

namespace Verif.FitPlot

open Verif.Cov

theorem part_eq {parts : List (List ℝ)} {stats : List Stat} (h : Predicts parts stats) (i : ℕ) (hi : i < parts.length) :
    part parts.flatten stats i = parts[i] := by
  obtain ⟨a, b, hab, -, -, hp, -⟩ := (C33_slices parts).2 i hi
  unfold part
  rw [← h, List.getD_eq_getElem?_getD, hab]
  exact hp

theorem Predicts.len {parts : List (List ℝ)} {stats : List Stat} (h : Predicts parts stats) : parts.length = stats.length := by
  simpa using congrArg List.length h

theorem Predicts.at {parts : List (List ℝ)} {stats : List Stat} (h : Predicts parts stats) (i : ℕ) (hi : i < parts.length)
    (hi' : i < stats.length) : (parts[i]).length = (stats[i]).k.length := by
  have := congrArg (fun l => l[i]?) h
  simpa [hi, hi'] using this

theorem normOf_length (wedges : Bool) (f b1 s8z s8 : ℝ) (pnw : ℝ → ℝ) (s : Stat) (hs : s.Whole) :
    (normOf wedges f b1 s8z s8 pnw s).length = s.k.length := by
  unfold normOf
  split
  · simp [hs.1]
  · simp

theorem zipWith_getD (g : ℝ → ℝ → ℝ) (a b : List ℝ) (n : ℕ) (ha : a.length = n) (hb : b.length = n) (j : ℕ) (hj : j < n) :
    (List.zipWith g a b).getD j 0 = g (a.getD j 0) (b.getD j 0) := by
  rw [List.getD_eq_getElem _ _ (by simp; omega), List.getElem_zipWith, List.getD_eq_getElem _ _ (by omega),
    List.getD_eq_getElem _ _ (by omega)]

/-- the points of the two kinds of curves -/
theorem curves_points {Col : Type} (norm : Stat → List ℝ) (off : ℝ) (cs : List Col) (parts : List (List ℝ)) (stats : List Stat)
    (hp : Predicts parts stats) (hw : ∀ s ∈ stats, s.Whole) (hn : ∀ s ∈ stats, (norm s).length = s.k.length)
    (t d : List (Curve Col)) (ct cd : List Col)
    (ht : theoryCurves norm off ct parts.flatten stats = some t) (off' : ℝ) (hd : dataCurves norm off' cd stats = some d) :
    t.length = stats.length ∧ d.length = stats.length ∧
    ∀ (i : ℕ) (hi : i < stats.length) (hit : i < t.length) (hid : i < d.length) (hip : i < parts.length),
      t[i].x = stats[i].k ∧ d[i].x = stats[i].k ∧ t[i].y.length = stats[i].k.length ∧ d[i].y.length = stats[i].k.length ∧
      d[i].err.length = stats[i].k.length ∧ ∀ j, j < stats[i].k.length →
        t[i].y.getD j 0 = parts[i].getD j 0 / (norm stats[i]).getD j 0 + off * i ∧
        d[i].y.getD j 0 = stats[i].power.getD j 0 / (norm stats[i]).getD j 0 + off' * i ∧
        d[i].err.getD j 0 = stats[i].error.getD j 0 / (norm stats[i]).getD j 0 := by
  unfold theoryCurves at ht
  unfold dataCurves at hd
  split_ifs at ht with h1
  split_ifs at hd with h2
  have ht' := Option.some.inj ht
  have hd' := Option.some.inj hd
  subst ht' hd'
  refine ⟨by simp; omega, by simp; omega, ?_⟩
  intro i hi hit hid hip
  have hm : stats[i] ∈ stats := List.getElem_mem hi
  obtain ⟨w1, w2, w3⟩ := hw _ hm
  have w4 := hn _ hm
  have w5 := hp.at i hip hi
  simp only [List.getElem_mapIdx, List.getElem_zip, part_eq hp i hip]
  refine ⟨trivial, trivial, by simp; omega, by simp; omega, by simp; omega, ?_⟩
  intro j hj
  refine ⟨?_, ?_, ?_⟩
  · exact zipWith_getD _ _ _ _ w5 w4 j hj
  · exact zipWith_getD _ _ _ _ w2 w4 j hj
  · exact zipWith_getD _ _ _ _ w3 w4 j hj

/-- **C144, the static plot.** Whatever the statistics, their bins, the prediction and a normalisation that does not vanish: the plot has one
theory curve and one data curve per statistic, in order, and they show its fit. -/
theorem C144_static {Col : Type} (wedges : Bool) (norm : Stat → List ℝ) (colors : List Col) (parts : List (List ℝ)) (stats : List Stat)
    (hp : Predicts parts stats) (hw : ∀ s ∈ stats, s.Whole) (hn : ∀ s ∈ stats, (norm s).length = s.k.length)
    (hz : ∀ s ∈ stats, ∀ n ∈ norm s, n ≠ 0)
    (t d : List (Curve Col)) (h : fitPlot wedges norm colors parts.flatten stats = some (t, d)) :
    t.length = stats.length ∧ d.length = stats.length ∧
    ∀ (i : ℕ) (hi : i < stats.length) (hit : i < t.length) (hid : i < d.length) (hip : i < parts.length),
      ShowsFit stats[i] parts[i] t[i] d[i] := by
  unfold fitPlot at h
  split at h
  · cases h
  next t' ht =>
    split at h
    · cases h
    next d' hd =>
      simp only [Option.some.injEq, Prod.mk.injEq] at h
      obtain ⟨rfl, rfl⟩ := h
      obtain ⟨l1, l2, hpts⟩ := curves_points norm _ [] parts stats hp hw hn _ _ _ _ ht _ hd
      refine ⟨l1, l2, fun i hi hit hid hip => ?_⟩
      obtain ⟨a1, a2, a3, a4, a5, a6⟩ := hpts i hi hit hid hip
      refine ⟨a1, a2, a3, a4, a5, fun j hj => ?_⟩
      obtain ⟨b1, b2, b3⟩ := a6 j hj
      have hne : (norm stats[i]).getD j 0 ≠ 0 := by
        have hl := hn _ (List.getElem_mem hi)
        rw [List.getD_eq_getElem _ _ (by omega)]
        exact hz _ (List.getElem_mem hi) _ (List.getElem_mem _)
      rw [b1, b2, b3]
      obtain ⟨n, hn'⟩ : ∃ n, n = (norm stats[i]).getD j 0 := ⟨_, rfl⟩
      rw [← hn'] at hne ⊢
      rw [add_sub_add_right_eq_sub, ← sub_div, div_div_div_cancel_right₀ hne]

theorem evens_length {A : Type} : ∀ l : List A, (evens l).length = (l.length + 1) / 2
  | [] => by simp [evens]
  | [a] => by simp [evens]
  | a :: b :: l => by
    simp only [evens, List.length_cons, evens_length l]
    omega

theorem evens_get {A : Type} : ∀ (l : List A) (i : ℕ), (evens l)[i]? = l[2 * i]?
  | [], i => by simp [evens]
  | [a], 0 => by simp [evens]
  | [a], i + 1 => by simp [evens]
  | a :: b :: l, 0 => by simp [evens]
  | a :: b :: l, i + 1 => by
    have : 2 * (i + 1) = 2 * i + 1 + 1 := by ring
    simp only [evens, List.getElem?_cons_succ, this, evens_get l i]

/-- **C144: colours.** The theory and the data of statistic `i` have the colours `2i` and `2i+1` of the list, a pair of the palette. -/
theorem C144_colours {Col : Type} (wedges : Bool) (norm : Stat → List ℝ) (colors : List Col) (theory : List ℝ) (stats : List Stat)
    (t d : List (Curve Col)) (h : fitPlot wedges norm colors theory stats = some (t, d)) (i : ℕ) (hi : i < stats.length) :
    (t[i]?).map Curve.color = colors[2 * i]? ∧ (d[i]?).map Curve.color = colors[2 * i + 1]? := by
  obtain ⟨off, hoff⟩ : ∃ off : ℝ, off = if wedges then -0.1 else 0 := ⟨_, rfl⟩
  unfold fitPlot theoryCurves dataCurves at h
  rw [← hoff] at h
  by_cases h1 : ((evens colors).take stats.length).length < stats.length
  · rw [if_pos h1] at h; cases h
  rw [if_neg h1] at h
  dsimp only at h
  by_cases h2 : ((odds colors).take stats.length).length < stats.length
  · rw [if_pos h2] at h; cases h
  rw [if_neg h2] at h
  simp only [Option.some.injEq, Prod.mk.injEq] at h
  obtain ⟨rfl, rfl⟩ := h
  have hz : ∀ (l : List Col) (hl : i < l.length), (stats.zip l)[i]? = some (stats[i], l[i]) := by
    intro l hl
    rw [List.getElem?_eq_getElem (by simp; omega), List.getElem_zip]
  rw [List.getElem?_mapIdx, List.getElem?_mapIdx, hz _ (by omega), hz _ (by omega)]
  simp only [Option.map_some]
  constructor
  · rw [← evens_get, List.getElem_take, List.getElem?_eq_getElem]
  · have : colors[2 * i + 1]? = (odds colors)[i]? := by
      rw [odds, evens_get, List.getElem?_tail]
    rw [this, List.getElem_take, List.getElem?_eq_getElem]

/-- **C144: when a plot is made.** The static plot is made exactly when there are two colours for every statistic; the default palette of 14
colours is enough for seven. -/
theorem C144_made_iff {Col : Type} (wedges : Bool) (norm : Stat → List ℝ) (colors : List Col) (theory : List ℝ) (stats : List Stat) :
    (fitPlot wedges norm colors theory stats).isSome ↔ 2 * stats.length ≤ colors.length := by
  unfold fitPlot theoryCurves dataCurves
  simp only [List.length_take, evens_length, odds, List.length_tail]
  by_cases h : 2 * stats.length ≤ colors.length
  · rw [if_neg (by omega)]
    dsimp only
    rw [if_neg (by omega)]
    simp [h]
  · by_cases h2 : min stats.length ((colors.length + 1) / 2) < stats.length
    · rw [if_pos h2]
      simp [h]
    · rw [if_neg h2]
      dsimp only
      rw [if_pos (by omega)]
      simp [h]

/-- **C144: the residual plot.** It shows, at the k of every bin, the data minus the prediction in units of the error. -/
theorem C144_residuals (parts : List (List ℝ)) (stats : List Stat) (hp : Predicts parts stats) (hw : ∀ s ∈ stats, s.Whole) :
    (residuals parts.flatten stats).length = stats.length ∧
    ∀ (i : ℕ) (hi : i < stats.length) (hr : i < (residuals parts.flatten stats).length) (hip : i < parts.length),
      (residuals parts.flatten stats)[i].1 = stats[i].k ∧ (residuals parts.flatten stats)[i].2.length = stats[i].k.length ∧
      ∀ j, j < stats[i].k.length → (residuals parts.flatten stats)[i].2.getD j 0 =
        (stats[i].power.getD j 0 - parts[i].getD j 0) / stats[i].error.getD j 0 := by
  refine ⟨by simp [residuals, dataModelPairs], ?_⟩
  intro i hi hr hip
  obtain ⟨w1, w2, w3⟩ := hw _ (List.getElem_mem hi)
  have w5 := hp.at i hip hi
  simp only [residuals, dataModelPairs, List.getElem_map, List.getElem_mapIdx, part_eq hp i hip]
  refine ⟨trivial, by simp; omega, fun j hj => ?_⟩
  rw [zipWith_getD _ _ _ (stats[i].k.length) (by simp; omega) w3 j hj, zipWith_getD _ _ _ _ w2 w5 j hj]

/-- **C144: the normalisation of multipoles is the monopole of that of wedges**, the Kaiser monopole of the no-wiggle power. -/
theorem C144_norm_monopole (f b1 s8z s8 : ℝ) (pnw : ℝ → ℝ) (k : ℝ) :
    ∫ mu in (0 : ℝ)..1, pkmuNorm f b1 s8z s8 pnw k mu = polesNorm f b1 s8z s8 pnw k := by
  have h : ∀ mu : ℝ, pkmuNorm f b1 s8z s8 pnw k mu =
      b1 ^ 2 * (s8z / s8) ^ 2 * pnw k + 2 * (f / b1) * (b1 ^ 2 * (s8z / s8) ^ 2 * pnw k) * mu ^ 2 +
        (f / b1) ^ 2 * (b1 ^ 2 * (s8z / s8) ^ 2 * pnw k) * mu ^ 4 := by
    intro mu; unfold pkmuNorm; ring
  obtain ⟨A, hA⟩ : ∃ A, A = b1 ^ 2 * (s8z / s8) ^ 2 * pnw k := ⟨_, rfl⟩
  obtain ⟨B, hB⟩ : ∃ B, B = 2 * (f / b1) * A := ⟨_, rfl⟩
  obtain ⟨D, hD⟩ : ∃ D, D = (f / b1) ^ 2 * A := ⟨_, rfl⟩
  simp only [h, ← hA, ← hB, ← hD]
  rw [intervalIntegral.integral_add, intervalIntegral.integral_add, intervalIntegral.integral_const_mul,
    intervalIntegral.integral_const_mul, integral_pow, integral_pow, intervalIntegral.integral_const]
  · unfold polesNorm
    simp only [smul_eq_mul, hB, hD, hA]
    norm_num
    ring
  all_goals apply Continuous.intervalIntegrable; fun_prop

/-- The normalisation of a model with positive no-wiggle power, growth and bias never vanishes: `hz` of `C144_static` is met. -/
theorem C144_norm_positive (wedges : Bool) (f b1 s8z s8 : ℝ) (pnw : ℝ → ℝ) (hf : 0 ≤ f) (hb : 0 < b1) (h1 : 0 < s8z) (h2 : 0 < s8)
    (hpn : ∀ k, 0 < pnw k) (s : Stat) : ∀ n ∈ normOf wedges f b1 s8z s8 pnw s, 0 < n := by
  have hk : ∀ k mu, 0 < pkmuNorm f b1 s8z s8 pnw k mu := by
    intro k mu
    unfold pkmuNorm
    have := hpn k
    have : 0 ≤ f / b1 * mu ^ 2 := by positivity
    positivity
  have hq : ∀ k, 0 < polesNorm f b1 s8z s8 pnw k := by
    intro k
    unfold polesNorm
    have := hpn k
    have : 0 ≤ f / b1 := by positivity
    positivity
  intro n hn
  unfold normOf at hn
  split_ifs at hn
  · rw [List.mem_iff_getElem] at hn
    obtain ⟨i, hi, rfl⟩ := hn
    rw [List.getElem_zipWith]
    exact hk _ _
  · rw [List.mem_map] at hn
    obtain ⟨k, -, rfl⟩ := hn
    exact hq k

/-- **C144, the interactive plot (partial).** For multipoles the interactive plot shows the points of the static one, each rounded.
Missing: wedges (`C144_plotly_counterexample`). -/
theorem C144_plotly_partial {Col : Type} (around : ℝ → ℝ) (norm : Stat → List ℝ) (colors : List Col) (theory : List ℝ) (stats : List Stat)
    (t d : List (Curve Col)) (h : fitPlot false norm colors theory stats = some (t, d)) :
    plotlyPlot around false norm colors theory stats =
      some (t.map fun c => ⟨c.x.map around, c.y.map around, [], c.color⟩,
        d.map fun c => ⟨c.x.map around, c.y.map around, c.err.map around, c.color⟩) := by
  unfold fitPlot at h
  unfold plotlyPlot
  simp only [Bool.false_eq_true, if_false] at h ⊢
  split at h
  · cases h
  next t' ht =>
    split at h
    · cases h
    next d' hd =>
      simp only [Option.some.injEq, Prod.mk.injEq] at h
      obtain ⟨rfl, rfl⟩ := h
      rfl

/-- Two wedges of one bin each, fitted perfectly. -/
def demo : List Stat := [⟨[1], [0.1], [3], [1]⟩, ⟨[1], [0.3], [3], [1]⟩]

/-- the curves of the case are made, and show a perfect fit in the static plot -/
example : ∃ t d, fitPlot true (fun _ => [1]) [0, 1, 2, 3] [3, 3] demo = some (t, d) ∧ t.map Curve.y = [[3], [3 - 0.1]] ∧ d.map Curve.y = [[3], [3 - 0.1]] := by
  refine ⟨_, _, rfl, ?_, ?_⟩
  · norm_num [demo, part, flatSlices, cumsums, evens, List.range_succ]
  · norm_num [demo, odds, evens]

/-- With wedges the interactive plot is not one: the data are moved by -0.1 for each wedge, the theory is not, so a perfect fit looks wrong
from the second wedge on, here by a tenth of the error bar. -/
theorem C144_plotly_counterexample : ∃ t d, plotlyPlot id true (fun _ => [1]) [0, 1, 2, 3] [3, 3] demo = some (t, d) ∧
    Predicts [[3], [3]] demo ∧ t.map Curve.y = [[3], [3]] ∧ d.map Curve.y = [[3], [3 - 0.1]] := by
  refine ⟨_, _, rfl, rfl, ?_, ?_⟩
  · norm_num [demo, part, flatSlices, cumsums, evens, List.range_succ]
  · norm_num [demo, odds, evens]

/-- Eight statistics cannot be plotted with the default palette. -/
theorem C144_eight_counterexample (norm : Stat → List ℝ) (theory : List ℝ) :
    fitPlot true norm (List.range 14) theory (List.replicate 8 ⟨[], [], [], []⟩) = none := by
  rw [← Option.not_isSome_iff_eq_none, C144_made_iff, List.length_replicate, List.length_range]
  norm_num

end Verif.FitPlot
