/-
C117: the contours of the two-dimensional posteriors.
-/
import Verif.Model.Contour
import Mathlib.Data.List.Perm.Basic
import Mathlib.Algebra.Order.BigOperators.Group.List
import Mathlib.Tactic.Linarith
import Mathlib.Tactic.NormNum
import Mathlib.Tactic.FieldSimp
import Mathlib.Tactic.Positivity

namespace Verif.Contour

noncomputable section

open Classical in
/-- The number of samples in the bins that fulfil a condition. -/
def massWhere (hist : List ℝ) (p : ℝ → Prop) : ℝ := (hist.filter fun x => decide (p x)).sum

theorem desc_perm (hist : List ℝ) : (descending hist).Perm hist := List.mergeSort_perm hist _

theorem desc_sorted (hist : List ℝ) : (descending hist).Pairwise fun a b => b ≤ a := by
  unfold descending
  have := List.pairwise_mergeSort (le := fun a b : ℝ => decide (b ≤ a)) (fun a b c hab hbc => by simp only [decide_eq_true_eq] at *; exact le_trans hbc hab)
    (fun a b => by simp only [Bool.or_eq_true, decide_eq_true_eq]; exact le_total b a) hist
  exact this.imp fun hab => by simpa using hab

theorem desc_get (hist : List ℝ) {i j : ℕ} (hij : i ≤ j) (hj : j < (descending hist).length) : (descending hist)[j] ≤ (descending hist)[i] := by
  rcases Nat.lt_or_eq_of_le hij with h | h
  · exact List.pairwise_iff_getElem.1 (desc_sorted hist) i j _ hj h
  · subst h; exact le_refl _

theorem length_desc (hist : List ℝ) : (descending hist).length = hist.length := (desc_perm hist).length_eq

theorem sum_desc (hist : List ℝ) : (descending hist).sum = hist.sum := (desc_perm hist).sum_eq

theorem massWhere_desc (hist : List ℝ) (p : ℝ → Prop) : massWhere hist p = massWhere (descending hist) p := by
  unfold massWhere
  exact ((desc_perm hist).filter _).sum_eq.symm

/-- The counts of the first `m` bins from the largest down. -/
theorem take_mono {l : List ℝ} (h : ∀ x ∈ l, 0 ≤ x) {a b : ℕ} (hab : a ≤ b) : (l.take a).sum ≤ (l.take b).sum := by
  have : (l.take b) = l.take a ++ (l.drop a).take (b - a) := by
    rw [← List.take_add]
    congr 1
    omega
  rw [this, List.sum_append]
  have : 0 ≤ ((l.drop a).take (b - a)).sum := List.sum_nonneg fun x hx => h x (List.mem_of_mem_drop (List.mem_of_mem_take hx))
  linarith

theorem filter_range_mono (n : ℕ) (p : ℕ → Bool) (hp : ∀ a b, a ≤ b → p b = true → p a = true) :
    (∀ k < ((List.range n).filter p).length, p k = true) ∧ (((List.range n).filter p).length < n → p ((List.range n).filter p).length = false) := by
  induction n with
  | zero => simp
  | succ n ih =>
    rw [List.range_succ, List.filter_append, List.length_append]
    by_cases h : p n = true
    · have hall : (List.range n).filter p = List.range n := List.filter_eq_self.2 fun a ha => hp a n (List.mem_range.1 ha).le h
      rw [hall]
      simp only [List.length_range, List.filter_cons, h, if_true, List.filter_nil, List.length_singleton]
      exact ⟨fun k hk => hp k n (by omega) h, fun hlt => by omega⟩
    · have hf : p n = false := by simpa using h
      simp only [List.filter_cons, hf, List.filter_nil, List.length_nil, Nat.add_zero, Bool.false_eq_true, if_false]
      refine ⟨ih.1, fun hlt => ?_⟩
      by_cases h2 : ((List.range n).filter p).length < n
      · exact ih.2 h2
      · have h3 : ((List.range n).filter p).length = n := by
          have := List.length_filter_le p (List.range n)
          rw [List.length_range] at this
          omega
        rw [h3]; exact hf

theorem below_spec {hist : List ℝ} (h0 : ∀ x ∈ hist, 0 ≤ x) (ht : 0 < hist.sum) (l : ℝ) :
    (∀ k < below hist l, ((descending hist).take (k + 1)).sum < l * hist.sum) ∧ below hist l ≤ hist.length ∧
    (below hist l < hist.length → l * hist.sum ≤ ((descending hist).take (below hist l + 1)).sum) := by
  classical
  have hd0 : ∀ x ∈ descending hist, 0 ≤ x := fun x hx => h0 x ((desc_perm hist).mem_iff.1 hx)
  have hb : below hist l = ((List.range hist.length).filter fun k => decide (((descending hist).take (k + 1)).sum / (descending hist).sum < l)).length := by
    unfold below cumulative
    rw [List.filter_map, List.length_map]
    rfl
  have hm := filter_range_mono hist.length (fun k => decide (((descending hist).take (k + 1)).sum / (descending hist).sum < l)) (by
    intro a b hab hpb
    simp only [decide_eq_true_eq] at hpb ⊢
    refine lt_of_le_of_lt ?_ hpb
    rw [sum_desc]
    exact div_le_div_of_nonneg_right (take_mono hd0 (by omega)) ht.le)
  rw [← hb] at hm
  refine ⟨fun k hk => ?_, ?_, fun hlt => ?_⟩
  · have := hm.1 k hk
    simp only [decide_eq_true_eq] at this
    rwa [sum_desc, div_lt_iff₀ ht] at this
  · rw [hb]
    have := List.length_filter_le (fun k => decide (((descending hist).take (k + 1)).sum / (descending hist).sum < l)) (List.range hist.length)
    rwa [List.length_range] at this
  · have := hm.2 hlt
    simp only [decide_eq_false_iff_not, not_lt] at this
    rwa [sum_desc, le_div_iff₀ ht] at this

theorem fromEnd_eq (hist : List ℝ) (m : ℕ) (hm : 0 < m) (hle : m ≤ hist.length) :
    fromEnd hist m = (descending hist)[m - 1]'(by rw [length_desc]; omega) := by
  unfold fromEnd
  rw [if_neg (by omega), List.getD_eq_getElem?_getD, List.getElem?_eq_getElem (by rw [List.length_reverse, length_desc]; omega), Option.getD_some, List.getElem_reverse]
  congr 1
  rw [length_desc]
  omega

theorem mass_gt_le {d : List ℝ} (hd : d.Pairwise fun a b => b ≤ a) (h0 : ∀ x ∈ d, 0 ≤ x) (m : ℕ) (hm : m < d.length) : massWhere d (fun x => d[m] < x) ≤ (d.take m).sum := by
  classical
  have hsplit : ∀ q : ℝ → Bool, d.filter q = (d.take m).filter q ++ (d.drop m).filter q := fun q => by
    rw [← List.filter_append, List.take_append_drop]
  have h1 : d.filter (fun x => decide (d[m] < x)) = (d.take m).filter fun x => decide (d[m] < x) := by
    rw [hsplit]
    have : (d.drop m).filter (fun x => decide (d[m] < x)) = [] := by
      rw [List.filter_eq_nil_iff]
      intro x hx
      rw [decide_eq_true_eq, not_lt]
      obtain ⟨k, hk, rfl⟩ := List.getElem_of_mem hx
      rw [List.getElem_drop]
      rcases Nat.eq_zero_or_pos k with h | h
      · subst h; exact le_refl _
      · exact List.pairwise_iff_getElem.1 hd m (m + k) _ _ (by omega)
    rw [this, List.append_nil]
  unfold massWhere
  rw [h1]
  refine (List.filter_sublist).sum_le_sum fun x hx => h0 x (List.mem_of_mem_take hx)

theorem mass_ge_ge {d : List ℝ} (hd : d.Pairwise fun a b => b ≤ a) (h0 : ∀ x ∈ d, 0 ≤ x) (m : ℕ) (hm : m < d.length) : (d.take (m + 1)).sum ≤ massWhere d (fun x => d[m] ≤ x) := by
  classical
  have hsplit : ∀ q : ℝ → Bool, d.filter q = (d.take (m + 1)).filter q ++ (d.drop (m + 1)).filter q := fun q => by
    rw [← List.filter_append, List.take_append_drop]
  unfold massWhere
  rw [hsplit, List.sum_append]
  have h1 : (d.take (m + 1)).filter (fun x => decide (d[m] ≤ x)) = d.take (m + 1) := by
    rw [List.filter_eq_self]
    intro x hx
    rw [decide_eq_true_eq]
    obtain ⟨k, hk, rfl⟩ := List.getElem_of_mem hx
    rw [List.length_take] at hk
    rw [List.getElem_take]
    rcases Nat.lt_or_ge k m with h | h
    · exact List.pairwise_iff_getElem.1 hd k m _ _ h
    · have : k = m := by omega
      subst this; exact le_refl _
  have h2 : 0 ≤ ((d.drop (m + 1)).filter fun x => decide (d[m] ≤ x)).sum := List.sum_nonneg fun x hx => h0 x (List.mem_of_mem_drop (List.mem_filter.1 hx).1)
  rw [h1]
  linarith

/-! ### C117 -/

/-- C117 (levels): for a histogram of which no single bin holds the fraction `l` of the samples, the contour is drawn at the count `v` of a bin such that the bins above it hold less
than the fraction, and reach it when the bins of the next smaller count (`u`, no count lies between) are included.  Missing: a bin that holds the fraction alone, see
`C117_peak_counterexample`. -/
theorem C117_level_partial {hist : List ℝ} (h0 : ∀ x ∈ hist, 0 ≤ x) {l : ℝ} (hl1 : l ≤ 1) (hpeak : ∀ x ∈ hist, x < l * hist.sum) (ht : 0 < hist.sum) (ls : List ℝ) (j : ℕ)
    (hj : ls[j]? = some l) :
    ∃ v u, (ctrLevel hist ls)[ls.length - 1 - j]? = some v ∧ v ∈ hist ∧ u ∈ hist ∧ u ≤ v ∧ massWhere hist (fun x => v < x) < l * hist.sum ∧
      l * hist.sum ≤ massWhere hist (fun x => u ≤ x) ∧ ∀ x ∈ hist, u < x → v ≤ x := by
  classical
  obtain ⟨b1, b2, b3⟩ := below_spec h0 ht l
  have hd0 : ∀ x ∈ descending hist, 0 ≤ x := fun x hx => h0 x ((desc_perm hist).mem_iff.1 hx)
  have hne : 0 < hist.length := by
    rw [List.length_pos_iff]
    rintro rfl
    simp at ht
  have hL : 0 < (descending hist).length := by rw [length_desc]; exact hne
  set m := below hist l with hm
  -- the largest bin is below the fraction
  have hm0 : 0 < m := by
    by_contra hcon
    have hz : m = 0 := by omega
    have := b3 (by omega)
    rw [hz, List.take_succ_eq_append_getElem hL] at this
    simp only [List.take_zero, List.nil_append, List.sum_singleton] at this
    have h2 := hpeak _ ((desc_perm hist).mem_iff.1 (List.getElem_mem hL))
    linarith
  -- not all bins are needed
  have hmn : m < hist.length := by
    by_contra hcon
    have he : m = hist.length := by omega
    have := b1 (m - 1) (by omega)
    rw [show m - 1 + 1 = (descending hist).length by rw [length_desc]; omega, List.take_length, sum_desc] at this
    have h2 : l * hist.sum ≤ 1 * hist.sum := mul_le_mul_of_nonneg_right hl1 ht.le
    linarith
  have hjlt : j < ls.length := (List.getElem?_eq_some_iff.1 hj).1
  have hmd : m < (descending hist).length := by rw [length_desc]; exact hmn
  refine ⟨(descending hist)[m - 1], (descending hist)[m], ?_, (desc_perm hist).mem_iff.1 (List.getElem_mem _), (desc_perm hist).mem_iff.1 (List.getElem_mem _), desc_get hist (by omega) hmd, ?_, ?_, ?_⟩
  · unfold ctrLevel
    rw [List.getElem?_append_left (by simp; omega), List.getElem?_map, List.getElem?_reverse (by simp; omega), List.getElem?_map, List.length_map,
      show ls.length - 1 - (ls.length - 1 - j) = j by omega, hj]
    simp only [Option.map_some, Option.some.injEq]
    exact fromEnd_eq hist m hm0 b2
  · rw [massWhere_desc]
    refine lt_of_le_of_lt (mass_gt_le (desc_sorted hist) hd0 (m - 1) (by omega)) ?_
    refine lt_of_le_of_lt (take_mono hd0 (Nat.le_succ _)) (b1 (m - 1) (by omega))
  · rw [massWhere_desc]
    exact (b3 hmn).trans (mass_ge_ge (desc_sorted hist) hd0 m hmd)
  · intro x hx hux
    obtain ⟨k, hk, rfl⟩ := List.getElem_of_mem ((desc_perm hist).mem_iff.2 hx)
    rcases Nat.lt_or_ge k m with h | h
    · exact desc_get hist (by omega) _
    · exact absurd hux (not_lt.2 (desc_get hist h hk))

/-- C117 (order): for fractions in increasing order, no single bin holding the smallest, the levels returned are in increasing order (not strictly) and end with the largest count. -/
theorem C117_order_partial {hist : List ℝ} (h0 : ∀ x ∈ hist, 0 ≤ x) (ht : 0 < hist.sum) (ls : List ℝ) (hls : ls.Pairwise (· ≤ ·)) (h1 : ∀ l ∈ ls, ∀ x ∈ hist, x < l * hist.sum) :
    (ctrLevel hist ls).Pairwise (· ≤ ·) ∧ ∃ mx ∈ hist, (ctrLevel hist ls).getLast? = some mx ∧ ∀ x ∈ hist, x ≤ mx := by
  have hne : 0 < hist.length := by
    rw [List.length_pos_iff]
    rintro rfl
    simp at ht
  have hL : 0 < (descending hist).length := by rw [length_desc]; exact hne
  have hmax : (descending hist).getD 0 0 = (descending hist)[0] := by rw [List.getD_eq_getElem?_getD, List.getElem?_eq_getElem hL]; rfl
  have hpos : ∀ l ∈ ls, 0 < below hist l := by
    intro l hl
    obtain ⟨b1, b2, b3⟩ := below_spec h0 ht l
    by_contra hcon
    have hz : below hist l = 0 := by omega
    have := b3 (by omega)
    rw [hz, List.take_succ_eq_append_getElem hL] at this
    simp only [List.take_zero, List.nil_append, List.sum_singleton] at this
    have h2 := h1 l hl _ ((desc_perm hist).mem_iff.1 (List.getElem_mem hL))
    linarith
  have hmono : ∀ l l', l ≤ l' → below hist l ≤ below hist l' := by
    intro l l' hll
    obtain ⟨b1, b2, b3⟩ := below_spec h0 ht l
    obtain ⟨c1, c2, c3⟩ := below_spec h0 ht l'
    by_contra hcon
    have hlt : below hist l' < below hist l := by omega
    have := b1 _ hlt
    have h2 := c3 (by omega)
    have h3 : l * hist.sum ≤ l' * hist.sum := mul_le_mul_of_nonneg_right hll ht.le
    linarith
  refine ⟨?_, (descending hist)[0], (desc_perm hist).mem_iff.1 (List.getElem_mem hL), ?_, ?_⟩
  · unfold ctrLevel
    rw [List.pairwise_append]
    refine ⟨?_, List.pairwise_singleton _ _, ?_⟩
    · rw [List.pairwise_map, List.pairwise_reverse, List.pairwise_map]
      refine hls.imp_of_mem fun {a b} ha hb hab => ?_
      have hma := hpos a ha
      have hmb := hpos b hb
      have ca := (below_spec h0 ht a).2.1
      have cb := (below_spec h0 ht b).2.1
      rw [fromEnd_eq hist _ hma ca, fromEnd_eq hist _ hmb cb]
      have := hmono a b hab
      exact desc_get hist (by omega) _
    · intro x hx y hy
      rw [List.mem_singleton] at hy
      subst hy
      simp only [List.mem_map, List.mem_reverse] at hx
      obtain ⟨_, ⟨l, hl, rfl⟩, rfl⟩ := hx
      rw [fromEnd_eq hist _ (hpos l hl) (below_spec h0 ht l).2.1, hmax]
      exact desc_get hist (by omega) _
  · unfold ctrLevel
    rw [List.getLast?_concat, hmax]
  · intro x hx
    obtain ⟨k, hk, rfl⟩ := List.getElem_of_mem ((desc_perm hist).mem_iff.2 hx)
    exact desc_get hist (Nat.zero_le k) hk

/-- The histogram of an example: counts 4, 3, 2, 1. -/
theorem desc_ex : descending [1, 4, 2, 3] = [4, 3, 2, 1] := by
  have h1 : (descending [1, 4, 2, 3]).Perm [4, 3, 2, 1] := by
    refine (desc_perm _).trans ?_
    refine (List.perm_middle (l₁ := [(1 : ℝ)]) (l₂ := [2, 3]) (a := 4)).trans (List.Perm.cons 4 ?_)
    refine (List.perm_middle (l₁ := [(1 : ℝ), 2]) (l₂ := []) (a := 3)).trans (List.Perm.cons 3 ?_)
    exact List.Perm.swap _ _ _
  exact h1.eq_of_pairwise (fun a b _ _ h1 h2 => le_antisymm h2 h1) (desc_sorted _) (by simp; norm_num)

/-- C117 (example): the hypotheses hold for counts 1, 4, 2, 3, and the levels are 2, 4, 4. -/
theorem C117_case : ctrLevel [1, 4, 2, 3] [0.6826, 0.9545] = [2, 4, 4] ∧ (∀ l ∈ [(0.6826 : ℝ), 0.9545], ∀ x ∈ [(1 : ℝ), 4, 2, 3], x < l * [(1 : ℝ), 4, 2, 3].sum) := by
  constructor
  · unfold ctrLevel below fromEnd cumulative
    simp only [desc_ex]
    norm_num [List.range_succ, List.filter_cons]
  · norm_num

/-- C117, violation (1): if one bin holds the fraction alone, the level is the smallest count instead of the largest: the region drawn is everything, and the levels are not in increasing order
(`contourf` refuses them). -/
theorem C117_peak_counterexample : ∃ hist : List ℝ, (∀ x ∈ hist, 0 ≤ x) ∧ 0 < hist.sum ∧ ctrLevel hist [0.6826, 0.9545] = [10, 0, 10] ∧ ¬ (ctrLevel hist [0.6826, 0.9545]).Pairwise (· ≤ ·) := by
  have hd : descending [10, 3, 0] = [10, 3, 0] := by
    exact (desc_perm _).eq_of_pairwise (fun a b _ _ h1 h2 => le_antisymm h2 h1) (desc_sorted _) (by simp; norm_num)
  have hc : ctrLevel [10, 3, 0] [0.6826, 0.9545] = [10, 0, 10] := by
    unfold ctrLevel below fromEnd cumulative
    simp only [hd]
    norm_num [List.range_succ, List.filter_cons]
  refine ⟨[10, 3, 0], by simp, by norm_num, hc, ?_⟩
  rw [hc]
  simp

/-- C117, violation (2): the two levels can be equal, or equal to the largest count; levels that are not strictly increasing are refused by `contourf`. -/
theorem C117_equal_counterexample : ctrLevel [1, 1] [0.6826, 0.9545] = [1, 1, 1] := by
  have hd : descending [1, 1] = [1, 1] := by
    exact (desc_perm _).eq_of_pairwise (fun a b _ _ h1 h2 => le_antisymm h2 h1) (desc_sorted _) (by simp)
  unfold ctrLevel below fromEnd cumulative
  simp only [hd]
  norm_num [List.range_succ, List.filter_cons]

/-! ### Which histogram is drawn -/

theorem lookup_cons_ne {β : Type} (k k' : ℕ × ℕ) (v : β) (c : Cache β) (h : k ≠ k') : List.lookup k ((k', v) :: c) = List.lookup k c := by
  rw [List.lookup_cons, beq_false_of_ne h]

/-- The cache holds, for every pair in it, the histogram drawn with the larger index in the row. -/
def CacheOk {β : Type} (H : List ℝ → List ℝ → β) (trace : ℕ → List ℝ) (scale : ℕ → ℝ) (c : Cache β) : Prop :=
  ∀ i j h, j < i → c.lookup (pairKey i j) = some h → h = H (trace i) ((trace j).map (· / scale j))

theorem pairKey_inj {i j i' j' : ℕ} (h : j < i) (h' : j' < i') (e : pairKey i j = pairKey i' j') : i = i' ∧ j = j' := by
  unfold pairKey at e
  rw [Prod.mk.injEq] at e
  omega

theorem panel_ok {β : Type} (H : List ℝ → List ℝ → β) (trace : ℕ → List ℝ) (scale : ℕ → ℝ) (c : Cache β) (hc : CacheOk H trace scale c) (i j : ℕ) (hij : j < i) :
    (trianglePanel H c trace scale i j).1 = H (trace i) ((trace j).map (· / scale j)) ∧ CacheOk H trace scale (trianglePanel H c trace scale i j).2 := by
  unfold trianglePanel histogram2d
  cases hl : c.lookup (pairKey i j) with
  | some h => exact ⟨hc i j h hij hl, hc⟩
  | none =>
    refine ⟨rfl, fun i' j' h hij' hl' => ?_⟩
    by_cases he : pairKey i' j' = pairKey i j
    · obtain ⟨rfl, rfl⟩ := pairKey_inj hij' hij he
      rw [List.lookup_cons, beq_iff_eq.2 rfl] at hl'
      exact (Option.some.inj hl').symm
    · dsimp only at hl'
      rw [lookup_cons_ne _ _ _ _ he] at hl'
      exact hc i' j' h hij' hl'

theorem fold_ok {β : Type} (H : List ℝ → List ℝ → β) (trace : ℕ → List ℝ) (scale : ℕ → ℝ) (L : List (ℕ × ℕ)) (hL : ∀ p ∈ L, p.2 < p.1) (s : List ((ℕ × ℕ) × β) × Cache β)
    (hs : CacheOk H trace scale s.2) (hs1 : ∀ d ∈ s.1, d.2 = H (trace d.1.1) ((trace d.1.2).map (· / scale d.1.2))) :
    let r := L.foldl (fun s p => (s.1 ++ [(p, (trianglePanel H s.2 trace scale p.1 p.2).1)], (trianglePanel H s.2 trace scale p.1 p.2).2)) s
    CacheOk H trace scale r.2 ∧ ∀ d ∈ r.1, d.2 = H (trace d.1.1) ((trace d.1.2).map (· / scale d.1.2)) := by
  induction L generalizing s with
  | nil => exact ⟨hs, hs1⟩
  | cons p L ih =>
    rw [List.foldl_cons]
    obtain ⟨h1, h2⟩ := panel_ok H trace scale s.2 hs p.1 p.2 (hL p (by simp))
    refine ih (fun q hq => hL q (List.mem_cons_of_mem _ hq)) _ h2 ?_
    intro d hd
    rcases List.mem_append.1 hd with h | h
    · exact hs1 d h
    · rw [List.mem_singleton] at h
      subst h
      exact h1

/-- C117 (panels): as long as every figure lists its parameters in one common order, each panel shows the histogram of its own two parameters, and for unit scales in the units of its axes.
Missing: figures that list a pair in opposite orders, scaled parameters (the counterexamples below). -/
theorem C117_panels_partial {β : Type} (H : List ℝ → List ℝ → β) (trace : ℕ → List ℝ) (scale : ℕ → ℝ) (figs : List (List ℕ)) (hf : ∀ ps ∈ figs, ps.Pairwise (· < ·)) (hsc : ∀ i, scale i = 1) :
    ∀ d ∈ figures H trace scale [] figs, d.2 = H ((trace d.1.1).map (· / scale d.1.1)) ((trace d.1.2).map (· / scale d.1.2)) := by
  have gen : ∀ (figs : List (List ℕ)) (c : Cache β), (∀ ps ∈ figs, ps.Pairwise (· < ·)) → CacheOk H trace scale c →
      ∀ d ∈ figures H trace scale c figs, d.2 = H (trace d.1.1) ((trace d.1.2).map (· / scale d.1.2)) := by
    intro figs
    induction figs with
    | nil => intro c _ _ d hd; cases hd
    | cons ps rest ih =>
      intro c hf hc d hd
      have hps := hf ps (by simp)
      have hlt : ∀ p ∈ (List.range ps.length).flatMap (fun a => (List.range a).map fun b => (ps.getD a 0, ps.getD b 0)), p.2 < p.1 := by
        intro p hp
        simp only [List.mem_flatMap, List.mem_map, List.mem_range] at hp
        obtain ⟨a, ha, b, hb, rfl⟩ := hp
        simp only [List.getD_eq_getElem?_getD, List.getElem?_eq_getElem ha, List.getElem?_eq_getElem (hb.trans ha), Option.getD_some]
        exact List.pairwise_iff_getElem.1 hps b a _ _ hb
      obtain ⟨h1, h2⟩ := fold_ok H trace scale _ hlt ([], c) hc (by simp)
      unfold figures at hd
      rcases List.mem_append.1 hd with h | h
      · exact h2 d h
      · exact ih _ (fun q hq => hf q (List.mem_cons_of_mem _ hq)) h1 d h
  intro d hd
  rw [gen figs [] hf (by intro i j h _ hl; cases hl) d hd]
  simp [hsc]

theorem fold_keys {β : Type} (H : List ℝ → List ℝ → β) (trace : ℕ → List ℝ) (scale : ℕ → ℝ) (L : List (ℕ × ℕ)) (s : List ((ℕ × ℕ) × β) × Cache β) :
    ((L.foldl (fun s p => (s.1 ++ [(p, (trianglePanel H s.2 trace scale p.1 p.2).1)], (trianglePanel H s.2 trace scale p.1 p.2).2)) s).1).map Prod.fst = s.1.map Prod.fst ++ L := by
  induction L generalizing s with
  | nil => simp
  | cons p L ih => rw [List.foldl_cons, ih]; simp

/-- C117 (every panel): each figure has a panel for every pair of its parameters, the later in the row, and no others. -/
theorem C117_every_panel {β : Type} (H : List ℝ → List ℝ → β) (trace : ℕ → List ℝ) (scale : ℕ → ℝ) (figs : List (List ℕ)) (i j : ℕ) :
    (∃ h, ((i, j), h) ∈ figures H trace scale [] figs) ↔ ∃ ps ∈ figs, ∃ a b : ℕ, b < a ∧ ps[a]? = some i ∧ ps[b]? = some j := by
  have gen : ∀ (figs : List (List ℕ)) (c : Cache β), (figures H trace scale c figs).map Prod.fst =
      figs.flatMap fun ps => (List.range ps.length).flatMap fun a => (List.range a).map fun b => (ps.getD a 0, ps.getD b 0) := by
    intro figs
    induction figs with
    | nil => intro c; rfl
    | cons ps rest ih =>
      intro c
      unfold figures
      rw [List.map_append, ih, List.flatMap_cons]
      unfold triangle
      rw [fold_keys]
      rfl
  have h1 : (∃ h, ((i, j), h) ∈ figures H trace scale [] figs) ↔ (i, j) ∈ (figures H trace scale [] figs).map Prod.fst := by
    simp [List.mem_map]
  rw [h1, gen]
  simp only [List.mem_flatMap, List.mem_map, List.mem_range, Prod.mk.injEq]
  constructor
  · rintro ⟨ps, hps, a, ha, b, hb, h2, h3⟩
    refine ⟨ps, hps, a, b, hb, ?_, ?_⟩
    · rw [List.getElem?_eq_getElem ha, ← h2, List.getD_eq_getElem?_getD, List.getElem?_eq_getElem ha]; rfl
    · rw [List.getElem?_eq_getElem (hb.trans ha), ← h3, List.getD_eq_getElem?_getD, List.getElem?_eq_getElem (hb.trans ha)]; rfl
  · rintro ⟨ps, hps, a, b, hb, h2, h3⟩
    refine ⟨ps, hps, a, (List.getElem?_eq_some_iff.1 h2).1, b, hb, ?_, ?_⟩
    · rw [List.getD_eq_getElem?_getD, h2]; rfl
    · rw [List.getD_eq_getElem?_getD, h3]; rfl

/-- C117, violation (3): a second figure that lists two parameters in the opposite order shows the histogram of the first figure: its axes are exchanged. -/
theorem C117_transposed_counterexample : ∃ (trace : ℕ → List ℝ), ((1, 0), (trace 1, trace 0)) ∈ figures (fun a b => (a, b)) trace (fun _ => 1) [] [[0, 1], [1, 0]] ∧
    ((0, 1), (trace 1, trace 0)) ∈ figures (fun a b => (a, b)) trace (fun _ => 1) [] [[0, 1], [1, 0]] ∧ trace 0 ≠ trace 1 := by
  refine ⟨fun n => [(n : ℝ)], ?_, ?_, by simp⟩ <;>
    simp [figures, triangle, trianglePanel, histogram2d, pairKey, List.range_succ, List.flatMap_cons]

/-- C117, violation (4): with a scale other than one, the trace of the row is not divided by its scale, while its axis is. -/
theorem C117_scale_counterexample : ∃ (trace : ℕ → List ℝ) (scale : ℕ → ℝ), ((1, 0), (trace 1, (trace 0).map (· / scale 0))) ∈ figures (fun a b => (a, b)) trace scale [] [[0, 1]] ∧
    trace 1 ≠ (trace 1).map (· / scale 1) := by
  refine ⟨fun _ => [1], fun _ => 10, ?_, by norm_num⟩
  simp [figures, triangle, trianglePanel, histogram2d, pairKey, List.range_succ, List.flatMap_cons]

end

end Verif.Contour
