import Verif.Props.Plot1DCurve
import Verif.Spec.Trace
import Mathlib.Algebra.Order.Floor.Semiring
import Mathlib.Analysis.SpecialFunctions.Pow.Real
import Mathlib.Data.List.Sort

/-!
# C148: the distribution of a chain

The density of a chain is a histogram of unit area, the cumulative distribution rises from the mass of the first bin to one, and neither the order of the samples nor the samples that are
not finite matter.
-/

namespace Verif.Trace

open Plot1D Classical

/-! ### The bins -/

theorem std_zero {t : List ℝ} (ht : t ≠ []) : std t = 0 ↔ least t = most t := by
  have hlen : (0 : ℝ) < t.length := by exact_mod_cast List.length_pos_iff.2 ht
  constructor
  · intro h
    rw [std, Real.sqrt_eq_zero'] at h
    have h0 : 0 ≤ (t.map fun x => (x - mean t) ^ 2).sum := List.sum_nonneg fun y hy => by
      obtain ⟨x, _, rfl⟩ := List.mem_map.1 hy
      positivity
    have h1 : (t.map fun x => (x - mean t) ^ 2).sum = 0 := by
      refine le_antisymm ?_ h0
      by_contra hc
      exact absurd h (not_le.2 (div_pos (not_le.1 hc) hlen))
    have h2 := sum_sq_zero h1
    rw [h2 _ (least_mem ht), h2 _ (most_mem ht)]
  · intro h
    have hall : ∀ x ∈ t, x = least t := fun x hx => le_antisymm (h ▸ le_most hx) (least_le hx)
    have hm : mean t = least t := by
      rw [mean, List.eq_replicate_iff.2 ⟨rfl, hall⟩]
      simp only [List.sum_replicate, List.length_replicate, nsmul_eq_mul]
      rw [← List.eq_replicate_iff.2 ⟨rfl, hall⟩]
      field_simp
    have : (t.map fun x => (x - mean t) ^ 2).sum = 0 := by
      have : (t.map fun x => (x - mean t) ^ 2) = t.map fun _ => (0 : ℝ) := List.map_congr_left fun x hx => by rw [hall x hx, hm]; ring
      rw [this]
      simp
    rw [std, this]
    simp

theorem width_pos {t : List ℝ} (ht : t ≠ []) (hs : std t ≠ 0) : 0 < width t := by
  have hlen : (0 : ℝ) < t.length := by exact_mod_cast List.length_pos_iff.2 ht
  have := lt_of_le_of_ne (std_nonneg t) (Ne.symm hs)
  unfold width
  have h2 := Real.rpow_pos_of_pos hlen (1 / 3 : ℝ)
  positivity

/-- There are bins exactly if the samples are not all equal, and else the error is a `ValueError`. Their number is even, and no bin is wider than half of `3.5 std / N^(1/3)`. -/
theorem C148_bins (t : List ℝ) :
    (t = [] ∨ least t = most t → nBins t = .error .value) ∧
    (t ≠ [] → least t ≠ most t → ∃ n : ℕ, nBins t = .ok n ∧ 2 ≤ n ∧ n % 2 = 0 ∧
      (most t - least t) / n ≤ 3.5 * std t / (t.length : ℝ) ^ (1 / 3 : ℝ) / 2 ∧
      ((n - 2 : ℕ) : ℝ) * (3.5 * std t / (t.length : ℝ) ^ (1 / 3 : ℝ) / 2) < most t - least t) := by
  constructor
  · rintro (h | h)
    · simp [nBins, h]
    · by_cases ht : t = []
      · simp [nBins, ht]
      · rw [nBins, if_neg ht, if_pos ((std_zero ht).2 h)]
  · intro ht hv
    have hs : std t ≠ 0 := fun h => hv ((std_zero ht).1 h)
    have hw := width_pos ht hs
    have hlm : 0 < most t - least t := sub_pos.2 (lt_of_le_of_ne (least_le (most_mem ht)) hv)
    have hq : 0 < (most t - least t) / width t := div_pos hlm hw
    have hc : 0 < ⌈(most t - least t) / width t⌉₊ := Nat.ceil_pos.2 hq
    refine ⟨_, by rw [nBins, if_neg ht, if_neg hs], by omega, by omega, ?_, ?_⟩
    · have h1 := Nat.le_ceil ((most t - least t) / width t)
      rw [div_le_iff₀ hw] at h1
      change _ ≤ width t / 2
      rw [div_le_iff₀ (by positivity)]
      push_cast
      linarith
    · change _ * (width t / 2) < _
      have h1 := Nat.ceil_lt_add_one hq.le
      have h2 : ((⌈(most t - least t) / width t⌉₊ * 2 - 2 : ℕ) : ℝ) = 2 * (⌈(most t - least t) / width t⌉₊ : ℝ) - 2 := by
        rw [Nat.cast_sub (by omega)]
        push_cast
        ring
      rw [h2]
      have h3 : ((⌈(most t - least t) / width t⌉₊ : ℝ) - 1) * width t < most t - least t := by
        rw [← lt_div_iff₀ hw]
        linarith
      linarith

theorem nBins_ok {t : List ℝ} {n : ℕ} (h : nBins t = .ok n) : t ≠ [] ∧ least t ≠ most t ∧ 2 ≤ n := by
  have h1 : ¬ (t = [] ∨ least t = most t) := fun hc => by
    rw [(C148_bins t).1 hc] at h
    cases h
  push Not at h1
  obtain ⟨m, hm, h2, _⟩ := (C148_bins t).2 h1.1 h1.2
  rw [h] at hm
  cases hm
  exact ⟨h1.1, h1.2, h2⟩

/-! ### The density -/

theorem edge_diff (t : List ℝ) (n j : ℕ) : edge t n (j + 1) - edge t n j = (last t - first t) / n := by
  unfold edge
  push_cast
  ring

theorem span_pos {t : List ℝ} (ht : t ≠ []) {n : ℕ} (hn : 0 < n) : 0 < (last t - first t) / n :=
  div_pos (sub_pos.2 (edges ht).1) (by exact_mod_cast hn)

theorem density_get {t : List ℝ} {n j : ℕ} (hj : j < n) :
    (density t n).getD j 0 = ((t.filter fun x => decide (holds t n j x)).length : ℝ) / ((last t - first t) / n) / t.length := by
  rw [density, List.getD_eq_getElem _ _ (by simpa using hj), List.getElem_map, List.getElem_range, edge_diff, hist_get hj, (C146_histogram t (by omega)).2.1]

theorem density_length (t : List ℝ) (n : ℕ) : (density t n).length = n := by simp [density]

theorem cumulative_length (t : List ℝ) (n : ℕ) : (cumulative t n).length = n := by simp [cumulative]

theorem centers_length (t : List ℝ) (n : ℕ) : (centers t n).length = n := by simp [centers]

theorem mass {t : List ℝ} (ht : t ≠ []) {n j : ℕ} (hj : j < n) :
    (edge t n (j + 1) - edge t n j) * (density t n).getD j 0 = frac t (holds t n j) := by
  rw [density_get hj, edge_diff, frac]
  have h := span_pos ht (show 0 < n by omega)
  generalize (last t - first t) / n = w at h
  rw [div_div, mul_div_assoc', mul_div_mul_left _ _ h.ne']

theorem centers_increasing {t : List ℝ} (ht : t ≠ []) {n : ℕ} : Increasing (centers t n) := by
  intro i j hij hj
  rw [centers_length] at hj
  rw [centers_get (by omega), centers_get hj]
  have h1 := edge_lt ht (show 0 < n by omega) hij
  have h2 := edge_lt ht (show 0 < n by omega) (show i + 1 < j + 1 by omega)
  linarith

theorem first_eq {t : List ℝ} (hv : least t ≠ most t) : first t = least t := by rw [first, if_neg hv]

theorem last_eq {t : List ℝ} (hv : least t ≠ most t) : last t = most t := by rw [last, if_neg hv]

theorem centers_mem {t : List ℝ} (ht : t ≠ []) (hv : least t ≠ most t) {n : ℕ} : ∀ x ∈ centers t n, least t < x ∧ x < most t := by
  intro x hx
  obtain ⟨j, hj, rfl⟩ := List.mem_map.1 hx
  rw [List.mem_range] at hj
  have h0 : edge t n 0 = least t := by simp [edge, first_eq hv]
  have h1 : edge t n n = most t := by rw [edge_last (by omega), last_eq hv]
  have h2 := edge_le ht (show 0 < n by omega) (Nat.zero_le j)
  have h3 := edge_lt ht (show 0 < n by omega) (Nat.lt_succ_self j)
  have h4 := edge_le ht (show 0 < n by omega) (show j + 1 ≤ n by omega)
  simp only [Nat.succ_eq_add_one] at h3
  constructor <;> linarith

theorem frac_nonneg (l : List ℝ) (p : ℝ → Prop) : 0 ≤ frac l p := by unfold frac; positivity

theorem frac_le_one (l : List ℝ) (p : ℝ → Prop) : frac l p ≤ 1 := by
  unfold frac
  refine div_le_one_of_le₀ ?_ (by positivity)
  exact_mod_cast List.length_filter_le _ _

theorem frac_mono {l : List ℝ} {p q : ℝ → Prop} (h : ∀ x ∈ l, p x → q x) : frac l p ≤ frac l q := by
  unfold frac
  refine div_le_div_of_nonneg_right ?_ (by positivity)
  rw [← List.countP_eq_length_filter, ← List.countP_eq_length_filter]
  exact_mod_cast List.countP_mono_left fun x hx hp => by simpa using h x hx (by simpa using hp)

theorem frac_all {l : List ℝ} (hl : l ≠ []) {p : ℝ → Prop} (h : ∀ x ∈ l, p x) : frac l p = 1 := by
  have hlen : (0 : ℝ) < l.length := by exact_mod_cast List.length_pos_iff.2 hl
  rw [frac, List.filter_eq_self.2 fun x hx => by simpa using h x hx, div_self hlen.ne']

theorem frac_or {l : List ℝ} {p q : ℝ → Prop} (h : ∀ x ∈ l, p x → ¬ q x) : frac l (fun x => p x ∨ q x) = frac l p + frac l q := by
  unfold frac
  rw [← add_div]
  congr 1
  simp only [← List.countP_eq_length_filter]
  induction l with
  | nil => simp
  | cons a l ih =>
    have h1 := ih fun x hx => h x (List.mem_cons_of_mem _ hx)
    have h2 := h a List.mem_cons_self
    simp only [List.countP_cons]
    push_cast
    rw [h1]
    by_cases hp : p a
    · simp [hp, h2 hp]; ring
    · by_cases hq : q a
      · simp [hp, hq]; ring
      · simp [hp, hq]

theorem frac_congr {l : List ℝ} {p q : ℝ → Prop} (h : ∀ x ∈ l, (p x ↔ q x)) : frac l p = frac l q :=
  le_antisymm (frac_mono fun x hx => (h x hx).1) (frac_mono fun x hx => (h x hx).2)

/-- The samples in the bins up to `j` -/
def upTo (t : List ℝ) (n j : ℕ) (x : ℝ) : Prop := x < edge t n (j + 1) ∨ (j + 1 = n ∧ x ≤ edge t n n)

theorem cumulative_get {t : List ℝ} (ht : t ≠ []) {n : ℕ} : ∀ {j : ℕ}, j < n → (cumulative t n).getD j 0 = frac t (upTo t n j) := by
  have hget : ∀ j < n, (cumulative t n).getD j 0 = ((List.range (j + 1)).map fun i => (edge t n (i + 1) - edge t n i) * (density t n).getD i 0).sum := by
    intro j hj
    rw [cumulative, List.getD_eq_getElem _ _ (by simpa using hj), List.getElem_map, List.getElem_range]
  intro j
  induction j with
  | zero =>
    intro hj
    rw [hget 0 hj]
    simp only [zero_add, List.range_one, List.map_cons, List.map_nil, List.sum_cons, List.sum_nil, add_zero]
    rw [mass ht hj]
    refine frac_congr fun x hx => ?_
    have h0 : edge t n 0 ≤ x := by simpa [edge] using ((edges ht).2 x hx).1
    simp [holds, upTo, h0]
  | succ j ih =>
    intro hj
    rw [hget _ hj, List.range_succ, List.map_append, List.sum_append, ← hget j (by omega), ih (by omega)]
    simp only [List.map_cons, List.map_nil, List.sum_cons, List.sum_nil, add_zero]
    rw [mass ht hj, ← frac_or]
    · refine frac_congr fun x hx => ?_
      have h1 := edge_lt ht (show 0 < n by omega) (show j + 1 < j + 1 + 1 by omega)
      have hne : j + 1 ≠ n := by omega
      simp only [upTo, holds, hne, false_and, or_false]
      constructor
      · rintro (h | ⟨_, h⟩)
        · exact Or.inl (by linarith)
        · exact h
      · intro h
        rcases lt_or_ge x (edge t n (j + 1)) with h2 | h2
        · exact Or.inl h2
        · exact Or.inr ⟨h2, h⟩
    · intro x _ h1 h2
      have hne : j + 1 ≠ n := by omega
      simp only [upTo, holds, hne, false_and, or_false] at h1 h2
      linarith [h2.1]

theorem keep_eq (t : Trace) : t.keep = if t.isArray then .ok t.finite else .error .type := rfl

theorem pdf_ok {t : Trace} {dom : Option (List ℝ)} {f : ℝ} {r : List ℝ × List ℝ} (h : t.pdf dom f = .ok r) :
    t.isArray = true ∧ ∃ n, nBins t.finite = .ok n ∧ r = table (centers t.finite n) (density t.finite n) dom := by
  unfold Trace.pdf at h
  rw [keep_eq] at h
  by_cases ha : t.isArray = true
  · rw [if_pos ha] at h
    rcases hn : nBins t.finite with e | n
    · simp [hn] at h
    · simp only [hn, Except.ok.injEq] at h
      exact ⟨ha, n, rfl, h.symm⟩
  · rw [if_neg ha] at h
    cases h

theorem cdf_ok {t : Trace} {dom : Option (List ℝ)} {f : ℝ} {r : List ℝ × List ℝ} (h : t.cdf dom f = .ok r) :
    t.isArray = true ∧ ∃ n, nBins t.finite = .ok n ∧ r = table (centers t.finite n) (cumulative t.finite n) dom := by
  unfold Trace.cdf at h
  rw [keep_eq] at h
  by_cases ha : t.isArray = true
  · rw [if_pos ha] at h
    rcases hn : nBins t.finite with e | n
    · simp [hn] at h
    · simp only [hn, Except.ok.injEq] at h
      exact ⟨ha, n, rfl, h.symm⟩
  · rw [if_neg ha] at h
    cases h

theorem pdf_of {t : Trace} {n : ℕ} (ha : t.isArray = true) (hn : nBins t.finite = .ok n) (dom : Option (List ℝ)) (f : ℝ) :
    t.pdf dom f = .ok (table (centers t.finite n) (density t.finite n) dom) := by
  unfold Trace.pdf
  rw [keep_eq, if_pos ha]
  simp only [hn]

theorem cdf_of {t : Trace} {n : ℕ} (ha : t.isArray = true) (hn : nBins t.finite = .ok n) (dom : Option (List ℝ)) (f : ℝ) :
    t.cdf dom f = .ok (table (centers t.finite n) (cumulative t.finite n) dom) := by
  unfold Trace.cdf
  rw [keep_eq, if_pos ha]
  simp only [hn]

/-- `pdf()`: as many values as bins, in increasing order between the smallest and the largest sample; the value times the width of a bin is the fraction of the samples in it; no value is
negative, and the area is one. -/
theorem C148_density {t : Trace} {xs ys : List ℝ} {f : ℝ} (h : t.pdf none f = .ok (xs, ys)) :
    t.isArray = true ∧ t.finite ≠ [] ∧ ∃ n : ℕ, nBins t.finite = .ok n ∧ xs.length = n ∧ ys.length = n ∧ Increasing xs ∧
      (∀ x ∈ xs, least t.finite < x ∧ x < most t.finite) ∧ (∀ y ∈ ys, 0 ≤ y) ∧
      (∀ j < n, ys.getD j 0 * ((most t.finite - least t.finite) / n) = frac t.finite (holds t.finite n j)) ∧
      (ys.map fun y => y * ((most t.finite - least t.finite) / n)).sum = 1 := by
  obtain ⟨ha, n, hn, hr⟩ := pdf_ok h
  simp only [table, Prod.mk.injEq] at hr
  obtain ⟨rfl, rfl⟩ := hr
  obtain ⟨ht, hv, h2⟩ := nBins_ok hn
  have hm : ∀ j < n, (density t.finite n).getD j 0 * ((most t.finite - least t.finite) / n) = frac t.finite (holds t.finite n j) := by
    intro j hj
    rw [← mass ht hj, edge_diff, first_eq hv, last_eq hv, mul_comm]
  have hw : 0 < (most t.finite - least t.finite) / n := by
    have := span_pos ht (show 0 < n by omega)
    rwa [first_eq hv, last_eq hv] at this
  refine ⟨ha, ht, n, hn, centers_length _ _, density_length _ _, centers_increasing ht, centers_mem ht hv, ?_, hm, ?_⟩
  · intro y hy
    obtain ⟨j, hj, rfl⟩ := List.mem_iff_getElem.1 hy
    have hj' : j < n := by simpa [density_length] using hj
    have h3 := hm j hj'
    rw [List.getD_eq_getElem _ _ hj] at h3
    have h4 := frac_nonneg t.finite (holds t.finite n j)
    rw [← h3] at h4
    exact nonneg_of_mul_nonneg_left h4 hw
  · have hl : (density t.finite n).map (fun y => y * ((most t.finite - least t.finite) / n)) =
        (List.range n).map fun i => (edge t.finite n (i + 1) - edge t.finite n i) * (density t.finite n).getD i 0 := by
      refine List.ext_getElem (by simp [density_length]) fun i h1 h3 => ?_
      have hi : i < n := by simpa using h3
      rw [List.getElem_map, List.getElem_map, List.getElem_range, mass ht hi, ← hm i hi, List.getD_eq_getElem _ _ (by simpa [density_length] using hi)]
    have h3 := cumulative_get ht (show n - 1 < n by omega)
    rw [cumulative, List.getD_eq_getElem _ _ (by simp; omega), List.getElem_map, List.getElem_range] at h3
    rw [show n - 1 + 1 = n by omega] at h3
    rw [hl, h3]
    refine frac_all ht fun x hx => Or.inr ⟨by omega, ?_⟩
    rw [edge_last (by omega), last_eq hv]
    exact le_most hx

/-- `cdf()`: the value at the centre of a bin is the fraction of the samples in the bins up to it, this bin included; it is never below the fraction of the samples up to the centre, never
falls, starts with the mass of the first bin, which is not zero, and ends with one. -/
theorem C148_cdf {t : Trace} {xs ys : List ℝ} {f : ℝ} (h : t.cdf none f = .ok (xs, ys)) :
    t.isArray = true ∧ t.finite ≠ [] ∧ ∃ n : ℕ, nBins t.finite = .ok n ∧ xs.length = n ∧ ys.length = n ∧ Increasing xs ∧
      (∀ x ∈ xs, least t.finite < x ∧ x < most t.finite) ∧
      (∀ j < n, ys.getD j 0 = frac t.finite fun x => ∃ i ≤ j, holds t.finite n i x) ∧
      (∀ j < n, frac t.finite (· ≤ xs.getD j 0) ≤ ys.getD j 0 ∧ frac t.finite (· ≤ xs.getD j 0 - (most t.finite - least t.finite) / (2 * n)) ≥ ys.getD j 0 - frac t.finite (holds t.finite n j)) ∧
      (∀ i j, i ≤ j → j < n → ys.getD i 0 ≤ ys.getD j 0) ∧ 1 / t.finite.length ≤ ys.getD 0 0 ∧ ys.getD (n - 1) 0 = 1 := by
  obtain ⟨ha, n, hn, hr⟩ := cdf_ok h
  simp only [table, Prod.mk.injEq] at hr
  obtain ⟨rfl, rfl⟩ := hr
  obtain ⟨ht, hv, h2⟩ := nBins_ok hn
  have hn0 : 0 < n := by omega
  have hup : ∀ j < n, ∀ x ∈ t.finite, (upTo t.finite n j x ↔ ∃ i ≤ j, holds t.finite n i x) := by
    intro j hj x hx
    constructor
    · intro h1
      obtain ⟨i, hi, h3, _⟩ := C146_one_bin hn0 hx
      refine ⟨i, ?_, h3⟩
      by_contra hc
      have h4 := edge_le ht hn0 (show j + 1 ≤ i by omega)
      rcases h1 with h1 | ⟨h1, _⟩
      · linarith [h3.1]
      · omega
    · rintro ⟨i, hi, _, h4⟩
      have h5 := edge_le ht hn0 (show i + 1 ≤ j + 1 by omega)
      rcases h4 with h4 | ⟨h4, h6⟩
      · exact Or.inl (by linarith)
      · exact Or.inr ⟨by omega, h6⟩
  refine ⟨ha, ht, n, hn, centers_length _ _, cumulative_length _ _, centers_increasing ht, centers_mem ht hv, ?_, ?_, ?_, ?_, ?_⟩
  · intro j hj
    rw [cumulative_get ht hj]
    exact frac_congr (hup j hj)
  · intro j hj
    have h3 := edge_lt ht hn0 (Nat.lt_succ_self j)
    simp only [Nat.succ_eq_add_one] at h3
    constructor
    · rw [cumulative_get ht hj]
      refine frac_mono fun x _ hx => Or.inl ?_
      rw [centers_get hj] at hx
      linarith
    · have he : (centers t.finite n).getD j 0 - (most t.finite - least t.finite) / (2 * n) = edge t.finite n j := by
        rw [centers_get hj]
        have := edge_diff t.finite n j
        rw [first_eq hv, last_eq hv] at this
        have hn1 : (n : ℝ) ≠ 0 := by exact_mod_cast hn0.ne'
        have h5 : (most t.finite - least t.finite) / (2 * n) = ((most t.finite - least t.finite) / n) / 2 := by field_simp
        rw [h5, ← this]
        ring
      rw [he, cumulative_get ht hj]
      have h6 : frac t.finite (upTo t.finite n j) ≤ frac t.finite (fun x => x ≤ edge t.finite n j ∨ holds t.finite n j x) := by
        refine frac_mono fun x hx hu => ?_
        rcases le_or_gt x (edge t.finite n j) with h7 | h7
        · exact Or.inl h7
        · exact Or.inr ⟨h7.le, hu⟩
      have h8 : frac t.finite (fun x => x ≤ edge t.finite n j ∨ holds t.finite n j x) ≤ frac t.finite (· ≤ edge t.finite n j) + frac t.finite (holds t.finite n j) := by
        have h9 : frac t.finite (fun x => x ≤ edge t.finite n j ∨ holds t.finite n j x) =
            frac t.finite (fun x => x ≤ edge t.finite n j ∨ (holds t.finite n j x ∧ ¬ x ≤ edge t.finite n j)) := frac_congr fun x _ => by tauto
        rw [h9, frac_or (fun x _ h1 h2 => h2.2 h1)]
        have := frac_mono (l := t.finite) (p := fun x => holds t.finite n j x ∧ ¬ x ≤ edge t.finite n j) (q := holds t.finite n j) fun x _ h => h.1
        linarith
      linarith
  · intro i j hij hj
    rw [cumulative_get ht hj, cumulative_get ht (by omega)]
    refine frac_mono fun x _ hx => ?_
    have h3 := edge_le ht hn0 (show i + 1 ≤ j + 1 by omega)
    rcases hx with hx | ⟨hx, h4⟩
    · exact Or.inl (by linarith)
    · exact Or.inr ⟨by omega, h4⟩
  · rw [cumulative_get ht hn0]
    have h3 := hist_first ht hv hn0
    rw [hist_get hn0] at h3
    have hlen : (0 : ℝ) < t.finite.length := by exact_mod_cast List.length_pos_iff.2 ht
    have h4 : frac t.finite (holds t.finite n 0) ≤ frac t.finite (upTo t.finite n 0) := frac_mono fun x _ hx => hx.2
    refine le_trans ?_ h4
    exact div_le_div_of_nonneg_right h3 hlen.le
  · rw [cumulative_get ht (by omega)]
    refine frac_all ht fun x hx => Or.inr ⟨by omega, ?_⟩
    rw [edge_last hn0, last_eq hv]
    exact le_most hx

end Verif.Trace
