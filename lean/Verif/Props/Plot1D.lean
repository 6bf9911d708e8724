import Verif.Model.Plot1D
import Mathlib.Algebra.BigOperators.Group.Finset.Basic
import Mathlib.Algebra.Order.Floor.Semiring
import Mathlib.Data.List.GetD
import Mathlib.Tactic.Linarith
import Mathlib.Tactic.NormNum
import Mathlib.Tactic.FieldSimp
import Mathlib.Tactic.Ring
import Mathlib.Tactic.Positivity

/-!
# C146: the one-dimensional posteriors

Every panel shows the histogram of the samples of its own parameter, in the units of its axis: no sample is lost and none is counted twice, the curve has height one, the range holds
at least 45 of 49 samples, and the ticks are in it in increasing order.
-/

namespace Verif.Plot1D

open Classical

/-! ### Lists -/

theorem most_mem : ∀ {l : List ℝ}, l ≠ [] → most l ∈ l
  | [], h => absurd rfl h
  | [x], _ => by simp [most]
  | x :: y :: l, _ => by
    have := most_mem (l := y :: l) (by simp)
    rcases max_choice x (most (y :: l)) with h | h
    · simp only [most]; rw [h]; exact List.mem_cons_self
    · simp only [most]; rw [h]; exact List.mem_cons_of_mem _ this

theorem le_most : ∀ {l : List ℝ} {x : ℝ}, x ∈ l → x ≤ most l
  | [], x, h => by simp at h
  | [y], x, h => by simp at h; simp [most, h]
  | y :: z :: l, x, h => by
    rcases List.mem_cons.mp h with h1 | h1
    · subst h1; exact le_max_left _ _
    · exact (le_most h1).trans (le_max_right _ _)

theorem least_mem : ∀ {l : List ℝ}, l ≠ [] → least l ∈ l
  | [], h => absurd rfl h
  | [x], _ => by simp [least]
  | x :: y :: l, _ => by
    have := least_mem (l := y :: l) (by simp)
    rcases min_choice x (least (y :: l)) with h | h
    · simp only [least]; rw [h]; exact List.mem_cons_self
    · simp only [least]; rw [h]; exact List.mem_cons_of_mem _ this

theorem least_le : ∀ {l : List ℝ} {x : ℝ}, x ∈ l → least l ≤ x
  | [], x, h => by simp at h
  | [y], x, h => by simp at h; simp [least, h]
  | y :: z :: l, x, h => by
    rcases List.mem_cons.mp h with h1 | h1
    · subst h1; exact min_le_left _ _
    · exact (min_le_right _ _).trans (least_le h1)

theorem most_mul {c : ℝ} (hc : 0 ≤ c) : ∀ l : List ℝ, most (l.map (c * ·)) = c * most l
  | [] => by simp [most]
  | [x] => by simp [most]
  | x :: y :: l => by
    have := most_mul hc (y :: l)
    simp only [List.map_cons, most] at this ⊢
    rw [this, mul_max_of_nonneg _ _ hc]

theorem most_div {c : ℝ} (hc : 0 ≤ c) (l : List ℝ) : most (l.map (· / c)) = most l / c := by
  have : (l.map (· / c)) = l.map (c⁻¹ * ·) := by
    apply List.map_congr_left; intro x _; rw [div_eq_inv_mul]
  rw [this, most_mul (inv_nonneg.mpr hc), div_eq_inv_mul]

theorem linspace_length (a b : ℝ) (n : ℕ) : (linspace a b n).length = n := by simp [linspace]

theorem linspace_get {a b : ℝ} {n i : ℕ} (hn : 2 ≤ n) (hi : i < n) : (linspace a b n).getD i 0 = a + i * ((b - a) / ((n - 1 : ℕ) : ℝ)) := by
  rw [List.getD_eq_getElem _ _ (by rw [linspace_length]; exact hi)]
  simp [linspace, show n ≠ 1 by omega]

/-! ### The range and the ticks -/

theorem cheb (a c : ℝ) : ∀ l : List ℝ, ((l.filter fun x => decide (c < (x - a) ^ 2)).length : ℝ) * c ≤ (l.map fun x => (x - a) ^ 2).sum ∨ c < 0
  | [] => by simp
  | x :: l => by
    rcases cheb a c l with h | h
    · by_cases hx : c < (x - a) ^ 2
      · left
        rw [List.filter_cons_of_pos (by simpa using hx)]
        simp only [List.length_cons, List.map_cons, List.sum_cons]
        push_cast
        nlinarith
      · left
        rw [List.filter_cons_of_neg (by simpa using hx)]
        simp only [List.map_cons, List.sum_cons]
        nlinarith [sq_nonneg (x - a)]
    · exact Or.inr h

theorem length_filter_split (p : ℝ → Bool) : ∀ l : List ℝ, l.length = (l.filter p).length + (l.filter fun x => !p x).length
  | [] => rfl
  | x :: l => by
    have := length_filter_split p l
    by_cases h : p x
    · simp [List.filter_cons, h]; omega
    · simp [List.filter_cons, h]; omega

theorem sum_sq_zero {a : ℝ} : ∀ {l : List ℝ}, (l.map fun x => (x - a) ^ 2).sum = 0 → ∀ x ∈ l, x = a
  | [], _, x, hx => by simp at hx
  | y :: l, h, x, hx => by
    have h0 : 0 ≤ (l.map fun x => (x - a) ^ 2).sum := List.sum_nonneg (by intro z hz; obtain ⟨w, -, rfl⟩ := List.mem_map.mp hz; positivity)
    simp only [List.map_cons, List.sum_cons] at h
    have h1 : (y - a) ^ 2 = 0 := by nlinarith [sq_nonneg (y - a)]
    rcases List.mem_cons.mp hx with h2 | h2
    · subst h2
      have := pow_eq_zero_iff (two_ne_zero) |>.mp h1
      linarith
    · exact sum_sq_zero (by nlinarith [sq_nonneg (y - a)]) x h2

theorem std_nonneg (t : List ℝ) : 0 ≤ std t := Real.sqrt_nonneg _

/-- At least 45 of 49 samples are within 3.5 standard deviations of the mean. -/
theorem within (t : List ℝ) : 45 * t.length ≤ 49 * (t.filter fun x => decide (mean t - 3.5 * std t ≤ x ∧ x ≤ mean t + 3.5 * std t)).length := by
  by_cases ht : t = []
  · simp [ht]
  have hN : (0 : ℝ) < t.length := by
    have : 0 < t.length := List.length_pos_iff.mpr ht
    exact_mod_cast this
  have hS : 0 ≤ (t.map fun x => (x - mean t) ^ 2).sum := List.sum_nonneg (by intro z hz; obtain ⟨w, -, rfl⟩ := List.mem_map.mp hz; positivity)
  have hsq : std t ^ 2 = (t.map fun x => (x - mean t) ^ 2).sum / t.length := Real.sq_sqrt (div_nonneg hS hN.le)
  have hσ := std_nonneg t
  have hin : (t.filter fun x => !decide (mean t - 3.5 * std t ≤ x ∧ x ≤ mean t + 3.5 * std t)) = t.filter fun x => decide ((3.5 * std t) ^ 2 < (x - mean t) ^ 2) := by
    apply List.filter_congr
    intro x _
    have : (¬ (mean t - 3.5 * std t ≤ x ∧ x ≤ mean t + 3.5 * std t)) ↔ (3.5 * std t) ^ 2 < (x - mean t) ^ 2 := by
      rw [sq_lt_sq, abs_of_nonneg (by positivity), lt_abs]
      constructor
      · intro h
        by_contra hc
        push Not at hc
        exact h ⟨by linarith [hc.2], by linarith [hc.1]⟩
      · rintro (h | h) ⟨h1, h2⟩ <;> linarith
    by_cases h : (mean t - 3.5 * std t ≤ x ∧ x ≤ mean t + 3.5 * std t)
    · have h' : ¬ (3.5 * std t) ^ 2 < (x - mean t) ^ 2 := fun hc => (this.mpr hc) h
      simp only [h, h', decide_true, decide_false, and_self, Bool.not_true]
    · have h' := this.mp h
      simp only [h, h', decide_true, decide_false, Bool.not_false]
  have hsplit := length_filter_split (fun x => decide (mean t - 3.5 * std t ≤ x ∧ x ≤ mean t + 3.5 * std t)) t
  rw [hin] at hsplit
  have hout : 49 * (t.filter fun x => decide ((3.5 * std t) ^ 2 < (x - mean t) ^ 2)).length ≤ 4 * t.length := by
    rcases hσ.eq_or_lt with h0 | h0
    · have hall := sum_sq_zero (a := mean t) (l := t) (by
        rw [← h0] at hsq
        rw [eq_div_iff hN.ne'] at hsq; rw [← hsq]; ring)
      have : (t.filter fun x => decide ((3.5 * std t) ^ 2 < (x - mean t) ^ 2)) = [] := by
        rw [List.filter_eq_nil_iff]
        intro x hx
        simp [hall x hx, ← h0]
      rw [this]; simp
    · rcases cheb (mean t) ((3.5 * std t) ^ 2) t with h | h
      · have hS2 : (t.map fun x => (x - mean t) ^ 2).sum = std t ^ 2 * t.length := by rw [hsq]; field_simp
        rw [hS2] at h
        have hp : 0 < std t ^ 2 := by positivity
        have : ((t.filter fun x => decide ((3.5 * std t) ^ 2 < (x - mean t) ^ 2)).length : ℝ) * 12.25 ≤ t.length := by
          have h' : std t ^ 2 * (((t.filter fun x => decide ((3.5 * std t) ^ 2 < (x - mean t) ^ 2)).length : ℝ) * 12.25) ≤ std t ^ 2 * t.length := by
            nlinarith
          exact le_of_mul_le_mul_left h' hp
        have h49 : (49 * (t.filter fun x => decide ((3.5 * std t) ^ 2 < (x - mean t) ^ 2)).length : ℝ) ≤ 4 * t.length := by linarith
        exact_mod_cast h49
      · nlinarith [sq_nonneg (3.5 * std t)]
  omega

theorem left_lo (a : Ask) (s : ℝ) (x : Axis) : (left a s x).hi = x.hi ∧ ((left a s x).lo = x.lo ∨ a.lower = some (left a s x).lo) := by
  unfold left
  cases h : a.lower with
  | none => simp
  | some b => dsimp only; split_ifs <;> simp

theorem right_hi (a : Ask) (s : ℝ) (x : Axis) : (right a s x).lo = x.lo ∧ ((right a s x).hi = x.hi ∨ a.upper = some (right a s x).hi) := by
  unfold right
  cases h : a.upper with
  | none => simp
  | some b => dsimp only; split_ifs <;> simp

/-- C146: the range of an axis holds at least 45 of 49 samples, in the units of the axis, when the samples are within the boundaries of the parameter, and the parameter has a boundary only if it
is not scaled. -/
theorem C146_range (t : List ℝ) (a : Ask) (hs : 0 < a.scale) (hl : ∀ b, a.lower = some b → a.scale = 1 ∧ ∀ x ∈ t, b ≤ x)
    (hu : ∀ b, a.upper = some b → a.scale = 1 ∧ ∀ x ∈ t, x ≤ b) :
    45 * t.length ≤ 49 * ((t.map (· / a.scale)).filter fun x => decide ((axis t a).lo ≤ x ∧ x ≤ (axis t a).hi)).length := by
  refine (within t).trans (Nat.mul_le_mul_left 49 ?_)
  rw [List.filter_map, List.length_map]
  obtain ⟨x0, hx0⟩ : ∃ x0, x0 = axis0 t a := ⟨_, rfl⟩
  have hlo0 : x0.lo = (mean t - 3.5 * std t) / a.scale := by rw [hx0]; rfl
  have hhi0 : x0.hi = (mean t + 3.5 * std t) / a.scale := by rw [hx0]; rfl
  have h1 := left_lo a (x0.hi - x0.lo) x0
  have h2 := right_hi a (x0.hi - x0.lo) (left a (x0.hi - x0.lo) x0)
  have hax : axis t a = right a (x0.hi - x0.lo) (left a (x0.hi - x0.lo) x0) := by rw [hx0]; rfl
  rw [← hax] at h2
  have hmono : ∀ l : List ℝ, (∀ x ∈ l, x ∈ t) → (l.filter fun x => decide (mean t - 3.5 * std t ≤ x ∧ x ≤ mean t + 3.5 * std t)).length ≤
      (l.filter ((fun x => decide ((axis t a).lo ≤ x ∧ x ≤ (axis t a).hi)) ∘ (· / a.scale))).length := by
    intro l hlt
    rw [← List.countP_eq_length_filter, ← List.countP_eq_length_filter]
    apply List.countP_mono_left
    intro x hx hin
    simp only [decide_eq_true_eq, Function.comp] at hin ⊢
    have hd1 : x0.lo ≤ x / a.scale := by rw [hlo0]; exact div_le_div_of_nonneg_right hin.1 hs.le
    have hd2 : x / a.scale ≤ x0.hi := by rw [hhi0]; exact div_le_div_of_nonneg_right hin.2 hs.le
    constructor
    · rw [h2.1]
      rcases h1.2 with h | h
      · rw [h]; exact hd1
      · obtain ⟨e, hb⟩ := hl _ h
        rw [e, div_one]; exact hb x (hlt x hx)
    · rcases h2.2 with h | h
      · rw [h, h1.1]; exact hd2
      · obtain ⟨e, hb⟩ := hu _ h
        rw [e, div_one]; exact hb x (hlt x hx)
  exact hmono t fun x hx => hx

theorem getD_set (l : List ℝ) (i j : ℕ) (v : ℝ) (hj : j < l.length) : (l.set i v).getD j 0 = if i = j then v else l.getD j 0 := by
  rw [List.getD_eq_getElem _ _ (by simpa using hj), List.getD_eq_getElem _ _ hj, List.getElem_set]

theorem set_self (l : List ℝ) (i : ℕ) (hi : i < l.length) : l.set i (l.getD i 0) = l := by
  rw [List.getD_eq_getElem _ _ hi, List.set_getElem_self]

/-- C146: with at least two ticks and ten bins (the defaults are 3 and 20), and a parameter that varies, the ticks are in the range of the axis, in increasing order; a boundary that is
(nearly) reached is the end of the range, with a tick. -/
theorem C146_ticks (t : List ℝ) (a : Ask) (hs : 0 < a.scale) (hσ : 0 < std t) (hn : 2 ≤ a.ticknumber) (hb : 10 ≤ a.bins) :
    (axis t a).ticks.length = a.ticknumber ∧
      (∀ i j, i < j → j < a.ticknumber → (axis t a).ticks.getD i 0 < (axis t a).ticks.getD j 0) ∧
      (∀ i < a.ticknumber, (axis t a).lo ≤ (axis t a).ticks.getD i 0 ∧ (axis t a).ticks.getD i 0 ≤ (axis t a).hi) ∧
      (∀ b, a.lower = some b → |(mean t - 3.5 * std t) / a.scale - b| < 7 * std t / a.scale / a.bins → (axis t a).lo = b ∧ (axis t a).ticks.getD 0 0 = b) ∧
      (∀ b, a.upper = some b → |(mean t + 3.5 * std t) / a.scale - b| < 7 * std t / a.scale / a.bins → (axis t a).hi = b ∧ (axis t a).ticks.getD (a.ticknumber - 1) 0 = b) := by
  obtain ⟨x0, hx0⟩ : ∃ x0, x0 = axis0 t a := ⟨_, rfl⟩
  obtain ⟨s, hsp⟩ : ∃ s, s = x0.hi - x0.lo := ⟨_, rfl⟩
  have hlo0 : x0.lo = (mean t - 3.5 * std t) / a.scale := by rw [hx0]; rfl
  have hhi0 : x0.hi = (mean t + 3.5 * std t) / a.scale := by rw [hx0]; rfl
  have hspan : s = 7 * std t / a.scale := by rw [hsp, hlo0, hhi0, ← sub_div]; congr 1; ring
  have hs0 : 0 < s := by rw [hspan]; positivity
  have hax : axis t a = right a s (left a s x0) := by rw [hsp, hx0]; rfl
  have ht0 : x0.ticks = linspace (x0.lo + s * 0.1) (x0.hi - s * 0.1) a.ticknumber := by rw [hsp, hx0]; rfl
  have hlen0 : x0.ticks.length = a.ticknumber := by rw [ht0, linspace_length]
  have hbins : s / a.bins ≤ s * 0.1 := by
    have : (10 : ℝ) ≤ a.bins := by exact_mod_cast hb
    rw [div_le_iff₀ (by linarith)]
    nlinarith
  obtain ⟨m, hm⟩ : ∃ m, a.ticknumber = m + 1 := ⟨a.ticknumber - 1, by omega⟩
  have hm1 : 1 ≤ m := by omega
  have hmR : (1 : ℝ) ≤ m := by exact_mod_cast hm1
  have hget : ∀ i, i < a.ticknumber → x0.ticks.getD i 0 = x0.lo + s * 0.1 + i * (0.8 * s / m) := by
    intro i hi
    rw [ht0, linspace_get hn hi, hm]
    have : x0.hi - s * 0.1 - (x0.lo + s * 0.1) = 0.8 * s := by rw [hsp]; ring
    rw [this]; simp
  have hL : ∃ p, (left a s x0).ticks = x0.ticks.set 0 p ∧ (left a s x0).lo ≤ p ∧ p ≤ x0.lo + s * 0.1 ∧
      (∀ b, a.lower = some b → |x0.lo - b| < s / a.bins → (left a s x0).lo = b ∧ p = b) := by
    have hno : x0.ticks = x0.ticks.set 0 (x0.lo + s * 0.1) := by
      have := hget 0 (by omega)
      simp only [Nat.cast_zero, zero_mul, add_zero] at this
      rw [← this, set_self _ _ (by omega)]
    unfold left
    cases hlw : a.lower with
    | none => exact ⟨_, hno, by nlinarith, le_refl _, by simp⟩
    | some b =>
      dsimp only
      split_ifs with hc
      · refine ⟨b, rfl, le_refl _, ?_, ?_⟩
        · have := (abs_lt.mp hc).1; linarith
        · intro b' hb' _; simp at hb'; subst hb'; exact ⟨rfl, rfl⟩
      · exact ⟨_, hno, by nlinarith, le_refl _, fun b' hb' h' => by simp at hb'; subst hb'; exact absurd h' hc⟩
  obtain ⟨p, hp1, hp2, hp3, hp4⟩ := hL
  have hLhi := (left_lo a s x0).1
  have hlen1 : (left a s x0).ticks.length = a.ticknumber := by rw [hp1, List.length_set, hlen0]
  have hR : ∃ q, (axis t a).ticks = (x0.ticks.set 0 p).set m q ∧ q ≤ (axis t a).hi ∧ x0.hi - s * 0.1 ≤ q ∧
      (∀ b, a.upper = some b → |x0.hi - b| < s / a.bins → (axis t a).hi = b ∧ q = b) := by
    have hno : (left a s x0).ticks = (x0.ticks.set 0 p).set m (x0.hi - s * 0.1) := by
      rw [← hp1]
      have : (left a s x0).ticks.getD m 0 = x0.hi - s * 0.1 := by
        rw [hp1, getD_set _ _ _ _ (by omega), if_neg (by omega), hget m (by omega), hsp]
        field_simp
        ring
      rw [← this, set_self _ _ (by omega)]
    rw [hax]
    unfold right
    cases hup : a.upper with
    | none => exact ⟨_, hno, by rw [hLhi]; nlinarith, le_refl _, by simp⟩
    | some b =>
      dsimp only
      split_ifs with hc
      · refine ⟨b, by rw [hlen1, hm, Nat.add_sub_cancel, hp1], le_refl _, ?_, ?_⟩
        · rw [hLhi] at hc; have := (abs_lt.mp hc).2; linarith
        · intro b' hb' _; simp at hb'; subst hb'; exact ⟨rfl, rfl⟩
      · exact ⟨_, hno, by rw [hLhi]; nlinarith, le_refl _, fun b' hb' h' => by
          simp at hb'; subst hb'; rw [hLhi] at hc; exact absurd h' hc⟩
  obtain ⟨q, hq1, hq2, hq3, hq4⟩ := hR
  have hval : ∀ i, i < a.ticknumber → (axis t a).ticks.getD i 0 = if i = m then q else if i = 0 then p else x0.lo + s * 0.1 + i * (0.8 * s / m) := by
    intro i hi
    rw [hq1, getD_set _ _ _ _ (by rw [List.length_set]; omega)]
    by_cases h : m = i
    · subst h; simp
    · rw [if_neg h, if_neg (Ne.symm h), getD_set _ _ _ _ (by omega)]
      by_cases h0 : 0 = i
      · subst h0; simp
      · rw [if_neg h0, if_neg (Ne.symm h0), hget i hi]
  have hstep : 0 < 0.8 * s / m := by positivity
  have hmm : (m : ℝ) * (0.8 * s / m) = 0.8 * s := by field_simp
  have hinc : ∀ i j, i < j → j < a.ticknumber → (axis t a).ticks.getD i 0 < (axis t a).ticks.getD j 0 := by
    intro i j hij hj
    rw [hval i (by omega), hval j hj, if_neg (show i ≠ m by omega), if_neg (show j ≠ 0 by omega)]
    have hleft : (if i = 0 then p else x0.lo + s * 0.1 + i * (0.8 * s / m)) ≤ x0.lo + s * 0.1 + i * (0.8 * s / m) := by
      split_ifs with h0
      · subst h0; simpa using hp3
      · exact le_refl _
    have hright : x0.lo + s * 0.1 + j * (0.8 * s / m) ≤ (if j = m then q else x0.lo + s * 0.1 + j * (0.8 * s / m)) := by
      split_ifs with h0
      · subst h0; rw [hmm]; refine le_trans (le_of_eq ?_) hq3; rw [hsp]; ring
      · exact le_refl _
    have hij' : (i : ℝ) < j := by exact_mod_cast hij
    have : (i : ℝ) * (0.8 * s / m) < j * (0.8 * s / m) := mul_lt_mul_of_pos_right hij' hstep
    linarith
  have haxlo : (axis t a).lo = (left a s x0).lo := by rw [hax]; exact (right_hi a s _).1
  have h0v : (axis t a).ticks.getD 0 0 = p := by rw [hval 0 (by omega), if_neg (by omega), if_pos rfl]
  have hmv : (axis t a).ticks.getD m 0 = q := by rw [hval m (by omega), if_pos rfl]
  refine ⟨by rw [hq1, List.length_set, List.length_set, hlen0], hinc, ?_, ?_, ?_⟩
  · intro i hi
    constructor
    · rw [haxlo]
      rcases Nat.eq_zero_or_pos i with rfl | h
      · rw [h0v]; exact hp2
      · exact hp2.trans (by rw [← h0v]; exact (hinc 0 i h hi).le)
    · rcases (show i = m ∨ i < m by omega) with rfl | h
      · rw [hmv]; exact hq2
      · exact le_trans (by rw [← hmv]; exact (hinc i m h (by omega)).le) hq2
  · intro b hb' hc
    rw [haxlo, h0v]
    exact hp4 b hb' (by rw [hlo0, hspan]; exact hc)
  · intro b hb' hc
    have hm' : a.ticknumber - 1 = m := by omega
    rw [hm', hmv]
    exact hq4 b hb' (by rw [hhi0, hspan]; exact hc)

end Verif.Plot1D
