/-
Lemmas for the files of measurements and grids.
-/
import Verif.Model.DataFile
import Mathlib.Tactic.Linarith
import Mathlib.Tactic.NormNum
import Mathlib.Tactic.FieldSimp
import Mathlib.Tactic.Positivity
import Mathlib.Tactic.Ring

namespace Verif.DataFile

noncomputable section

/-- A rounding to a nearest integer; what happens to ties is left open. -/
def Nearest (rnd : ℝ → ℤ) : Prop := ∀ x, |(rnd x : ℝ) - x| ≤ 1 / 2

theorem nearest_int {rnd : ℝ → ℤ} (h : Nearest rnd) (n : ℤ) : rnd n = n := by
  have h1 := h n
  have h2 : |((rnd n - n : ℤ) : ℝ)| < 1 := by push_cast; linarith
  rw [← Int.cast_abs] at h2
  have h3 : |rnd (n : ℝ) - n| < 1 := by exact_mod_cast h2
  rw [Int.abs_lt_one_iff] at h3
  omega

theorem flatMap_uniform {α β : Type} (l : List α) (f : α → List β) (m : ℕ) (h : ∀ x ∈ l, (f x).length = m) (a b : ℕ) (hb : b < m) :
    (l.flatMap f)[a * m + b]? = (l[a]?).bind fun x => (f x)[b]? := by
  induction l generalizing a with
  | nil => simp
  | cons x l ih =>
    rw [List.flatMap_cons]
    have hx : (f x).length = m := h x (by simp)
    cases a with
    | zero =>
      rw [Nat.zero_mul, Nat.zero_add, List.getElem?_append_left (by omega)]
      simp
    | succ a =>
      rw [List.getElem?_append_right (by rw [hx, Nat.succ_mul]; omega), hx, show (a + 1) * m + b - m = a * m + b by rw [Nat.succ_mul]; omega,
        ih (fun y hy => h y (List.mem_cons_of_mem _ hy))]
      simp

theorem flatMap_length {α β : Type} (l : List α) (f : α → List β) (m : ℕ) (h : ∀ x ∈ l, (f x).length = m) : (l.flatMap f).length = l.length * m := by
  induction l with
  | nil => simp
  | cons x l ih => rw [List.flatMap_cons, List.length_append, h x (by simp), ih (fun y hy => h y (List.mem_cons_of_mem _ hy)), List.length_cons, Nat.succ_mul, Nat.add_comm]

theorem mapM_ok {α β ε : Type} (g : α → Except ε β) (l : List α) (h : α → β) (hg : ∀ a ∈ l, g a = .ok (h a)) : l.mapM g = .ok (l.map h) := by
  induction l with
  | nil => rfl
  | cons a l ih =>
    rw [List.mapM_cons, hg a (by simp), ih fun b hb => hg b (List.mem_cons_of_mem _ hb)]
    rfl

theorem mapM_inv {α β ε : Type} (g : α → Except ε β) (l : List α) (r : List β) (h : l.mapM g = .ok r) : r.length = l.length ∧ ∀ (t : ℕ) (a : α), l[t]? = some a → ∃ b, r[t]? = some b ∧ g a = .ok b := by
  induction l generalizing r with
  | nil =>
    have : r = [] := by cases h; rfl
    subst this
    exact ⟨rfl, fun t a ha => by simp at ha⟩
  | cons x l ih =>
    rw [List.mapM_cons] at h
    cases hx : g x with
    | error e => rw [hx] at h; cases h
    | ok b =>
      rw [hx] at h
      cases hl : l.mapM g with
      | error e => rw [hl] at h; cases h
      | ok r' =>
        rw [hl] at h
        have hr : r = b :: r' := by cases h; rfl
        subst hr
        obtain ⟨i1, i2⟩ := ih r' hl
        refine ⟨by simp [i1], fun t a ha => ?_⟩
        cases t with
        | zero =>
          simp only [List.getElem?_cons_zero, Option.some.injEq] at ha ⊢
          subst ha
          exact ⟨b, rfl, hx⟩
        | succ t =>
          simp only [List.getElem?_cons_succ] at ha ⊢
          exact i2 t a ha

/-! ### `round6` -/

theorem round6_error {rnd : ℝ → ℤ} (h : Nearest rnd) (x : ℝ) : |round6 rnd x - x| ≤ 5 / 10 ^ 6 * |x| := by
  unfold round6
  split_ifs with hx
  · subst hx; simp
  have hpos : 0 < |x| := abs_pos.2 hx
  have h1 : (10 : ℝ) ^ Int.log 10 |x| ≤ |x| := by
    have := Int.zpow_log_le_self (b := 10) (by norm_num) hpos
    exact_mod_cast this
  obtain ⟨e, he⟩ : ∃ e, e = Int.log 10 |x| := ⟨_, rfl⟩
  rw [← he] at h1 ⊢
  obtain ⟨u, hu⟩ : ∃ u : ℝ, u = 10 ^ (e - 5) := ⟨_, rfl⟩
  have hup : 0 < u := hu ▸ zpow_pos (by norm_num) _
  have h2 : (10 : ℝ) ^ e = u * 10 ^ 5 := by
    rw [hu, zpow_sub₀ (by norm_num)]
    norm_num
  rw [← hu]
  have h3 := h (x / u)
  have h4 : (rnd (x / u) : ℝ) * u - x = ((rnd (x / u) : ℝ) - x / u) * u := by field_simp
  rw [h4, abs_mul, abs_of_pos hup]
  have : |(rnd (x / u) : ℝ) - x / u| * u ≤ 1 / 2 * u := mul_le_mul_of_nonneg_right h3 hup.le
  rw [h2] at h1
  linarith

theorem round6_int {rnd : ℝ → ℤ} (h : Nearest rnd) (r : ℤ) (e : ℤ) (h1 : 10 ^ 5 ≤ |r|) (h2 : |r| ≤ 10 ^ 6) : round6 rnd ((r : ℝ) * 10 ^ (e - 5)) = (r : ℝ) * 10 ^ (e - 5) := by
  have hu : (0 : ℝ) < 10 ^ (e - 5) := zpow_pos (by norm_num) _
  have hr0 : r ≠ 0 := by rintro rfl; norm_num at h1
  have hx : (r : ℝ) * 10 ^ (e - 5) ≠ 0 := mul_ne_zero (by exact_mod_cast hr0) hu.ne'
  unfold round6
  rw [if_neg hx]
  have habs : |(r : ℝ) * 10 ^ (e - 5)| = (|r| : ℤ) * 10 ^ (e - 5) := by rw [abs_mul, abs_of_pos hu, Int.cast_abs]
  have hr1 : (10 : ℝ) ^ 5 ≤ ((|r| : ℤ) : ℝ) := by exact_mod_cast h1
  have hr2 : ((|r| : ℤ) : ℝ) ≤ (10 : ℝ) ^ 6 := by exact_mod_cast h2
  have e1 : (10 : ℝ) ^ e = 10 ^ 5 * 10 ^ (e - 5) := by
    rw [zpow_sub₀ (by norm_num)]; norm_num; ring
  have e2 : (10 : ℝ) ^ (e + 1) = 10 ^ 6 * 10 ^ (e - 5) := by
    rw [zpow_add₀ (by norm_num), e1]; norm_num; ring
  rcases lt_or_eq_of_le h2 with hlt | heq
  · have hlog : Int.log 10 |(r : ℝ) * 10 ^ (e - 5)| = e := by
      rw [habs]
      have hp : (0 : ℝ) < ((|r| : ℤ) : ℝ) * 10 ^ (e - 5) := by positivity
      have a1 : e ≤ Int.log 10 (((|r| : ℤ) : ℝ) * 10 ^ (e - 5)) := by
        rw [← Int.zpow_le_iff_le_log (by norm_num) hp]
        push_cast
        rw [e1]
        have := mul_le_mul_of_nonneg_right hr1 hu.le
        rwa [Int.cast_abs] at this
      have a2 : Int.log 10 (((|r| : ℤ) : ℝ) * 10 ^ (e - 5)) < e + 1 := by
        rw [← Int.lt_zpow_iff_log_lt (by norm_num) hp]
        push_cast
        rw [e2]
        have : ((|r| : ℤ) : ℝ) < 10 ^ 6 := by exact_mod_cast hlt
        have := mul_lt_mul_of_pos_right this hu
        rwa [Int.cast_abs] at this
      omega
    rw [hlog, mul_div_assoc, div_self hu.ne', mul_one, nearest_int h]
  · have hlog : Int.log 10 |(r : ℝ) * 10 ^ (e - 5)| = e + 1 := by
      rw [habs, heq]
      have : (((10 ^ 6 : ℤ)) : ℝ) * 10 ^ (e - 5) = ((10 : ℕ) : ℝ) ^ (e + 1) := by push_cast; rw [e2]; norm_num
      rw [this, Int.log_zpow (by norm_num)]
    rw [hlog]
    have hs : (10 : ℝ) ^ (e + 1 - 5) = 10 * 10 ^ (e - 5) := by
      rw [show e + 1 - 5 = (e - 5) + 1 by ring, zpow_add₀ (by norm_num)]; norm_num; ring
    have hd : ∃ q : ℤ, r = 10 * q := by
      rcases abs_eq (by norm_num : (0 : ℤ) ≤ 10 ^ 6) |>.1 heq with h | h
      · exact ⟨10 ^ 5, by rw [h]; norm_num⟩
      · exact ⟨-10 ^ 5, by rw [h]; norm_num⟩
    obtain ⟨q, hq⟩ := hd
    have : (r : ℝ) * 10 ^ (e - 5) / 10 ^ (e + 1 - 5) = (q : ℤ) := by
      rw [hs, hq]; push_cast; field_simp
    rw [this, nearest_int h, hs, hq]
    push_cast
    ring

theorem round6_idem {rnd : ℝ → ℤ} (h : Nearest rnd) (x : ℝ) : round6 rnd (round6 rnd x) = round6 rnd x := by
  by_cases hx : x = 0
  · subst hx; simp [round6]
  have hpos : 0 < |x| := abs_pos.2 hx
  have h1 : (10 : ℝ) ^ Int.log 10 |x| ≤ |x| := by
    have := Int.zpow_log_le_self (b := 10) (by norm_num) hpos
    exact_mod_cast this
  have h2 : |x| < (10 : ℝ) ^ (Int.log 10 |x| + 1) := by
    have := Int.lt_zpow_succ_log_self (b := 10) (by norm_num) |x|
    exact_mod_cast this
  have hr : round6 rnd x = (rnd (x / 10 ^ (Int.log 10 |x| - 5)) : ℝ) * 10 ^ (Int.log 10 |x| - 5) := by
    unfold round6; rw [if_neg hx]
  rw [hr]
  obtain ⟨e, he⟩ : ∃ e, e = Int.log 10 |x| := ⟨_, rfl⟩
  rw [← he] at h1 h2 ⊢
  have hu : (0 : ℝ) < 10 ^ (e - 5) := zpow_pos (by norm_num) _
  have e1 : (10 : ℝ) ^ e = 10 ^ 5 * 10 ^ (e - 5) := by
    rw [zpow_sub₀ (by norm_num)]; norm_num; ring
  have e2 : (10 : ℝ) ^ (e + 1) = 10 ^ 6 * 10 ^ (e - 5) := by
    rw [zpow_add₀ (by norm_num), e1]; norm_num; ring
  have hn := h (x / 10 ^ (e - 5))
  have a1 : (10 : ℝ) ^ 5 ≤ |x / 10 ^ (e - 5)| := by rw [abs_div, abs_of_pos hu, le_div_iff₀ hu, ← e1]; exact h1
  have a2 : |x / 10 ^ (e - 5)| < (10 : ℝ) ^ 6 := by rw [abs_div, abs_of_pos hu, div_lt_iff₀ hu, ← e2]; exact h2
  obtain ⟨y, hy⟩ : ∃ y, y = x / 10 ^ (e - 5) := ⟨_, rfl⟩
  rw [← hy] at hn a1 a2 ⊢
  have b1 : |(rnd y : ℝ)| ≤ |y| + 1 / 2 := by
    have := abs_sub_abs_le_abs_sub (rnd y : ℝ) y
    linarith
  have b2 : |y| - 1 / 2 ≤ |(rnd y : ℝ)| := by
    have := abs_sub_abs_le_abs_sub y (rnd y : ℝ)
    rw [abs_sub_comm] at this
    linarith
  rw [← Int.cast_abs] at b1 b2
  apply round6_int h
  · have : ((10 ^ 5 - 1 : ℤ) : ℝ) < ((|rnd y| : ℤ) : ℝ) := by push_cast; push_cast at b2; linarith
    have := Int.cast_lt.1 this
    omega
  · have : ((|rnd y| : ℤ) : ℝ) < ((10 ^ 6 + 1 : ℤ) : ℝ) := by push_cast; push_cast at b1; linarith
    have := Int.cast_lt.1 this
    omega

end

end Verif.DataFile
