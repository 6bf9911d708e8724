/-
Nearest labels.
-/
import Verif.Model.Labels
import Verif.Spec.Labels
import Verif.Lemmas.Cov
import Mathlib.Tactic.Linarith

namespace Verif.Labels

open Verif.Cov

theorem countP_iff (p : Rat → Bool) : ∀ (l : List Rat), l.Pairwise (fun a b => p b = true → p a = true) → ∀ i (hi : i < l.length), p l[i] = true ↔ i < l.countP p := by
  intro l
  induction l with
  | nil => intro _ i hi; simp at hi
  | cons a l ih =>
    intro hp i hi
    rw [List.pairwise_cons] at hp
    by_cases ha : p a = true
    · rw [List.countP_cons_of_pos ha]
      cases i with
      | zero => simp [ha]
      | succ i =>
        rw [List.getElem_cons_succ, ih hp.2 i (by simpa using hi)]
        omega
    · have h0 : ∀ x ∈ a :: l, ¬ p x = true := by
        intro x hx
        rcases List.mem_cons.1 hx with rfl | hx
        · exact ha
        · exact fun h => ha (hp.1 x hx h)
      have hc : (a :: l).countP p = 0 := List.countP_eq_zero.2 h0
      rw [hc]
      exact ⟨fun h => absurd h (h0 _ (List.getElem_mem hi)), fun h => absurd h (Nat.not_lt_zero _)⟩

theorem inc_iff (l : List Rat) : inc l = true ↔ l.Pairwise (· < ·) := by
  induction l with
  | nil => simp [inc]
  | cons a l ih =>
    cases l with
    | nil => simp [inc]
    | cons b l =>
      rw [inc, Bool.and_eq_true, decide_eq_true_iff, ih, List.pairwise_cons (a := a)]
      constructor
      · rintro ⟨h1, h2⟩
        refine ⟨fun x hx => ?_, h2⟩
        rcases List.mem_cons.1 hx with rfl | hx
        · exact h1
        · exact h1.trans ((List.pairwise_cons.1 h2).1 x hx)
      · rintro ⟨h1, h2⟩
        exact ⟨h1 b (by simp), h2⟩

theorem dec_iff (l : List Rat) : dec l = true ↔ l.Pairwise (· > ·) := by
  induction l with
  | nil => simp [dec]
  | cons a l ih =>
    cases l with
    | nil => simp [dec]
    | cons b l =>
      rw [dec, Bool.and_eq_true, decide_eq_true_iff, ih, List.pairwise_cons (a := a)]
      constructor
      · rintro ⟨h1, h2⟩
        refine ⟨fun x hx => ?_, h2⟩
        rcases List.mem_cons.1 hx with rfl | hx
        · exact h1
        · exact ((List.pairwise_cons.1 h2).1 x hx).trans h1
      · rintro ⟨h1, h2⟩
        exact ⟨h1 b (by simp), h2⟩

/-- Between two neighbours. -/
theorem near_two (L : List Rat) (a b v : Rat) (ha : a ∈ L) (hb : b ∈ L) (hav : a ≤ v) (hvb : v ≤ b) (hall : ∀ y ∈ L, y ≤ a ∨ b ≤ y) :
    Spec.Nearest L v (if |a - v| < |b - v| then a else b) := by
  rw [abs_of_nonpos (by linarith : a - v ≤ 0), abs_of_nonneg (by linarith : 0 ≤ b - v)]
  split_ifs with h
  · refine ⟨ha, fun y hy => ?_⟩
    rw [abs_of_nonpos (by linarith : a - v ≤ 0)]
    rcases hall y hy with h1 | h1
    · rw [abs_of_nonpos (by linarith : y - v ≤ 0)]
      rcases h1.lt_or_eq with h2 | h2
      · left; linarith
      · right; exact ⟨by rw [h2], h1⟩
    · rw [abs_of_nonneg (by linarith : 0 ≤ y - v)]
      left; linarith
  · push Not at h
    refine ⟨hb, fun y hy => ?_⟩
    rw [abs_of_nonneg (by linarith : 0 ≤ b - v)]
    rcases hall y hy with h1 | h1
    · rw [abs_of_nonpos (by linarith : y - v ≤ 0)]
      by_cases h2 : b - v < -(y - v)
      · left; exact h2
      · right; exact ⟨by linarith, by linarith⟩
    · rw [abs_of_nonneg (by linarith : 0 ≤ y - v)]
      rcases h1.lt_or_eq with h2 | h2
      · left; linarith
      · right; exact ⟨by rw [h2], h2.ge⟩

/-- Beyond the largest label. -/
theorem near_above (L : List Rat) (a v : Rat) (ha : a ∈ L) (hav : a ≤ v) (hall : ∀ y ∈ L, y ≤ a) : Spec.Nearest L v a := by
  refine ⟨ha, fun y hy => ?_⟩
  have := hall y hy
  rw [abs_of_nonpos (by linarith : a - v ≤ 0), abs_of_nonpos (by linarith : y - v ≤ 0)]
  rcases this.lt_or_eq with h | h
  · left; linarith
  · right; exact ⟨by rw [h], this⟩

/-- Below the smallest label. -/
theorem near_below (L : List Rat) (a v : Rat) (ha : a ∈ L) (hav : v ≤ a) (hall : ∀ y ∈ L, a ≤ y) : Spec.Nearest L v a := by
  refine ⟨ha, fun y hy => ?_⟩
  have := hall y hy
  rw [abs_of_nonneg (by linarith : 0 ≤ a - v), abs_of_nonneg (by linarith : 0 ≤ y - v)]
  rcases this.lt_or_eq with h | h
  · left; linarith
  · right; exact ⟨by rw [h], h.ge⟩

theorem getD_mem (u : List Rat) (i : Nat) (h : i < u.length) : u.getD i 0 ∈ u := by
  rw [List.getD_eq_getElem?_getD, List.getElem?_eq_getElem h]
  exact List.getElem_mem h

theorem getD_get (u : List Rat) (i : Nat) (h : i < u.length) : u.getD i 0 = u[i] := by
  rw [List.getD_eq_getElem?_getD, List.getElem?_eq_getElem h]
  rfl

theorem inc_le (u : List Rat) (hu : u.Pairwise (· < ·)) (i j : Nat) (hij : i ≤ j) (hj : j < u.length) : u.getD i 0 ≤ u.getD j 0 := by
  rcases Nat.lt_or_eq_of_le hij with h | h
  · rw [getD_get u i (by omega), getD_get u j hj]
    exact (List.pairwise_iff_getElem.1 hu i j (by omega) hj h).le
  · rw [h]

theorem dec_le (u : List Rat) (hu : u.Pairwise (· > ·)) (i j : Nat) (hij : i ≤ j) (hj : j < u.length) : u.getD j 0 ≤ u.getD i 0 := by
  rcases Nat.lt_or_eq_of_le hij with h | h
  · rw [getD_get u i (by omega), getD_get u j hj]
    exact (List.pairwise_iff_getElem.1 hu i j (by omega) hj h).le
  · rw [h]

theorem mem_getD (u : List Rat) (y : Rat) (hy : y ∈ u) : ∃ j < u.length, y = u.getD j 0 := by
  obtain ⟨j, hj, rfl⟩ := List.getElem_of_mem hy
  exact ⟨j, hj, (getD_get u j hj).symm⟩

theorem pick_inc (u : List Rat) (hne : u ≠ []) (hu : u.Pairwise (· < ·)) (v : Rat) :
    pick u v (before (u.countP fun x => decide (x ≤ v))) (within (u.countP fun x => decide (x < v)) u.length) true < u.length ∧
    Spec.Nearest u v (u.getD (pick u v (before (u.countP fun x => decide (x ≤ v))) (within (u.countP fun x => decide (x < v)) u.length) true) 0) := by
  have hn : 0 < u.length := List.length_pos_of_ne_nil hne
  have h1 : ∀ i, i < u.length → (u.getD i 0 ≤ v ↔ i < u.countP fun x => decide (x ≤ v)) := by
    intro i hi
    rw [← countP_iff _ u (hu.imp fun {a b} hab h => by simp only [decide_eq_true_iff] at *; exact hab.le.trans h) i hi, getD_get u i hi]
    simp
  have h2 : ∀ i, i < u.length → (u.getD i 0 < v ↔ i < u.countP fun x => decide (x < v)) := by
    intro i hi
    rw [← countP_iff _ u (hu.imp fun {a b} hab h => by simp only [decide_eq_true_iff] at *; exact hab.trans h) i hi, getD_get u i hi]
    simp
  have c1 : (u.countP fun x => decide (x ≤ v)) ≤ u.length := List.countP_le_length
  have c2 : (u.countP fun x => decide (x < v)) ≤ u.length := List.countP_le_length
  generalize (u.countP fun x => decide (x ≤ v)) = A at *
  generalize (u.countP fun x => decide (x < v)) = B at *
  have hAB : B ≤ A := by
    by_contra h
    push Not at h
    have := (h2 A (by omega)).2 h
    have := (h1 A (by omega)).1 this.le
    omega
  unfold within
  split_ifs with hB
  · by_cases hA : A = 0
    · have hb : before A = none := by rw [before, if_pos hA]
      have hB0 : B = 0 := by omega
      have hp : pick u v (before A) (some B) true = 0 := by
        unfold pick
        rw [hb, hB0]
        simp only [Option.getD_none, Option.getD_some, Option.isNone_some, Bool.or_false]
        rw [if_neg]
        · simp only [if_true, decide_eq_true_iff, not_lt]
          have g0 : v < u.getD 0 0 := by
            by_contra h
            push Not at h
            have := (h1 0 hn).1 h
            omega
          have := inc_le u hu 0 (u.length - 1) (by omega) (by omega)
          rw [abs_of_nonneg (by linarith : 0 ≤ u.getD 0 0 - v), abs_of_nonneg (by linarith : 0 ≤ u.getD (u.length - 1) 0 - v)]
          linarith
      rw [hp]
      refine ⟨hn, near_below u _ v (getD_mem u 0 hn) ?_ fun y hy => ?_⟩
      · by_contra h
        push Not at h
        have := (h1 0 hn).1 h.le
        omega
      · obtain ⟨j, hj, rfl⟩ := mem_getD u y hy
        exact inc_le u hu 0 j (by omega) hj
    · have hb : before A = some (A - 1) := by rw [before, if_neg hA]
      have hl : u.getD (A - 1) 0 ≤ v := (h1 (A - 1) (by omega)).2 (by omega)
      have hr : v ≤ u.getD B 0 := by
        by_contra h
        push Not at h
        have := (h2 B hB).1 h
        omega
      have hcl := near_two u (u.getD (A - 1) 0) (u.getD B 0) v (getD_mem u _ (by omega)) (getD_mem u B hB) hl hr (by
        intro y hy
        obtain ⟨j, hj, rfl⟩ := mem_getD u y hy
        by_cases hjA : j < A
        · left; exact inc_le u hu j (A - 1) (by omega) (by omega)
        · right; exact inc_le u hu B j (by omega) hj)
      have hp : pick u v (before A) (some B) true = if |u.getD (A - 1) 0 - v| < |u.getD B 0 - v| then A - 1 else B := by
        unfold pick
        rw [hb]
        simp
      rw [hp]
      split_ifs with hc
      · rw [if_pos hc] at hcl
        exact ⟨by omega, hcl⟩
      · rw [if_neg hc] at hcl
        exact ⟨hB, hcl⟩
  · have hA : A = u.length := by omega
    have hb : before A = some (A - 1) := by rw [before, if_neg (by omega)]
    have hp : pick u v (before A) none true = u.length - 1 := by
      unfold pick
      rw [hb]
      simp [hA]
    rw [hp]
    refine ⟨by omega, near_above u _ v (getD_mem u _ (by omega)) ((h1 _ (by omega)).2 (by omega)) fun y hy => ?_⟩
    obtain ⟨j, hj, rfl⟩ := mem_getD u y hy
    exact inc_le u hu j _ (by omega) (by omega)

theorem pick_dec (u : List Rat) (hne : 2 ≤ u.length) (hu : u.Pairwise (· > ·)) (v : Rat) :
    pick u v (before (u.countP fun x => decide (v ≤ x))) (within (u.countP fun x => decide (v < x)) u.length) false < u.length ∧
    Spec.Nearest u v (u.getD (pick u v (before (u.countP fun x => decide (v ≤ x))) (within (u.countP fun x => decide (v < x)) u.length) false) 0) := by
  have hn : 0 < u.length := by omega
  have h1 : ∀ i, i < u.length → (v ≤ u.getD i 0 ↔ i < u.countP fun x => decide (v ≤ x)) := by
    intro i hi
    rw [← countP_iff _ u (hu.imp fun {a b} hab h => by simp only [decide_eq_true_iff] at *; exact h.trans (le_of_lt hab)) i hi, getD_get u i hi]
    simp
  have h2 : ∀ i, i < u.length → (v < u.getD i 0 ↔ i < u.countP fun x => decide (v < x)) := by
    intro i hi
    rw [← countP_iff _ u (hu.imp fun {a b} hab h => by simp only [decide_eq_true_iff] at *; exact h.trans hab) i hi, getD_get u i hi]
    simp
  have c1 : (u.countP fun x => decide (v ≤ x)) ≤ u.length := List.countP_le_length
  have c2 : (u.countP fun x => decide (v < x)) ≤ u.length := List.countP_le_length
  generalize (u.countP fun x => decide (v ≤ x)) = A at *
  generalize (u.countP fun x => decide (v < x)) = B at *
  have hAB : B ≤ A := by
    by_contra h
    push Not at h
    have := (h2 A (by omega)).2 h
    have := (h1 A (by omega)).1 this.le
    omega
  unfold within
  split_ifs with hB
  · by_cases hA : A = 0
    · have hb : before A = none := by rw [before, if_pos hA]
      have hB0 : B = 0 := by omega
      have g0 : u.getD 0 0 < v := by
        by_contra h
        push Not at h
        have := (h1 0 hn).1 h
        omega
      have hlast : u.getD (u.length - 1) 0 < u.getD 0 0 := by
        rw [getD_get u _ (by omega), getD_get u 0 hn]
        exact List.pairwise_iff_getElem.1 hu 0 (u.length - 1) hn (by omega) (by omega)
      have hp : pick u v (before A) (some B) false = 0 := by
        unfold pick
        rw [hb, hB0]
        simp only [Option.getD_none, Option.getD_some, Option.isNone_some, Bool.or_false]
        rw [if_neg]
        · simp only [Bool.false_eq_true, if_false, decide_eq_true_iff, not_le]
          rw [abs_of_nonpos (by linarith : u.getD 0 0 - v ≤ 0), abs_of_nonpos (by linarith : u.getD (u.length - 1) 0 - v ≤ 0)]
          linarith
      rw [hp]
      refine ⟨hn, near_above u _ v (getD_mem u 0 hn) g0.le fun y hy => ?_⟩
      obtain ⟨j, hj, rfl⟩ := mem_getD u y hy
      exact dec_le u hu 0 j (by omega) hj
    · have hb : before A = some (A - 1) := by rw [before, if_neg hA]
      have hl : v ≤ u.getD (A - 1) 0 := (h1 (A - 1) (by omega)).2 (by omega)
      have hr : u.getD B 0 ≤ v := by
        by_contra h
        push Not at h
        have := (h2 B hB).1 h
        omega
      have hcl := near_two u (u.getD B 0) (u.getD (A - 1) 0) v (getD_mem u B hB) (getD_mem u _ (by omega)) hr hl (by
        intro y hy
        obtain ⟨j, hj, rfl⟩ := mem_getD u y hy
        by_cases hjA : j < A
        · right; exact dec_le u hu j (A - 1) (by omega) (by omega)
        · left; exact dec_le u hu B j (by omega) hj)
      have hp : pick u v (before A) (some B) false = if |u.getD B 0 - v| < |u.getD (A - 1) 0 - v| then B else A - 1 := by
        unfold pick
        rw [hb]
        by_cases h : |u.getD B 0 - v| < |u.getD (A - 1) 0 - v|
        · rw [if_pos h]
          simp only [Option.getD_some, Option.isNone_some, Bool.or_false]
          rw [if_neg]
          simpa using h
        · rw [if_neg h]
          simp only [Option.getD_some, Option.isNone_some, Bool.or_false]
          rw [if_pos]
          simpa using h
      rw [hp]
      split_ifs with hc
      · rw [if_pos hc] at hcl
        exact ⟨hB, hcl⟩
      · rw [if_neg hc] at hcl
        exact ⟨by omega, hcl⟩
  · have hA : A = u.length := by omega
    have hb : before A = some (A - 1) := by rw [before, if_neg (by omega)]
    have hp : pick u v (before A) none false = u.length - 1 := by
      unfold pick
      rw [hb]
      simp [hA]
    rw [hp]
    refine ⟨by omega, near_below u _ v (getD_mem u _ (by omega)) ((h1 _ (by omega)).2 (by omega)) fun y hy => ?_⟩
    obtain ⟨j, hj, rfl⟩ := mem_getD u y hy
    exact dec_le u hu j _ (by omega) (by omega)

theorem nearest_unique (L : List Rat) (v x y : Rat) (hx : Spec.Nearest L v x) (hy : Spec.Nearest L v y) : x = y := by
  rcases hx.2 y hy.1 with h | ⟨h, h'⟩
  · rcases hy.2 x hx.1 with g | ⟨g, _⟩ <;> linarith
  · rcases hy.2 x hx.1 with g | ⟨_, g'⟩
    · linarith
    · exact le_antisymm g' h'

end Verif.Labels
