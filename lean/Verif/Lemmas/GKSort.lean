/-
The workspace of the adaptive quadrature keeps its list of intervals in order: lemmas about the two loops of `Sort`.
-/
import Verif.Model.GKQuad
import Mathlib.Data.List.Nodup
import Mathlib.Data.List.Perm.Basic
import Mathlib.Data.Finset.Card
import Mathlib.Data.List.Dedup
import Mathlib.Tactic.Linarith
import Mathlib.Tactic.Ring

namespace Verif.GK

/-- The array holds the list from position `s` on -/
def Holds (o : Mem ℕ) (s : ℕ) (l : List ℕ) : Prop := ∀ i, i < l.length → o (s + i) = l[i]?

theorem Holds.nil (o : Mem ℕ) (s : ℕ) : Holds o s [] := fun i h => absurd h (by simp)

theorem Holds.head {o : Mem ℕ} {s x : ℕ} {l : List ℕ} (h : Holds o s (x :: l)) : o s = some x := by
  simpa using h 0 (by simp)

theorem Holds.tail {o : Mem ℕ} {s x : ℕ} {l : List ℕ} (h : Holds o s (x :: l)) : Holds o (s + 1) l := by
  intro i hi
  have := h (i + 1) (by simpa using hi)
  rw [show s + (i + 1) = s + 1 + i by omega] at this
  simpa using this

theorem Holds.cons {o : Mem ℕ} {s x : ℕ} {l : List ℕ} (hx : o s = some x) (h : Holds o (s + 1) l) : Holds o s (x :: l) := by
  intro i hi
  rcases i with _ | i
  · simpa using hx
  · have := h i (by simpa using hi)
    rw [show s + (i + 1) = s + 1 + i by omega]
    simpa using this

theorem Holds.append {o : Mem ℕ} {s : ℕ} {l m : List ℕ} (h : Holds o s l) (h' : Holds o (s + l.length) m) : Holds o s (l ++ m) := by
  induction l generalizing s with
  | nil => simpa using h'
  | cons x l ih =>
    refine Holds.cons h.head (ih h.tail ?_)
    simpa [add_comm, add_left_comm, add_assoc] using h'

theorem Holds.left {o : Mem ℕ} {s : ℕ} {l m : List ℕ} (h : Holds o s (l ++ m)) : Holds o s l := by
  intro i hi
  rw [h i (by simp; omega), List.getElem?_append_left hi]

theorem Holds.right {o : Mem ℕ} {s : ℕ} {l m : List ℕ} (h : Holds o s (l ++ m)) : Holds o (s + l.length) m := by
  intro i hi
  have := h (l.length + i) (by simp; omega)
  rw [show s + l.length + i = s + (l.length + i) by omega, this, List.getElem?_append_right (by omega)]
  simp

theorem Holds.congr {o o' : Mem ℕ} {s : ℕ} {l : List ℕ} (h : Holds o s l) (ho : ∀ i, s ≤ i → i < s + l.length → o' i = o i) : Holds o' s l := by
  intro i hi
  rw [ho _ (by omega) (by omega), h i hi]

theorem wr_eq {α : Type} {limit : ℕ} {m : Mem α} {i : ℕ} {v : α} (h : i < limit) : wr limit m i v = some (Function.update m i (some v)) := by
  simp [wr, h]

theorem sortDown_spec (limit : ℕ) (elist : Mem ℝ) (e : ℕ → ℝ) (errmax : ℝ) (top : ℕ) (B : List ℕ) :
    ∀ (fuel j : ℕ) (o : Mem ℕ), (∀ x ∈ B, elist x = some (e x)) → Holds o j B → 1 ≤ j → j + B.length = top → top ≤ limit → B.length ≤ fuel →
      ∃ (A B' : List ℕ) (o' : Mem ℕ), B = A ++ B' ∧ sortDown limit elist errmax top fuel j o = some (j + A.length, o') ∧ (∀ x ∈ A, errmax < e x) ∧
        (∀ x, B'.head? = some x → e x ≤ errmax) ∧ (∀ i, i < j - 1 → o' i = o i) ∧ Holds o' (j - 1) A ∧ Holds o' (j + A.length) B' := by
  induction B with
  | nil =>
    intro fuel j o _ _ h1 ht _ _
    refine ⟨[], [], o, rfl, ?_, by simp, by simp, fun _ _ => rfl, Holds.nil _ _, Holds.nil _ _⟩
    rcases fuel with _ | fuel
    · simp [sortDown]
    · have : ¬ j < top := by simp at ht; omega
      simp [sortDown, this]
  | cons x B ih =>
    intro fuel j o he ho h1 ht htl hf
    rcases fuel with _ | fuel
    · simp at hf
    have hj : j < top := by simp at ht; omega
    have hx : o j = some x := ho.head
    have hex : elist x = some (e x) := he x (by simp)
    by_cases hlt : errmax < e x
    · have hw : wr limit o (j - 1) x = some (Function.update o (j - 1) (some x)) := wr_eq (by omega)
      have hh : Holds (Function.update o (j - 1) (some x)) (j + 1) B := by
        refine ho.tail.congr ?_
        intro i hi _
        rw [Function.update_of_ne (by omega)]
      obtain ⟨A, B', o', hB, hs, hA, hB', hpre, hoA, hoB⟩ := ih fuel (j + 1) (Function.update o (j - 1) (some x)) (fun y hy => he y (by simp [hy])) hh (by omega)
        (by simp at ht; omega) htl (by simpa using hf)
      refine ⟨x :: A, B', o', by simp [hB], ?_, ?_, hB', ?_, ?_, ?_⟩
      · simp only [sortDown, hj, if_true, hx, hex, Option.bind_some, hlt, hw, hs]
        simp [add_comm, add_left_comm]
      · intro y hy
        rcases List.mem_cons.1 hy with rfl | hy
        · exact hlt
        · exact hA y hy
      · intro i hi
        rw [hpre i (by omega), Function.update_of_ne (by omega)]
      · refine Holds.cons ?_ ?_
        · rw [hpre (j - 1) (by omega), Function.update_self]
        · rw [show j - 1 + 1 = j + 1 - 1 by omega]
          exact hoA
      · simpa [add_comm, add_left_comm, add_assoc] using hoB
    · refine ⟨[], x :: B, o, rfl, ?_, by simp, ?_, fun _ _ => rfl, Holds.nil _ _, by simpa using ho⟩
      · simp [sortDown, hj, hx, hex, hlt]
      · intro y hy
        simp at hy
        subst hy
        exact not_lt.1 hlt

theorem sortUp_spec (limit : ℕ) (elist : Mem ℝ) (e : ℕ → ℝ) (errmin : ℝ) (j : ℕ) (P : List ℕ) (hP : P.length = j - 1) (Q : List ℕ) :
    ∀ (D : List ℕ) (fuel : ℕ) (o : Mem ℕ), (∀ x ∈ Q, elist x = some (e x)) → Holds o 0 (P ++ Q) → Holds o (P.length + Q.length + 1) D → P.length + Q.length < limit → Q.length ≤ fuel →
      ∃ (Q1 Q2 : List ℕ) (o' : Mem ℕ), Q = Q1 ++ Q2 ∧ sortUp limit elist errmin j fuel (P.length + Q.length) o = some (P.length + Q1.length, o') ∧ (∀ x ∈ Q2, e x ≤ errmin) ∧
        (∀ x, Q1.getLast? = some x → errmin < e x) ∧ Holds o' 0 (P ++ Q1) ∧ Holds o' (P.length + Q1.length + 1) (Q2 ++ D) := by
  induction Q using List.reverseRecOn with
  | nil =>
    intro D fuel o _ ho hD _ _
    refine ⟨[], [], o, rfl, ?_, by simp, by simp, ho, by simpa using hD⟩
    rcases fuel with _ | fuel
    · simp [sortUp]
    · simp [sortUp, hP]
  | append_singleton Q x ih =>
    intro D fuel o he ho hD hl hf
    rcases fuel with _ | fuel
    · simp at hf
    have hlen : P.length + (Q ++ [x]).length = P.length + Q.length + 1 := by simp; omega
    have hx : o (P.length + Q.length) = some x := by
      rw [← List.append_assoc] at ho
      simpa using ho.right.head
    have hex : elist x = some (e x) := he x (by simp)
    have hlt : j - 1 < P.length + Q.length + 1 := by omega
    rw [hlen] at hD hl ⊢
    by_cases hle : e x ≤ errmin
    · have hw : wr limit o (P.length + Q.length + 1) x = some (Function.update o (P.length + Q.length + 1) (some x)) := wr_eq hl
      obtain ⟨Q1, Q2, o', hQ, hs, hQ2, hQ1, h1, h2⟩ := ih (x :: D) fuel (Function.update o (P.length + Q.length + 1) (some x)) (fun y hy => he y (by simp [hy]))
        (by
          rw [← List.append_assoc] at ho
          refine ho.left.congr ?_
          intro i _ hi
          rw [Function.update_of_ne]
          simp at hi
          omega)
        (by
          refine Holds.cons (Function.update_self _ _ _) (hD.congr ?_)
          intro i hi _
          rw [Function.update_of_ne (by omega)])
        (by omega) (by simp at hf; omega)
      refine ⟨Q1, Q2 ++ [x], o', by simp [hQ], ?_, ?_, hQ1, h1, by simpa using h2⟩
      · simp only [sortUp, hlt, if_true, Nat.add_sub_cancel, hx, hex, Option.bind_some, hle, hw, hs]
      · intro y hy
        rcases List.mem_append.1 hy with hy | hy
        · exact hQ2 y hy
        · simp at hy
          subst hy
          exact hle
    · refine ⟨Q ++ [x], [], o, by simp, ?_, by simp, ?_, ho, ?_⟩
      · simp only [sortUp, hlt, if_true, Nat.add_sub_cancel, hx, hex, Option.bind_some, hle, if_false, hlen]
      · intro y hy
        simp at hy
        subst hy
        exact not_le.1 hle
      · rw [hlen]
        simpa using hD

/-- A list of intervals in descending order of error that no other interval exceeds -/
structure Good (e : ℕ → ℝ) (size : ℕ) (l : List ℕ) : Prop where
  sorted : l.Pairwise fun x y => e y ≤ e x
  dom : ∀ y, y < size → y ∉ l → ∀ x ∈ l, e y ≤ e x

theorem Good.take {e : ℕ → ℝ} {size : ℕ} {l : List ℕ} (h : Good e size l) (n : ℕ) : Good e size (l.take n) := by
  refine ⟨h.sorted.sublist (List.take_sublist _ _), ?_⟩
  intro y hy hn x hx
  by_cases hyl : y ∈ l
  · have h2 := h.sorted
    rw [← List.take_append_drop n l, List.pairwise_append] at h2
    rw [← List.take_append_drop n l] at hyl
    rcases List.mem_append.1 hyl with h3 | h3
    · exact absurd h3 hn
    · exact h2.2.2 x hx y h3
  · exact h.dom y hy hyl x (List.mem_of_mem_take hx)

/-- The two insertions of `Sort`, as lists -/
theorem insert_sorted (e : ℕ → ℝ) (x0 last : ℕ) (A B' Q1 Q2 : List ℕ) (hsort : (A ++ B').Pairwise fun x y => e y ≤ e x) (hA : ∀ x ∈ A, e x0 < e x)
    (hB : ∀ x, B'.head? = some x → e x ≤ e x0) (hmin : e last ≤ e x0) (hQ : x0 :: B' = Q1 ++ Q2) (hQ2 : ∀ x ∈ Q2, e x ≤ e last)
    (hQ1 : ∀ x, Q1.getLast? = some x → e last < e x) : (A ++ Q1 ++ last :: Q2).Pairwise fun x y => e y ≤ e x := by
  rw [List.pairwise_append] at hsort
  obtain ⟨sA, sB, sAB⟩ := hsort
  have hB2 : ∀ x ∈ B', e x ≤ e x0 := by
    intro x hx
    rcases B' with _ | ⟨b, B'⟩
    · simp at hx
    · have hb := hB b rfl
      rcases List.mem_cons.1 hx with rfl | hx
      · exact hb
      · exact le_trans ((List.pairwise_cons.1 sB).1 x hx) hb
  have s1 : (x0 :: B').Pairwise fun x y => e y ≤ e x := List.pairwise_cons.2 ⟨hB2, sB⟩
  have hAx : ∀ a ∈ A, ∀ y ∈ x0 :: B', e y ≤ e a := by
    intro a ha y hy
    rcases List.mem_cons.1 hy with rfl | hy
    · exact (hA a ha).le
    · exact sAB a ha y hy
  rw [hQ] at s1 hAx
  rw [List.pairwise_append] at s1
  obtain ⟨t1, t2, t12⟩ := s1
  have hl1 : ∀ x ∈ Q1, e last ≤ e x := by
    intro x hx
    rcases List.eq_nil_or_concat Q1 with rfl | ⟨R, z, rfl⟩
    · simp at hx
    · have hz := hQ1 z (by simp)
      simp only [List.concat_eq_append] at hx t1
      rcases List.mem_append.1 hx with h | h
      · exact le_trans hz.le ((List.pairwise_append.1 t1).2.2 x h z (by simp))
      · simp at h
        subst h
        exact hz.le
  rw [List.append_assoc, List.pairwise_append]
  refine ⟨sA, ?_, ?_⟩
  · rw [List.pairwise_append]
    refine ⟨t1, List.pairwise_cons.2 ⟨hQ2, t2⟩, ?_⟩
    intro x hx y hy
    rcases List.mem_cons.1 hy with rfl | hy
    · exact hl1 x hx
    · exact t12 x hx y hy
  · intro a ha y hy
    rcases List.mem_append.1 hy with h | h
    · exact hAx a ha y (by simp [h])
    · rcases List.mem_cons.1 h with rfl | h
      · exact le_trans hmin (hA a ha).le
      · exact hAx a ha y (by simp [h])

/-- What is kept in order after a bisection: all but the last two of the sorted list of the candidates -/
theorem insert_good (e e' : ℕ → ℝ) (size : ℕ) (x0 : ℕ) (xs l2 T R : List ℕ) (hg : Good e size (x0 :: xs)) (he : ∀ y, y < size → y ≠ x0 → e' y = e y)
    (hsz : ∀ x ∈ x0 :: xs, x < size) (hnd : (x0 :: xs).Nodup) (hp : l2.Perm (size :: x0 :: xs)) (hs : l2.Pairwise fun x y => e' y ≤ e' x)
    (hTR : l2 = T ++ R) (hR : R.length = 2 ∨ (R = [] ∧ ∀ y, y < size → y ∈ x0 :: xs)) : Good e' (size + 1) T := by
  have hnd2 : l2.Nodup := hp.nodup_iff.2 (List.nodup_cons.2 ⟨fun h => by have := hsz _ h; omega, hnd⟩)
  have hs' := hs
  rw [hTR, List.pairwise_append] at hs'
  obtain ⟨sT, sR, sTR⟩ := hs'
  refine ⟨sT, ?_⟩
  intro y hy hyT x hx
  by_cases hyR : y ∈ R
  · exact sTR x hx y hyR
  have hyl : y ∉ l2 := by rw [hTR]; simp [hyT, hyR]
  have hy3 : y ∉ size :: x0 :: xs := fun h => hyl (hp.mem_iff.2 h)
  simp only [List.mem_cons, not_or] at hy3
  have hy4 : y < size := by omega
  rcases hR with hR | ⟨_, hR⟩
  swap
  · exact absurd (hR y hy4) (by simp [hy3.2.1, hy3.2.2])
  have hdom : ∀ z ∈ xs, e' y ≤ e' z := by
    intro z hz
    have hz0 : z ≠ x0 := by
      rintro rfl
      exact (List.nodup_cons.1 hnd).1 hz
    rw [he y hy4 hy3.2.1, he z (hsz z (by simp [hz])) hz0]
    exact hg.dom y hy4 (by simp [hy3.2.1, hy3.2.2]) z (by simp [hz])
  have hmem : ∀ z ∈ l2, z = size ∨ z = x0 ∨ z ∈ xs := by
    intro z hz
    simpa using hp.mem_iff.1 hz
  have hxl : x ∈ l2 := by rw [hTR]; simp [hx]
  obtain ⟨r1, r2, hr⟩ : ∃ r1 r2, R = [r1, r2] := by
    rcases R with _ | ⟨r1, _ | ⟨r2, _ | ⟨r3, R⟩⟩⟩ <;> simp at hR
    exact ⟨r1, r2, rfl⟩
  rw [hTR, hr] at hnd2
  have h1 := hmem r1 (by rw [hTR, hr]; simp)
  have h2 := hmem r2 (by rw [hTR, hr]; simp)
  have h3 := hmem x hxl
  rw [List.nodup_append] at hnd2
  obtain ⟨_, n1, n2⟩ := hnd2
  have n12 : r1 ≠ r2 := by
    simp at n1
    exact n1
  have nx1 : x ≠ r1 := n2 x hx r1 (by simp)
  have nx2 : x ≠ r2 := n2 x hx r2 (by simp)
  by_cases m3 : x ∈ xs
  · exact hdom x m3
  by_cases m1 : r1 ∈ xs
  · exact le_trans (hdom r1 m1) (sTR x hx r1 (by simp [hr]))
  by_cases m2 : r2 ∈ xs
  · exact le_trans (hdom r2 m2) (sTR x hx r2 (by simp [hr]))
  exfalso
  rcases h1 with h1 | h1 | h1
  all_goals first | exact m1 h1 | skip
  all_goals rcases h2 with h2 | h2 | h2
  all_goals first | exact m2 h2 | skip
  all_goals rcases h3 with h3 | h3 | h3
  all_goals first | exact m3 h3 | (subst_vars; simp_all)

/-- How many entries `Sort` goes through (`Quadrature.cpp:94`) -/
def tp (limit last : ℕ) : ℕ := if last < limit / 2 + 2 then last else limit - last + 1

/-- How many of the entries are in the right order -/
def kept (limit size : ℕ) : ℕ := if size - 1 < limit / 2 + 2 then size else limit - (size - 1)

/-- The state of the array `order` -/
def OrdInv (limit size : ℕ) (e : ℕ → ℝ) (o : Mem ℕ) : Prop :=
  ∃ l, Holds o 0 l ∧ l.Nodup ∧ (∀ x ∈ l, x < size) ∧ l.length = tp limit (size - 1) + 1 ∧ Good e size (l.take (kept limit size))

theorem nodup_all {n : ℕ} {l : List ℕ} (hnd : l.Nodup) (hlt : ∀ x ∈ l, x < n) (hlen : l.length = n) : ∀ y, y < n → y ∈ l := by
  intro y hy
  have h1 : l.toFinset ⊆ Finset.range n := by
    intro x hx
    simpa using hlt x (by simpa using hx)
  have h2 : l.toFinset.card = n := by rw [List.toFinset_card_of_nodup hnd, hlen]
  have h3 := Finset.eq_of_subset_of_card_le h1 (by simp [h2])
  have : y ∈ l.toFinset := by rw [h3]; simpa using hy
  simpa using this

theorem OrdInv.first {limit size : ℕ} {e : ℕ → ℝ} {o : Mem ℕ} (h : OrdInv limit size e o) (h1 : 1 ≤ size) (h2 : size ≤ limit) :
    ∃ x0, o 0 = some x0 ∧ x0 < size ∧ ∀ y, y < size → e y ≤ e x0 := by
  obtain ⟨l, ho, hnd, hlt, hlen, hg⟩ := h
  rcases l with _ | ⟨x0, xs⟩
  · simp at hlen
  refine ⟨x0, ho.head, hlt x0 (by simp), ?_⟩
  intro y hy
  have hk : 1 ≤ kept limit size := by
    unfold kept
    split <;> omega
  have hg1 := hg.take 1
  rw [List.take_take, min_eq_left hk] at hg1
  by_cases hyx : y = x0
  · rw [hyx]
  · exact hg1.dom y hy (by simpa using hyx) x0 (by simp)

theorem sort_spec (w : WS) (n : ℕ) (e e' : ℕ → ℝ) (x0 : ℕ) (hw : w.size = n + 1) (hn : 1 ≤ n) (hl : n + 1 ≤ w.limit) (hord : OrdInv w.limit n e w.order) (hx0 : w.order 0 = some x0)
    (hel : ∀ i, i < n + 1 → w.elist i = some (e' i)) (hee : ∀ y, y < n → y ≠ x0 → e' y = e y) (hmin : e' n ≤ e' x0) :
    ∃ o, w.sort = some { w with order := o } ∧ OrdInv w.limit (n + 1) e' o := by
  obtain ⟨l, ho, hnd, hlt, hlen, hg⟩ := hord
  rcases l with _ | ⟨z, ys⟩
  · simp at hlen
  have hz : z = x0 := by
    have := ho.head
    rw [hx0] at this
    exact (Option.some.inj this).symm
  subst hz
  rcases Nat.lt_or_ge n 2 with hn2 | hn2
  · have h1 : n = 1 := by omega
    subst h1
    have hz0 : z = 0 := by have := hlt z (by simp); omega
    subst hz0
    refine ⟨Function.update (Function.update w.order 0 (some 0)) 1 (some 1), ?_, [0, 1], ?_, by simp, by simp, ?_, ?_⟩
    · unfold WS.sort
      simp only [hw]
      rw [if_pos (by norm_num), wr_eq (by omega)]
      simp only [Option.bind_some]
      rw [wr_eq (by omega)]
      simp
    · refine Holds.cons ?_ (Holds.cons ?_ (Holds.nil _ _))
      · simp [Function.update]
      · simp
    · simp [tp]
    · refine Good.take ⟨?_, ?_⟩ _
      · simpa using hmin
      · intro y hy hy2
        simp at hy2
        omega
  -- the general case
  obtain ⟨top, htop⟩ : ∃ t, t = tp w.limit n := ⟨_, rfl⟩
  have ht2 : 2 ≤ top := by rw [htop]; unfold tp; split <;> omega
  have htn : top ≤ n := by rw [htop]; unfold tp; split <;> omega
  have htk : top ≤ kept w.limit n := by
    rw [htop]; unfold tp kept
    split <;> split <;> omega
  have htl : top ≤ tp w.limit (n - 1) + 1 := by
    rw [htop]; unfold tp
    split <;> split <;> omega
  obtain ⟨xs, hxs⟩ : ∃ xs, xs = ys.take (top - 1) := ⟨_, rfl⟩
  have hpre : (z :: ys).take top = z :: xs := by
    rw [hxs]
    obtain ⟨t, rfl⟩ : ∃ t, top = t + 1 := ⟨top - 1, by omega⟩
    simp
  have hxl : xs.length = top - 1 := by
    rw [hxs, List.length_take]
    simp at hlen
    omega
  have hg2 : Good e n (z :: xs) := by
    have := hg.take top
    rwa [List.take_take, min_eq_left htk, hpre] at this
  have hsub : (z :: xs).Sublist (z :: ys) := by rw [← hpre]; exact List.take_sublist _ _
  have hnd2 : (z :: xs).Nodup := hnd.sublist hsub
  have hlt2 : ∀ x ∈ z :: xs, x < n := fun x hx => hlt x (hsub.subset hx)
  have ho2 : Holds w.order 0 (z :: xs) := by
    have h3 : Holds w.order 0 ((z :: ys).take top ++ (z :: ys).drop top) := by rw [List.take_append_drop]; exact ho
    rw [← hpre]
    exact h3.left
  obtain ⟨A, B', o1, hAB, hs1, hA, hB, _, hoA, hoB⟩ := sortDown_spec w.limit w.elist e' (e' z) top xs top 1 w.order
    (fun x hx => hel x (by have := hlt2 x (by simp [hx]); omega)) ho2.tail (le_refl _) (by omega) (by omega) (by omega)
  obtain ⟨o2, ho2'⟩ : ∃ o2, o2 = Function.update o1 A.length (some z) := ⟨_, rfl⟩
  have hAl : A.length ≤ top - 1 := by rw [← hxl, hAB]; simp
  have hw1 : wr w.limit o1 (1 + A.length - 1) z = some o2 := by
    rw [show 1 + A.length - 1 = A.length by omega, wr_eq (by omega), ho2']
  have hh : Holds o2 0 (A ++ (z :: B')) := by
    rw [ho2']
    refine Holds.append (hoA.congr ?_) (Holds.cons ?_ (Holds.congr (by simpa [add_comm] using hoB) ?_))
    · intro i _ hi
      rw [Function.update_of_ne (by omega)]
    · simp
    · intro i hi _
      rw [Function.update_of_ne (by omega)]
  have hsz : A.length + (z :: B').length = top := by
    have := congrArg List.length hAB
    simp at this ⊢
    omega
  obtain ⟨Q1, Q2, o3, hQ, hs2, hQ2, hQ1, h31, h32⟩ := sortUp_spec w.limit w.elist e' (e' n) (1 + A.length) A (by omega) (z :: B') [] top o2
    (fun x hx => hel x (by
      have : x ∈ z :: xs := by
        rcases List.mem_cons.1 hx with h | h
        · simp [h]
        · simp [hAB, h]
      have := hlt2 x this
      omega)) hh (Holds.nil _ _) (by omega) (by omega)
  rw [hsz] at hs2
  have hQ1l : A.length + Q1.length ≤ top := by
    have := congrArg List.length hQ
    rw [List.length_append] at this
    omega
  refine ⟨Function.update o3 (A.length + Q1.length) (some n), ?_, A ++ Q1 ++ n :: Q2, ?_, ?_, ?_, ?_, ?_⟩
  · unfold WS.sort
    simp only [hw, Nat.add_sub_cancel]
    rw [if_neg (by omega)]
    simp only [hx0, Option.bind_some, hel z (by have := hlt2 z (by simp); omega)]
    have htt : (if n < w.limit / 2 + 2 then n else w.limit - n + 1) = top := by rw [htop]; rfl
    rw [htt, hs1]
    simp only [Option.bind_some, hw1, hel n (by omega), hs2]
    rw [wr_eq (by omega)]
    simp
  · refine Holds.append (h31.congr ?_) (Holds.cons ?_ (Holds.congr (by simpa using h32) ?_))
    · intro i _ hi
      rw [Function.update_of_ne]
      simp at hi
      omega
    · simp
    · intro i hi _
      rw [Function.update_of_ne]
      simp at hi
      omega
  all_goals
    have hperm : (A ++ Q1 ++ n :: Q2).Perm (n :: z :: xs) := by
      have h1 : (A ++ Q1 ++ n :: Q2).Perm (n :: (A ++ Q1 ++ Q2)) := List.perm_middle
      have h2 : (A ++ Q1 ++ Q2).Perm (z :: xs) := by
        rw [List.append_assoc, ← hQ, hAB]
        exact List.perm_middle
      exact h1.trans (List.Perm.cons n h2)
  · exact hperm.nodup_iff.2 (List.nodup_cons.2 ⟨fun h => by have := hlt2 _ h; omega, hnd2⟩)
  · intro x hx
    rcases List.mem_cons.1 (hperm.mem_iff.1 hx) with h | h
    · omega
    · have := hlt2 x h
      omega
  · have := hperm.length_eq
    rw [this]
    simp only [List.length_cons, hxl, Nat.add_sub_cancel]
    omega
  · have hlen2 : (A ++ Q1 ++ n :: Q2).length = top + 1 := by
      rw [hperm.length_eq]
      simp only [List.length_cons, hxl]
      omega
    have hsorted : (A ++ Q1 ++ n :: Q2).Pairwise fun x y => e' y ≤ e' x := by
      refine insert_sorted e' z n A B' Q1 Q2 ?_ hA hB hmin hQ hQ2 hQ1
      rw [← hAB]
      refine (List.pairwise_cons.1 hg2.sorted).2.imp_of_mem ?_
      intro x y hx hy hxy
      have nz : ∀ t ∈ xs, t ≠ z := fun t ht h => (List.nodup_cons.1 hnd2).1 (h ▸ ht)
      rw [hee x (hlt2 x (by simp [hx])) (nz x hx), hee y (hlt2 y (by simp [hy])) (nz y hy)]
      exact hxy
    refine insert_good e e' n z xs _ _ ((A ++ Q1 ++ n :: Q2).drop (kept w.limit (n + 1))) hg2 hee hlt2 hnd2 hperm hsorted (List.take_append_drop _ _).symm ?_
    by_cases hf : n < w.limit / 2 + 2
    · right
      have hk : kept w.limit (n + 1) = n + 1 := by simp [kept, hf]
      have htn' : top = n := by rw [htop]; simp [tp, hf]
      refine ⟨?_, nodup_all hnd2 hlt2 ?_⟩
      · rw [hk]
        exact List.drop_eq_nil_of_le (by omega)
      · simp only [List.length_cons, hxl]
        omega
    · left
      have hk : kept w.limit (n + 1) = w.limit - n := by simp [kept, hf]
      have htn' : top = w.limit - n + 1 := by rw [htop]; simp [tp, hf]
      rw [List.length_drop, hlen2, hk]
      omega

end Verif.GK
