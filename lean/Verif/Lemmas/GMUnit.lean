/-
The rule of Genz and Malik on the cube [-1, 1]^n: its values on the monomials.
-/
import Verif.Model.GMQuad
import Mathlib.Algebra.BigOperators.Ring.Finset
import Mathlib.Data.Fintype.BigOperators
import Mathlib.Analysis.Real.Sqrt
import Mathlib.Tactic.Ring
import Mathlib.Tactic.FieldSimp
import Mathlib.Tactic.Linarith
import Mathlib.Tactic.IntervalCases

namespace Verif.GM

variable {n : ℕ}

noncomputable section

/-- The point with the coordinates `x` and `y` on two axes -/
def two (i k : Fin n) (x y : ℝ) : Fin n → ℝ := fun m => if m = i then x else if m = k then y else 0

/-- The symmetric sums -/
def axesU (F : (Fin n → ℝ) → ℝ) (l : ℝ) : ℝ := ∑ j : Fin n, (F (Pi.single j (-l)) + F (Pi.single j l))
def pairsU (F : (Fin n → ℝ) → ℝ) (l : ℝ) : ℝ :=
  ∑ i : Fin n, ∑ k ∈ Finset.univ.filter fun k : Fin n => i < k, (F (two i k (-l) (-l)) + F (two i k (-l) l) + (F (two i k l (-l)) + F (two i k l l)))
def cornersU (F : (Fin n → ℝ) → ℝ) (l : ℝ) : ℝ := ∑ e : Fin n → Bool, F fun j => if e j then l else -l

/-- The two rules -/
def Q7 (F : (Fin n → ℝ) → ℝ) : ℝ := wt1 n * F 0 + wt2 * axesU F lambda2 + wt3 n * axesU F lambda4 + wt4 * pairsU F lambda4 + wt5 n * cornersU F lambda5
def Q5 (F : (Fin n → ℝ) → ℝ) : ℝ := wtp1 n * F 0 + wtp2 * axesU F lambda2 + wtp3 n * axesU F lambda4 + wtp4 * pairsU F lambda4

/-- A monomial -/
def mon (t : Fin n → ℕ) (u : Fin n → ℝ) : ℝ := ∏ j, u j ^ t j

/-- The mean of a power over [-1, 1] -/
def mean (k : ℕ) : ℝ := if Even k then 1 / (k + 1) else 0

theorem mon_zero {t : Fin n → ℕ} {u : Fin n → ℝ} (j : Fin n) (ht : t j ≠ 0) (hu : u j = 0) : mon t u = 0 :=
  Finset.prod_eq_zero (Finset.mem_univ j) (by rw [hu, zero_pow ht])

theorem mon_even {t : Fin n → ℕ} {u : Fin n → ℝ} {l : ℝ} (he : ∀ j, Even (t j)) (hu : ∀ j, t j ≠ 0 → u j = l ∨ u j = -l) : mon t u = l ^ ∑ j, t j := by
  unfold mon
  rw [← Finset.prod_pow_eq_pow_sum]
  refine Finset.prod_congr rfl fun j _ => ?_
  by_cases h : t j = 0
  · simp [h]
  · rcases hu j h with h | h
    · rw [h]
    · rw [h, (he j).neg_pow]

theorem mon_odd {t : Fin n → ℕ} {u v : Fin n → ℝ} (p : Fin n) (hp : Odd (t p)) (h : ∀ j, j ≠ p → v j = u j) (hv : v p = -u p) : mon t v = -mon t u := by
  unfold mon
  rw [← Finset.mul_prod_erase _ _ (Finset.mem_univ p), ← Finset.mul_prod_erase _ (fun j => u j ^ t j) (Finset.mem_univ p), hv, hp.neg_pow, neg_mul]
  congr 2
  refine Finset.prod_congr rfl fun j hj => ?_
  rw [h j (Finset.mem_erase.1 hj).1]

theorem axesU_odd {t : Fin n → ℕ} {p : Fin n} (hp : Odd (t p)) (l : ℝ) : axesU (mon t) l = 0 := by
  refine Finset.sum_eq_zero fun j _ => ?_
  have h0 : t p ≠ 0 := hp.pos.ne'
  by_cases hj : p = j
  · subst hj
    rw [mon_odd (u := Pi.single p l) p hp (fun j hj => by simp [hj]) (by simp)]
    ring
  · rw [mon_zero p h0 (by simp [hj]), mon_zero p h0 (by simp [hj])]
    ring

theorem pairsU_odd {t : Fin n → ℕ} {p : Fin n} (hp : Odd (t p)) (l : ℝ) : pairsU (mon t) l = 0 := by
  refine Finset.sum_eq_zero fun i _ => Finset.sum_eq_zero fun k hk => ?_
  have hik : i ≠ k := (Finset.mem_filter.1 hk).2.ne
  have h0 : t p ≠ 0 := hp.pos.ne'
  by_cases hi : p = i
  · subst hi
    rw [mon_odd (v := two p k (-l) (-l)) (u := two p k l (-l)) p hp (fun j hj => by simp [two, hj]) (by simp [two]), mon_odd (v := two p k (-l) l) (u := two p k l l) p hp (fun j hj => by simp [two, hj]) (by simp [two])]
    ring
  · by_cases hk : p = k
    · subst hk
      rw [mon_odd (v := two i p (-l) (-l)) (u := two i p (-l) l) p hp (fun j hj => by simp [two, hj]) (by simp [two, hi]),
        mon_odd (v := two i p l (-l)) (u := two i p l l) p hp (fun j hj => by simp [two, hj]) (by simp [two, hi])]
      ring
    · have : ∀ x y, mon t (two i k x y) = 0 := fun x y => mon_zero p h0 (by simp [two, hi, hk])
      simp [this]

theorem cornersU_odd {t : Fin n → ℕ} {p : Fin n} (hp : Odd (t p)) (l : ℝ) : cornersU (mon t) l = 0 := by
  unfold cornersU mon
  have h := Finset.prod_univ_sum (fun _ : Fin n => (Finset.univ : Finset Bool)) (fun (j : Fin n) (b : Bool) => (if b then l else -l) ^ t j)
  rw [Fintype.piFinset_univ] at h
  rw [← h]
  refine Finset.prod_eq_zero (Finset.mem_univ p) ?_
  simp [hp.neg_pow]

theorem cornersU_even {t : Fin n → ℕ} (he : ∀ j, Even (t j)) (l : ℝ) : cornersU (mon t) l = 2 ^ n * l ^ ∑ j, t j := by
  unfold cornersU
  rw [Finset.sum_congr rfl fun e _ => mon_even he (u := fun j => if e j then l else -l) (l := l) (fun j _ => by by_cases h : e j = true <;> simp [h])]
  simp

/-- Sums over pairs -/
theorem sum_pairs (G : Fin n → Fin n → ℝ) (hG : ∀ i k, G i k = G k i) : ∑ i, ∑ k ∈ Finset.univ.filter fun k : Fin n => i < k, G i k = ((∑ i, ∑ k, G i k) - ∑ i, G i i) / 2 := by
  have h1 : ∀ i k, G i k = (if i < k then G i k else 0) + (if k < i then G k i else 0) + (if i = k then G i i else 0) := by
    intro i k
    rcases lt_trichotomy i k with h | h | h
    · simp [h, h.ne, h.not_gt]
    · subst h
      simp
    · simp [h, h.ne', h.not_gt, hG i k]
  have h2 : ∑ i, ∑ k, G i k = (∑ i, ∑ k, if i < k then G i k else 0) + (∑ i, ∑ k, if k < i then G k i else 0) + ∑ i, G i i := by
    rw [Finset.sum_congr rfl fun i _ => Finset.sum_congr rfl fun k _ => h1 i k]
    simp only [Finset.sum_add_distrib]
    simp
  have h3 : (∑ i, ∑ k, if k < i then G k i else 0) = ∑ i, ∑ k, if i < k then G i k else 0 := Finset.sum_comm
  simp only [Finset.sum_filter]
  rw [h3] at h2
  linarith

/-- The sums of a monomial of even degrees -/
theorem axesU_even0 {t : Fin n → ℕ} (h : ∀ j, t j = 0) (l : ℝ) : axesU (mon t) l = 2 * n := by
  have : ∀ u, mon t u = 1 := fun u => by simp [mon, h]
  simp only [axesU, this]
  simp
  ring

theorem axesU_even1 {t : Fin n → ℕ} {p : Fin n} (he : ∀ j, Even (t j)) (hp : t p ≠ 0) (h : ∀ j, j ≠ p → t j = 0) (l : ℝ) : axesU (mon t) l = 2 * l ^ ∑ j, t j := by
  unfold axesU
  rw [Finset.sum_eq_single p]
  · rw [mon_even (l := l) he (fun j hj => by have : j = p := by_contra fun h' => hj (h j h')
                                             simp [this]), mon_even (l := l) he (fun j hj => by have : j = p := by_contra fun h' => hj (h j h')
                                                                                                simp [this])]
    ring
  · intro j _ hj
    rw [mon_zero p hp (by simp [hj.symm]), mon_zero p hp (by simp [hj.symm])]
    ring
  · intro h
    exact absurd (Finset.mem_univ p) h

theorem axesU_even2 {t : Fin n → ℕ} {p q : Fin n} (hpq : p ≠ q) (hp : t p ≠ 0) (hq : t q ≠ 0) (l : ℝ) : axesU (mon t) l = 0 := by
  refine Finset.sum_eq_zero fun j _ => ?_
  by_cases hj : p = j
  · subst hj
    rw [mon_zero q hq (by simp [hpq.symm]), mon_zero q hq (by simp [hpq.symm])]
    ring
  · rw [mon_zero p hp (by simp [hj]), mon_zero p hp (by simp [hj])]
    ring

theorem pairsU_eq {t : Fin n → ℕ} (he : ∀ j, Even (t j)) (l : ℝ) :
    pairsU (mon t) l = ∑ i : Fin n, ∑ k ∈ Finset.univ.filter fun k : Fin n => i < k, if ∀ j, t j ≠ 0 → j = i ∨ j = k then 4 * l ^ ∑ j, t j else 0 := by
  refine Finset.sum_congr rfl fun i _ => Finset.sum_congr rfl fun k _ => ?_
  split_ifs with h
  · have : ∀ x y, (x = l ∨ x = -l) → (y = l ∨ y = -l) → mon t (two i k x y) = l ^ ∑ j, t j := fun x y hx hy => mon_even he (by
      intro j hj
      unfold two
      by_cases h1 : j = i
      · simpa [h1] using hx
      · have h2 : j = k := (h j hj).resolve_left h1
        rw [if_neg h1, if_pos h2]
        exact hy)
    rw [this _ _ (Or.inr rfl) (Or.inr rfl), this _ _ (Or.inr rfl) (Or.inl rfl), this _ _ (Or.inl rfl) (Or.inr rfl), this _ _ (Or.inl rfl) (Or.inl rfl)]
    ring
  · push Not at h
    obtain ⟨j, hj, h1, h2⟩ := h
    have : ∀ x y, mon t (two i k x y) = 0 := fun x y => mon_zero j hj (by simp [two, h1, h2])
    simp [this]

theorem pairsU_even0 {t : Fin n → ℕ} (h : ∀ j, t j = 0) (l : ℝ) : pairsU (mon t) l = 2 * n * (n - 1) := by
  rw [pairsU_eq (fun j => by simp [h j]), sum_pairs _ (fun i k => by simp [h])]
  simp [h]
  ring

theorem pairsU_even1 {t : Fin n → ℕ} {p : Fin n} (he : ∀ j, Even (t j)) (hp : t p ≠ 0) (h : ∀ j, j ≠ p → t j = 0) (l : ℝ) : pairsU (mon t) l = 4 * (n - 1) * l ^ ∑ j, t j := by
  have hiff : ∀ i k, (∀ j, t j ≠ 0 → j = i ∨ j = k) ↔ (i = p ∨ k = p) := by
    intro i k
    constructor
    · intro h'
      exact (h' p hp).imp Eq.symm Eq.symm
    · intro h' j hj
      have : j = p := by_contra fun h'' => hj (h j h'')
      rw [this]
      exact h'.imp Eq.symm Eq.symm
  rw [pairsU_eq he]
  simp only [hiff]
  rw [sum_pairs _ (fun i k => by simp only [or_comm])]
  have e : ∀ (i k : Fin n) (x : ℝ), (if i = p ∨ k = p then x else 0) = (if i = p then x else 0) + (if k = p then x else 0) - (if i = p then (if k = p then x else 0) else 0) := by
    intro i k x
    by_cases h1 : i = p <;> by_cases h2 : k = p <;> simp [h1, h2]
  simp only [e, Finset.sum_add_distrib, Finset.sum_sub_distrib]
  simp
  ring

theorem pairsU_even2 {t : Fin n → ℕ} {p q : Fin n} (he : ∀ j, Even (t j)) (hpq : p ≠ q) (hp : t p ≠ 0) (hq : t q ≠ 0) (h : ∀ j, j ≠ p → j ≠ q → t j = 0) (l : ℝ) :
    pairsU (mon t) l = 4 * l ^ ∑ j, t j := by
  have hiff : ∀ i k, (∀ j, t j ≠ 0 → j = i ∨ j = k) ↔ ((i = p ∧ k = q) ∨ (i = q ∧ k = p)) := by
    intro i k
    constructor
    · intro h'
      rcases h' p hp with h1 | h1 <;> rcases h' q hq with h2 | h2
      · exact absurd (h1.trans h2.symm) hpq
      · exact Or.inl ⟨h1.symm, h2.symm⟩
      · exact Or.inr ⟨h2.symm, h1.symm⟩
      · exact absurd (h1.trans h2.symm) hpq
    · intro h' j hj
      have : j = p ∨ j = q := by
        by_contra h''
        push Not at h''
        exact hj (h j h''.1 h''.2)
      rcases this with rfl | rfl <;> rcases h' with ⟨h1, h2⟩ | ⟨h1, h2⟩ <;> simp [h1, h2]
  rw [pairsU_eq he]
  simp only [hiff]
  rw [sum_pairs _ (fun i k => by
    congr 1
    simp only [eq_iff_iff]
    tauto)]
  have e : ∀ (i k : Fin n) (x : ℝ), (if (i = p ∧ k = q) ∨ (i = q ∧ k = p) then x else 0) = (if i = p then (if k = q then x else 0) else 0) + (if i = q then (if k = p then x else 0) else 0) := by
    intro i k x
    by_cases h1 : i = p
    · have : i ≠ q := by rw [h1]; exact hpq
      simp [h1, hpq]
    · simp [h1, ite_and]
  have e0 : ∀ i : Fin n, ¬ ((i = p ∧ i = q) ∨ (i = q ∧ i = p)) := by
    rintro i (⟨h1, h2⟩ | ⟨h1, h2⟩)
    · exact hpq (h1.symm.trans h2)
    · exact hpq (h2.symm.trans h1)
  simp only [e0, if_false, e, Finset.sum_add_distrib]
  simp

theorem pairsU_even3 {t : Fin n → ℕ} {p q r : Fin n} (hpq : p ≠ q) (hpr : p ≠ r) (hqr : q ≠ r) (hp : t p ≠ 0) (hq : t q ≠ 0) (hr : t r ≠ 0) (l : ℝ) : pairsU (mon t) l = 0 := by
  refine Finset.sum_eq_zero fun i _ => Finset.sum_eq_zero fun k _ => ?_
  have : ∃ j, t j ≠ 0 ∧ j ≠ i ∧ j ≠ k := by
    by_contra hc
    push Not at hc
    have h1 := hc p hp
    have h2 := hc q hq
    have h3 := hc r hr
    by_cases a : p = i
    · have b : q ≠ i := fun h => hpq (a.trans h.symm)
      have c : r ≠ i := fun h => hpr (a.trans h.symm)
      exact hqr ((h2 b).trans (h3 c).symm)
    · by_cases b : q = i
      · have c : r ≠ i := fun h => hqr (b.trans h.symm)
        exact hpr ((h1 a).trans (h3 c).symm)
      · exact hpq ((h1 a).trans (h2 b).symm)
  obtain ⟨j, hj, h1, h2⟩ := this
  have : ∀ x y, mon t (two i k x y) = 0 := fun x y => mon_zero j hj (by simp [two, h1, h2])
  simp [this]

theorem lambda2_sq : lambda2 ^ 2 = 9 / 70 := Real.sq_sqrt (by norm_num)
theorem lambda4_sq : lambda4 ^ 2 = 9 / 10 := Real.sq_sqrt (by norm_num)
theorem lambda5_sq : lambda5 ^ 2 = 9 / 19 := Real.sq_sqrt (by norm_num)

/-- The support of a monomial of even degrees with few variables -/
theorem support_cases (t : Fin n → ℕ) (he : ∀ j, Even (t j)) (hd : ∑ j, t j ≤ 7) :
    (∀ j, t j = 0) ∨
    (∃ p, t p ≠ 0 ∧ (∀ j, j ≠ p → t j = 0) ∧ ∑ j, t j = t p ∧ ∏ j, mean (t j) = mean (t p)) ∨
    (∃ p q, p ≠ q ∧ t p ≠ 0 ∧ t q ≠ 0 ∧ (∀ j, j ≠ p → j ≠ q → t j = 0) ∧ ∑ j, t j = t p + t q ∧ ∏ j, mean (t j) = mean (t p) * mean (t q)) ∨
    (∃ p q r, p ≠ q ∧ p ≠ r ∧ q ≠ r ∧ t p ≠ 0 ∧ t q ≠ 0 ∧ t r ≠ 0 ∧ ∑ j, t j = t p + (t q + t r) ∧ ∏ j, mean (t j) = mean (t p) * (mean (t q) * mean (t r))) := by
  obtain ⟨S, hS⟩ : ∃ S, S = Finset.univ.filter fun j => t j ≠ 0 := ⟨_, rfl⟩
  have hmem : ∀ j, j ∈ S ↔ t j ≠ 0 := fun j => by simp [hS]
  have m0 : mean 0 = 1 := by simp [mean]
  have hsum : ∑ j, t j = ∑ j ∈ S, t j := (Finset.sum_subset (Finset.subset_univ S) (fun j _ hj => by
    by_contra h
    exact hj ((hmem j).2 h))).symm
  have hprod : ∏ j, mean (t j) = ∏ j ∈ S, mean (t j) := (Finset.prod_subset (Finset.subset_univ S) (fun j _ hj => by
    have : t j = 0 := by
      by_contra h
      exact hj ((hmem j).2 h)
    rw [this, m0])).symm
  have hcard : S.card ≤ 3 := by
    have : S.card * 2 ≤ ∑ j ∈ S, t j := by
      rw [← smul_eq_mul]
      refine Finset.card_nsmul_le_sum S t 2 fun j hj => ?_
      have h1 := (hmem j).1 hj
      obtain ⟨k, hk⟩ := he j
      omega
    omega
  have hout : ∀ j, j ∉ S → t j = 0 := fun j hj => by
    by_contra h
    exact hj ((hmem j).2 h)
  interval_cases hc : S.card
  · left
    rw [Finset.card_eq_zero] at hc
    intro j
    exact hout j (by simp [hc])
  · right; left
    obtain ⟨p, hp⟩ := Finset.card_eq_one.1 hc
    exact ⟨p, (hmem p).1 (by simp [hp]), fun j hj => hout j (by simpa [hp] using hj), by simp [hsum, hp], by simp [hprod, hp]⟩
  · right; right; left
    obtain ⟨p, q, hpq, hp⟩ := Finset.card_eq_two.1 hc
    exact ⟨p, q, hpq, (hmem p).1 (by simp [hp]), (hmem q).1 (by simp [hp]), fun j h1 h2 => hout j (by simp [hp, h1, h2]), by rw [hsum, hp, Finset.sum_pair hpq], by rw [hprod, hp, Finset.prod_pair hpq]⟩
  · right; right; right
    obtain ⟨p, q, r, hpq, hpr, hqr, hp⟩ := Finset.card_eq_three.1 hc
    refine ⟨p, q, r, hpq, hpr, hqr, (hmem p).1 (by simp [hp]), (hmem q).1 (by simp [hp]), (hmem r).1 (by simp [hp]), ?_, ?_⟩
    · rw [hsum, hp, Finset.sum_insert (by simp [hpq, hpr]), Finset.sum_pair hqr]
    · rw [hprod, hp, Finset.prod_insert (by simp [hpq, hpr]), Finset.prod_pair hqr]

theorem mean_two : mean 2 = 1 / 3 := by norm_num [mean]
theorem mean_four : mean 4 = 1 / 5 := by rw [mean, if_pos (by decide)]; norm_num
theorem mean_six : mean 6 = 1 / 7 := by rw [mean, if_pos (by decide)]; norm_num

theorem even_le {k : ℕ} (he : Even k) (h0 : k ≠ 0) (h : k ≤ 7) : k = 2 ∨ k = 4 ∨ k = 6 := by
  obtain ⟨m, hm⟩ := he
  omega

/-- The rule of degree 7 integrates the monomials up to degree 7 -/
theorem Q7_mon (t : Fin n → ℕ) (hd : ∑ j, t j ≤ 7) : Q7 (mon t) = ∏ j, mean (t j) := by
  by_cases he : ∀ j, Even (t j)
  · have h2 := lambda2_sq
    have h4 := lambda4_sq
    have h5 := lambda5_sq
    have h24 : lambda2 ^ 4 = (9 / 70) ^ 2 := by rw [← h2]; ring
    have h44 : lambda4 ^ 4 = (9 / 10) ^ 2 := by rw [← h4]; ring
    have h54 : lambda5 ^ 4 = (9 / 19) ^ 2 := by rw [← h5]; ring
    have h26 : lambda2 ^ 6 = (9 / 70) ^ 3 := by rw [← h2]; ring
    have h46 : lambda4 ^ 6 = (9 / 10) ^ 3 := by rw [← h4]; ring
    have h56 : lambda5 ^ 6 = (9 / 19) ^ 3 := by rw [← h5]; ring
    have hw5 : wt5 n * 2 ^ n = 6859 / 19683 := by
      unfold wt5
      field_simp
    have hw5' : ∀ x : ℝ, wt5 n * (2 ^ n * x) = 6859 / 19683 * x := fun x => by rw [← mul_assoc, hw5]
    unfold Q7
    rw [cornersU_even he, hw5']
    rcases support_cases t he hd with h | ⟨p, hp, h, hs, hm⟩ | ⟨p, q, hpq, hp, hq, h, hs, hm⟩ | ⟨p, q, r, hpq, hpr, hqr, hp, hq, hr, hs, hm⟩
    · rw [axesU_even0 h, axesU_even0 h, pairsU_even0 h]
      have : mon t 0 = 1 := by simp [mon, h]
      rw [this]
      simp only [h, Finset.sum_const_zero, pow_zero, wt1, wt2, wt3, wt4]
      simp [mean]
      ring
    · rw [axesU_even1 he hp h, axesU_even1 he hp h, pairsU_even1 he hp h, mon_zero p hp rfl, hm, hs]
      rw [hs] at hd
      rcases even_le (he p) hp hd with e | e | e
      · rw [e, mean_two, h2, h4, h5]
        simp only [wt2, wt3, wt4]
        ring
      · rw [e, mean_four, h24, h44, h54]
        simp only [wt2, wt3, wt4]
        ring
      · rw [e, mean_six, h26, h46, h56]
        simp only [wt2, wt3, wt4]
        ring
    · rw [axesU_even2 hpq hp hq, axesU_even2 hpq hp hq, pairsU_even2 he hpq hp hq h, mon_zero p hp rfl, hm, hs]
      rw [hs] at hd
      rcases even_le (he p) hp (by omega) with e | e | e <;> rcases even_le (he q) hq (by omega) with e' | e' | e' <;> rw [e, e'] at hd ⊢
      · rw [mean_two, h44, h54]
        simp only [wt4]
        ring
      · rw [mean_two, mean_four, h46, h56]
        simp only [wt4]
        ring
      · omega
      · rw [mean_two, mean_four, h46, h56]
        simp only [wt4]
        ring
      all_goals omega
    · rw [axesU_even2 hpq hp hq, axesU_even2 hpq hp hq, pairsU_even3 hpq hpr hqr hp hq hr, mon_zero p hp rfl, hm, hs]
      rw [hs] at hd
      have e1 : t p = 2 := by rcases even_le (he p) hp (by omega) with e | e | e <;> rcases even_le (he q) hq (by omega) with e' | e' | e' <;> rcases even_le (he r) hr (by omega) with e'' | e'' | e'' <;> omega
      have e2 : t q = 2 := by rcases even_le (he p) hp (by omega) with e | e | e <;> rcases even_le (he q) hq (by omega) with e' | e' | e' <;> rcases even_le (he r) hr (by omega) with e'' | e'' | e'' <;> omega
      have e3 : t r = 2 := by rcases even_le (he p) hp (by omega) with e | e | e <;> rcases even_le (he q) hq (by omega) with e' | e' | e' <;> rcases even_le (he r) hr (by omega) with e'' | e'' | e'' <;> omega
      rw [e1, e2, e3, mean_two, h56]
      ring
  · push Not at he
    obtain ⟨p, hp⟩ := he
    have hp' : Odd (t p) := by simpa using hp
    unfold Q7
    rw [axesU_odd hp', axesU_odd hp', pairsU_odd hp', cornersU_odd hp', mon_zero p hp'.pos.ne' rfl]
    rw [Finset.prod_eq_zero (Finset.mem_univ p) (by rw [mean, if_neg hp])]
    ring

/-- The comparison rule integrates the monomials up to degree 5 -/
theorem Q5_mon (t : Fin n → ℕ) (hd : ∑ j, t j ≤ 5) : Q5 (mon t) = ∏ j, mean (t j) := by
  by_cases he : ∀ j, Even (t j)
  · have h2 := lambda2_sq
    have h4 := lambda4_sq
    have h24 : lambda2 ^ 4 = (9 / 70) ^ 2 := by rw [← h2]; ring
    have h44 : lambda4 ^ 4 = (9 / 10) ^ 2 := by rw [← h4]; ring
    unfold Q5
    rcases support_cases t he (by omega) with h | ⟨p, hp, h, hs, hm⟩ | ⟨p, q, hpq, hp, hq, h, hs, hm⟩ | ⟨p, q, r, hpq, hpr, hqr, hp, hq, hr, hs, hm⟩
    · rw [axesU_even0 h, axesU_even0 h, pairsU_even0 h]
      have : mon t 0 = 1 := by simp [mon, h]
      rw [this]
      simp only [h, wtp1, wtp2, wtp3, wtp4]
      simp [mean]
      ring
    · rw [axesU_even1 he hp h, axesU_even1 he hp h, pairsU_even1 he hp h, mon_zero p hp rfl, hm, hs]
      rw [hs] at hd
      rcases even_le (he p) hp (by omega) with e | e | e
      · rw [e, mean_two, h2, h4]
        simp only [wtp2, wtp3, wtp4]
        ring
      · rw [e, mean_four, h24, h44]
        simp only [wtp2, wtp3, wtp4]
        ring
      · omega
    · rw [axesU_even2 hpq hp hq, axesU_even2 hpq hp hq, pairsU_even2 he hpq hp hq h, mon_zero p hp rfl, hm, hs]
      rw [hs] at hd
      rcases even_le (he p) hp (by omega) with e | e | e <;> rcases even_le (he q) hq (by omega) with e' | e' | e' <;> rw [e, e'] at hd ⊢
      · rw [mean_two, h44]
        simp only [wtp4]
        ring
      all_goals omega
    · exfalso
      rcases even_le (he p) hp (by omega) with e | e | e <;> rcases even_le (he q) hq (by omega) with e' | e' | e' <;> rcases even_le (he r) hr (by omega) with e'' | e'' | e'' <;> omega
  · push Not at he
    obtain ⟨p, hp⟩ := he
    have hp' : Odd (t p) := by simpa using hp
    unfold Q5
    rw [axesU_odd hp', axesU_odd hp', pairsU_odd hp', mon_zero p hp'.pos.ne' rfl]
    rw [Finset.prod_eq_zero (Finset.mem_univ p) (by rw [mean, if_neg hp])]
    ring

end

end Verif.GM
