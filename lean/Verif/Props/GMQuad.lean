/-
C124: the n-dimensional integration.
-/
import Verif.Lemmas.GMRule
import Mathlib.Topology.Algebra.MvPolynomial

namespace Verif.GM

open MeasureTheory
open Verif.GK (Mem)

variable {n : ℕ}

/-- **C124.** Whatever its storage held before, `Integrate<n>` touches no memory outside of it and reads nothing it has not written; it cuts, again and again, the box with the largest error estimate into
halves, across the axis with the largest fourth difference, until the estimated error is within the tolerance and at least 1000 evaluations have been made, or the next cut would exceed ten million
evaluations, which it reports (`ifail` 1); it never runs out of storage (`ifail` 2).  It returns the sum of the rule over the boxes, the sum of the error estimates and the number of evaluations. -/
theorem C124_adaptive (hn : 1 ≤ n) (f : (Fin n → ℝ) → ℝ) (a b : Fin n → ℝ) (epsrel epsabs : ℝ) (h : Mem (Region n)) :
    ∃ (out : Out) (m : ℕ) (S : ℕ → Multiset (Box n)) (B : ℕ → Box n) (ax : ℕ → Fin n), integrate f a b epsrel epsabs h = some out ∧ S 0 = {(a, b)} ∧
      Run (fun B => (rule f B.mid B.half).1) (fun B => (rule f B.mid B.half).2.1) (fun B j => dif f B.mid B.half j) epsrel epsabs m S B ax ∧
      out.value = total (fun B => (rule f B.mid B.half).1) (S m) ∧ out.abserr = total (fun B => (rule f B.mid B.half).2.1) (S m) ∧ out.neval = calls n m ∧
      ((Converged (fun B => (rule f B.mid B.half).1) (fun B => (rule f B.mid B.half).2.1) epsrel epsabs (S m) ∧ 1000 ≤ calls n m ∧ out.ifail = 0) ∨
       (¬ (Converged (fun B => (rule f B.mid B.half).1) (fun B => (rule f B.mid B.half).2.1) epsrel epsabs (S m) ∧ 1000 ≤ calls n m) ∧ 10000000 < calls n (m + 1) ∧ out.ifail = 1)) :=
  integrate_spec hn f a b epsrel epsabs h

/-- The result does not depend on what the storage held, and the number of evaluations is never above ten million in up to fifteen dimensions. -/
theorem C124_evaluations (hn : 1 ≤ n) (hn' : n ≤ 15) (f : (Fin n → ℝ) → ℝ) (a b : Fin n → ℝ) (epsrel epsabs : ℝ) (h : Mem (Region n)) :
    ∃ out, integrate f a b epsrel epsabs h = some out ∧ perBox n ≤ out.neval ∧ out.neval ≤ 10000000 ∧ (out.ifail = 0 → 1000 ≤ out.neval) ∧ (out.ifail = 0 ∨ out.ifail = 1) := by
  obtain ⟨out, m, S, B, ax, h1, _, hR, _, _, h4, h5⟩ := integrate_spec hn f a b epsrel epsabs h
  refine ⟨out, h1, ?_, ?_, ?_, ?_⟩
  · rw [h4, calls]
    exact Nat.le_mul_of_pos_right _ (by omega)
  · rw [h4]
    rcases Nat.eq_zero_or_pos m with hm | hm
    · subst hm
      have : perBox n ≤ 10000000 := by
        rw [← perBox_eq]
        unfold rulcls
        interval_cases n <;> norm_num
      simpa [calls] using this
    · have := (hR.go (m - 1) (by omega)).2
      rwa [Nat.sub_add_cancel hm] at this
  · intro h6
    rcases h5 with ⟨_, h7, _⟩ | ⟨_, _, h8⟩
    · rw [h4]; exact h7
    · omega
  · rcases h5 with ⟨_, _, h8⟩ | ⟨_, _, h8⟩ <;> simp [h8]

/-- Polynomials of total degree up to 7 are integrated exactly over any box, whatever the tolerances; for a degree up to 5 the reported error is zero. -/
theorem C124_polynomials (hn : 1 ≤ n) (p : MvPolynomial (Fin n) ℝ) (hp : p.totalDegree ≤ 7) (a b : Fin n → ℝ) (hab : a ≤ b) (epsrel epsabs : ℝ) (h : Mem (Region n)) :
    ∃ out, integrate (fun x => MvPolynomial.eval x p) a b epsrel epsabs h = some out ∧ out.value = ∫ x in Set.Icc a b, MvPolynomial.eval x p ∧ (p.totalDegree ≤ 5 → out.abserr = 0) := by
  obtain ⟨out, m, S, B, ax, h1, h0, hR, h2, h3, _, _⟩ := integrate_spec hn (fun x => MvPolynomial.eval x p) a b epsrel epsabs h
  obtain ⟨t1, _, t3⟩ := run_total hR hab h0 m (le_refl _)
  refine ⟨out, h1, ?_, ?_⟩
  · rw [h2, ← t3 _ ((MvPolynomial.continuous_eval p).continuousOn.integrableOn_compact isCompact_Icc)]
    unfold total
    refine congrArg _ (Multiset.map_congr rfl fun C hC => ?_)
    exact boxVal_poly p hp C (t1 C hC).1
  · intro hp5
    rw [h3]
    unfold total
    refine Multiset.sum_eq_zero fun x hx => ?_
    obtain ⟨C, hC, rfl⟩ := Multiset.mem_map.1 hx
    exact boxErr_poly p hp5 C (t1 C hC).1

/-- A case: the product of the squares of the three coordinates over the unit cube. -/
example (h : Mem (Region 3)) : ∃ out, integrate (fun x => MvPolynomial.eval x (MvPolynomial.X 0 ^ 2 * MvPolynomial.X 1 ^ 2 * MvPolynomial.X 2 ^ 2 : MvPolynomial (Fin 3) ℝ)) 0 1 1e-4 0 h = some out ∧
    out.value = ∫ x in Set.Icc (0 : Fin 3 → ℝ) 1, MvPolynomial.eval x (MvPolynomial.X 0 ^ 2 * MvPolynomial.X 1 ^ 2 * MvPolynomial.X 2 ^ 2 : MvPolynomial (Fin 3) ℝ) := by
  obtain ⟨out, h1, h2, _⟩ := C124_polynomials (by norm_num) (MvPolynomial.X 0 ^ 2 * MvPolynomial.X 1 ^ 2 * MvPolynomial.X 2 ^ 2 : MvPolynomial (Fin 3) ℝ) (by
    have e : ∀ i : Fin 3, ((MvPolynomial.X i : MvPolynomial (Fin 3) ℝ) ^ 2).totalDegree ≤ 2 := fun i => by
      refine le_trans (MvPolynomial.totalDegree_pow _ _) ?_
      rw [MvPolynomial.totalDegree_X]
    have h1 := MvPolynomial.totalDegree_mul (MvPolynomial.X 0 ^ 2 * MvPolynomial.X 1 ^ 2 : MvPolynomial (Fin 3) ℝ) (MvPolynomial.X 2 ^ 2)
    have h2 := MvPolynomial.totalDegree_mul (MvPolynomial.X 0 ^ 2 : MvPolynomial (Fin 3) ℝ) (MvPolynomial.X 1 ^ 2)
    have := e 0
    have := e 1
    have := e 2
    omega) 0 1 (fun _ => by simp) 1e-4 0 h
  exact ⟨out, h1, h2⟩

/-- The value is the sum of the rule over boxes that make up the whole: where each estimate bounds the error of its box, the reported error bounds the error of the value, and if the program ended with
success (`ifail` 0) the value is within the tolerance. -/
theorem C124_accuracy (hn : 1 ≤ n) (f : (Fin n → ℝ) → ℝ) (a b : Fin n → ℝ) (hab : a ≤ b) (hf : IntegrableOn f (Set.Icc a b)) (epsrel epsabs : ℝ) (h : Mem (Region n)) :
    ∃ (out : Out) (S : Multiset (Box n)), integrate f a b epsrel epsabs h = some out ∧ (∀ C ∈ S, C.1 ≤ C.2 ∧ Set.Icc C.1 C.2 ⊆ Set.Icc a b) ∧
      (∀ g : (Fin n → ℝ) → ℝ, IntegrableOn g (Set.Icc a b) → total (fun C => ∫ x in Set.Icc C.1 C.2, g x) S = ∫ x in Set.Icc a b, g x) ∧ out.neval + perBox n = 2 * S.card * perBox n ∧
      ((∀ C ∈ S, |(rule f C.mid C.half).1 - ∫ x in Set.Icc C.1 C.2, f x| ≤ (rule f C.mid C.half).2.1) → |out.value - ∫ x in Set.Icc a b, f x| ≤ out.abserr ∧
        (out.ifail = 0 → |out.value - ∫ x in Set.Icc a b, f x| < epsrel * |out.value| ∨ |out.value - ∫ x in Set.Icc a b, f x| < epsabs)) := by
  obtain ⟨out, m, S, B, ax, h1, h0, hR, h2, h3, h4, h5⟩ := integrate_spec hn f a b epsrel epsabs h
  obtain ⟨t1, t2, t3⟩ := run_total hR hab h0 m (le_refl _)
  refine ⟨out, S m, h1, t1, t3, ?_, fun hb => ?_⟩
  · rw [h4, t2, calls]
    ring
  · have hsum : ∀ T : Multiset (Box n), (∀ C ∈ T, |(rule f C.mid C.half).1 - ∫ x in Set.Icc C.1 C.2, f x| ≤ (rule f C.mid C.half).2.1) →
        |total (boxVal f) T - total (fun C => ∫ x in Set.Icc C.1 C.2, f x) T| ≤ total (boxErr f) T := by
      intro T
      induction T using Multiset.induction with
      | empty => intro _; simp [total]
      | cons C T ih =>
        intro hT
        have i1 := ih fun D hD => hT D (Multiset.mem_cons_of_mem hD)
        have i2 := hT C (Multiset.mem_cons_self C T)
        simp only [total, Multiset.map_cons, Multiset.sum_cons] at i1 ⊢
        calc |boxVal f C + (T.map (boxVal f)).sum - ((∫ x in Set.Icc C.1 C.2, f x) + (T.map fun C => ∫ x in Set.Icc C.1 C.2, f x).sum)|
            = |(boxVal f C - ∫ x in Set.Icc C.1 C.2, f x) + ((T.map (boxVal f)).sum - (T.map fun C => ∫ x in Set.Icc C.1 C.2, f x).sum)| := by ring_nf
          _ ≤ |boxVal f C - ∫ x in Set.Icc C.1 C.2, f x| + |(T.map (boxVal f)).sum - (T.map fun C => ∫ x in Set.Icc C.1 C.2, f x).sum| := abs_add_le _ _
          _ ≤ _ := add_le_add i2 i1
    have hle := hsum (S m) hb
    rw [t3 f hf, ← h2, ← h3] at hle
    refine ⟨hle, fun h6 => ?_⟩
    rcases h5 with ⟨h7, _, _⟩ | ⟨_, _, h8⟩
    · unfold Converged at h7
      rw [← h2, ← h3] at h7
      rcases h7 with h7 | h7
      · exact Or.inl (lt_of_le_of_lt hle h7)
      · exact Or.inr (lt_of_le_of_lt hle h7)
    · omega

/-- An integral that vanishes never converges to a relative tolerance alone: with `epsabs` 0, as the integrals `Kmn` are called, ten million evaluations are made of a polynomial that was integrated
exactly by the first application of the rule. -/
theorem C124_zero_counterexample (hn : 1 ≤ n) (p : MvPolynomial (Fin n) ℝ) (hp : p.totalDegree ≤ 7) (a b : Fin n → ℝ) (hab : a ≤ b) (hz : ∫ x in Set.Icc a b, MvPolynomial.eval x p = 0)
    (epsrel : ℝ) (h : Mem (Region n)) :
    ∃ out, integrate (fun x => MvPolynomial.eval x p) a b epsrel 0 h = some out ∧ out.value = 0 ∧ out.ifail = 1 ∧ 10000000 < out.neval + 2 * perBox n := by
  obtain ⟨out, m, S, B, ax, h1, h0, hR, h2, h3, h4, h5⟩ := integrate_spec hn (fun x => MvPolynomial.eval x p) a b epsrel 0 h
  obtain ⟨out', h1', h2', _⟩ := C124_polynomials hn p hp a b hab epsrel 0 h
  rw [h1] at h1'
  obtain rfl := Option.some.inj h1'
  rw [hz] at h2'
  refine ⟨out, h1, h2', ?_⟩
  have hnn : 0 ≤ total (boxErr fun x => MvPolynomial.eval x p) (S m) := by
    unfold total
    refine Multiset.sum_nonneg ?_
    intro x hx
    obtain ⟨C, _, rfl⟩ := Multiset.mem_map.1 hx
    exact boxErr_nonneg _ C
  rcases h5 with ⟨h7, _, _⟩ | ⟨_, h7, h8⟩
  · exfalso
    unfold Converged at h7
    rw [← h2, h2', abs_zero, mul_zero] at h7
    rcases h7 with h7 | h7 <;> linarith
  · refine ⟨h8, ?_⟩
    have : calls n (m + 1) = calls n m + 2 * perBox n := by
      unfold calls
      ring
    rw [h4]
    omega

example : ∫ x in Set.Icc (0 : Fin 2 → ℝ) 1, MvPolynomial.eval x (0 : MvPolynomial (Fin 2) ℝ) = 0 := by simp

/-- With the limits in the other order the result is wrong: the integral of 1 from 1 to 0 comes out as -32507/39366, because the loop over the corners, which waits for a positive sign, ends after one of
them. -/
theorem C124_reversed_counterexample (epsrel epsabs : ℝ) (h : Mem (Region 1)) :
    ∃ out, integrate (fun _ => 1) (fun _ : Fin 1 => (1 : ℝ)) (fun _ => 0) epsrel epsabs h = some out ∧ out.value = -(32507 / 39366) := by
  obtain ⟨out, m, S, B, ax, h1, h0, hR, h2, _⟩ := integrate_spec (le_refl 1) (fun _ => 1) (fun _ : Fin 1 => (1 : ℝ)) (fun _ => 0) epsrel epsabs h
  refine ⟨out, h1, ?_⟩
  have hval : ∀ C : Box 1, C.2 0 < C.1 0 → boxVal (fun _ => 1) C = (C.2 0 - C.1 0) * (32507 / 39366) := by
    intro C hC
    have hl : 0 < lambda5 := Real.sqrt_pos.2 (by norm_num)
    have hw : C.half 0 < 0 := by
      unfold Box.half
      linarith
    have hc : sumCorners (fun _ => 1) C.mid C.half = 1 := by
      have : ¬ (lambda5 * C.half 0 > 0) := by
        have := mul_neg_of_pos_of_neg hl hw
        linarith
      simp [sumCorners, cornerLoop, flip, List.finRange_succ, this]
    have hp : sumPairs (n := 1) (fun _ => 1) C.mid C.half lambda4 = 0 := by
      unfold sumPairs
      simp
    have hr : C.half 0 = (C.2 0 - C.1 0) / 2 := rfl
    unfold boxVal rule
    simp only [hc, hp, sumAxes, wt1, wt2, wt3, wt5]
    simp only [Finset.univ_unique, Fin.default_eq_zero, Fin.isValue, Finset.prod_singleton, Finset.sum_singleton, hr]
    push_cast
    ring
  have hinv : ∀ k, k ≤ m → (∀ C ∈ S k, C.2 0 < C.1 0) ∧ total (fun C => C.2 0 - C.1 0) (S k) = -1 := by
    intro k
    induction k with
    | zero =>
      intro _
      rw [h0]
      refine ⟨fun C hC => ?_, by simp [total]⟩
      rw [Multiset.mem_singleton.1 hC]
      norm_num
    | succ k ih =>
      intro hk
      obtain ⟨i1, i2⟩ := ih (by omega)
      obtain ⟨⟨hm, _⟩, _, hc⟩ := hR.step k (by omega)
      have hlt := i1 _ hm
      have ha : ax k = 0 := Subsingleton.elim _ _
      rw [hc, ha]
      refine ⟨fun C hC => ?_, ?_⟩
      · unfold cut at hC
        rcases Multiset.mem_add.1 hC with hC | hC
        · exact i1 C (Multiset.mem_of_mem_erase hC)
        · rcases Multiset.mem_cons.1 hC with hC | hC
          · rw [hC]
            simp only [Box.lower, Function.update_self, Box.mid]
            linarith
          · rw [Multiset.mem_singleton.1 hC]
            simp only [Box.upper, Function.update_self, Box.mid]
            linarith
      · rw [total_cut _ hm, i2]
        simp only [Box.lower, Box.upper, Function.update_self]
        ring
  obtain ⟨i1, i2⟩ := hinv m (le_refl _)
  rw [h2]
  unfold total at i2 ⊢
  rw [Multiset.map_congr rfl fun C hC => hval C (i1 C hC), Multiset.sum_map_mul_right, i2]
  ring

/-- C124: the axis along which a region is divided.  For an integrand that is a polynomial of degree four along each axis through the centre, it is one with the largest quartic term across the region: lower
degrees, which the rule integrates exactly, play no part in the choice. -/
theorem C124_axis (hn : 1 ≤ n) (f : (Fin n → ℝ) → ℝ) (c w : Fin n → ℝ) (p0 p1 p2 p3 p4 : Fin n → ℝ)
    (hf : ∀ j t, f (Function.update c j (c j + t)) = p0 j + p1 j * t + p2 j * t ^ 2 + p3 j * t ^ 3 + p4 j * t ^ 4) :
    ∃ j, (region f c w).axis = some j ∧ ∀ i, |p4 i| * w i ^ 4 ≤ |p4 j| * w j ^ 4 := by
  have hd : ∀ j, dif f c w j = 243 / 1225 * (|p4 j| * w j ^ 4) := by
    intro j
    have h0 : f c = p0 j := by
      have := hf j 0
      simpa using this
    have h2 := lambda2_sq
    have h4 := lambda4_sq
    have hr : ratio = 1 / 7 := by rw [ratio, div_pow, h2, h4]; norm_num
    have e2 : lambda2 ^ 4 = (9 / 70) ^ 2 := by rw [← h2]; ring
    have e4 : lambda4 ^ 4 = (9 / 10) ^ 2 := by rw [← h4]; ring
    unfold dif shift
    simp only [hf j, h0, hr]
    have e : (p0 j + p1 j * -(lambda2 * w j) + p2 j * (-(lambda2 * w j)) ^ 2 + p3 j * (-(lambda2 * w j)) ^ 3 + p4 j * (-(lambda2 * w j)) ^ 4 +
          (p0 j + p1 j * (lambda2 * w j) + p2 j * (lambda2 * w j) ^ 2 + p3 j * (lambda2 * w j) ^ 3 + p4 j * (lambda2 * w j) ^ 4) - 2 * p0 j) -
        1 / 7 * (p0 j + p1 j * -(lambda4 * w j) + p2 j * (-(lambda4 * w j)) ^ 2 + p3 j * (-(lambda4 * w j)) ^ 3 + p4 j * (-(lambda4 * w j)) ^ 4 +
          (p0 j + p1 j * (lambda4 * w j) + p2 j * (lambda4 * w j) ^ 2 + p3 j * (lambda4 * w j) ^ 3 + p4 j * (lambda4 * w j) ^ 4) - 2 * p0 j) =
        2 * p2 j * w j ^ 2 * (lambda2 ^ 2 - 1 / 7 * lambda4 ^ 2) + 2 * (p4 j * w j ^ 4) * (lambda2 ^ 4 - 1 / 7 * lambda4 ^ 4) := by ring
    rw [e, h2, h4, e2, e4]
    have e' : 2 * p2 j * w j ^ 2 * (9 / 70 - 1 / 7 * (9 / 10)) + 2 * (p4 j * w j ^ 4) * ((9 / 70) ^ 2 - 1 / 7 * (9 / 10) ^ 2) = -(243 / 1225) * (p4 j * w j ^ 4) := by ring
    rw [e', abs_mul, abs_mul, abs_neg, abs_of_pos (by norm_num : (0 : ℝ) < 243 / 1225), abs_of_nonneg (by positivity : 0 ≤ w j ^ 4)]
  obtain ⟨j, e1, _, e3⟩ := axisLoop_spec f c w (List.finRange n) 0 none (fun _ => ⟨rfl, by
    have : List.finRange n ≠ [] := by
      intro h
      have := congrArg List.length h
      simp at this
      omega
    exact this⟩) (fun j h => by simp at h)
  refine ⟨j, e1, fun i => ?_⟩
  have := e3 i (List.mem_finRange i)
  rw [hd, hd] at this
  linarith

/-- The hypothesis of `C124_axis` for a polynomial of two variables: `x⁴ + 3 y⁴ + x y` at the origin is divided along the second axis if the widths are equal. -/
example (w : ℝ) (hw : 0 < w) : (region (n := 2) (fun x => x 0 ^ 4 + 3 * x 1 ^ 4 + x 0 * x 1) (fun _ => 0) (fun _ => w)).axis = some 1 := by
  obtain ⟨j, h1, h2⟩ := C124_axis (n := 2) (by norm_num) (fun x => x 0 ^ 4 + 3 * x 1 ^ 4 + x 0 * x 1) (fun _ => 0) (fun _ => w) (fun _ => 0) (fun _ => 0) (fun _ => 0) (fun _ => 0)
    (fun j => if j = 0 then 1 else 3) (fun j t => by fin_cases j <;> simp [Function.update])
  fin_cases j
  · have := h2 1
    have h3 : 0 < w ^ 4 := by positivity
    norm_num at this
    linarith
  · exact h1
end Verif.GM
