/-
Arithmetic and sums for C131.
-/
import Verif.Model.GaussCov
import Verif.Spec.GaussCov
import Mathlib.Algebra.BigOperators.Intervals
import Mathlib.Data.List.GetD
import Mathlib.Tactic.Positivity
import Mathlib.Algebra.Polynomial.Sequence
import Mathlib.LinearAlgebra.Lagrange
import Mathlib.MeasureTheory.Integral.IntervalIntegral.Basic
import Mathlib.Topology.UniformSpace.HeineCantor
import Mathlib.Algebra.Order.BigOperators.Ring.Finset

namespace Verif.GaussCov

open Verif.Priors Verif.Priors.Flt Verif.Legendre Spec

noncomputable section

theorem total_fin (l : List ℝ) : total (l.map fin) = fin l.sum := by
  have : ∀ (l : List ℝ) (c : ℝ), (l.map fin).foldl add (fin c) = fin (c + l.sum) := by
    intro l
    induction l with
    | nil => intro c; simp
    | cons a l ih => intro c; rw [List.map_cons, List.foldl_cons, add, ih, List.sum_cons, add_assoc]
  rw [total, this, zero_add]

theorem total_range (n : ℕ) (f : ℕ → ℝ) : total ((List.range n).map fun s => fin (f s)) = fin (∑ s ∈ Finset.range n, f s) := by
  rw [show (fun s => fin (f s)) = fin ∘ f from rfl, ← List.map_map, total_fin, Finset.sum_range]
  congr 1
  rw [← List.sum_ofFn, List.ofFn_eq_map, List.finRange_eq_pmap_range]
  simp [List.map_pmap, List.pmap_eq_map]

theorem nanmean_range (n : ℕ) (f : ℕ → ℝ) : nanmean ((List.range (n + 1)).map fun s => fin (f s)) = fin ((∑ s ∈ Finset.range (n + 1), f s) / (n + 1)) := by
  unfold nanmean
  have e : ((List.range (n + 1)).map fun s => fin (f s)).filter (fun x => !isNan x) = (List.range (n + 1)).map fun s => fin (f s) := by
    rw [List.filter_eq_self]
    intro x hx
    obtain ⟨s, _, rfl⟩ := List.mem_map.1 hx
    rfl
  simp only [e]
  rw [if_neg (by simp)]
  rw [total_range]
  simp only [List.length_map, List.length_range, div]
  rw [if_neg (by positivity)]
  push_cast
  rfl

theorem div_fin (a b : ℝ) (hb : b ≠ 0) : div (fin a) (fin b) = fin (a / b) := by
  show (if b = 0 then infinity a else fin (a / b)) = _
  rw [if_neg hb]

theorem meanStep_eq (ks : List ℝ) (h : 2 ≤ ks.length) : meanStep ks = (ks.getD (ks.length - 1) 0 - ks.getD 0 0) / (ks.length - 1 : ℕ) := by
  unfold meanStep
  congr 1
  have key : ∀ (l : List ℝ) (a : ℝ), (List.zipWith (fun b a => b - a) l (a :: l)).sum = (a :: l).getD l.length 0 - a := by
    intro l
    induction l with
    | nil => intro a; simp
    | cons b l ih =>
      intro a
      rw [List.zipWith_cons_cons, List.sum_cons, ih b]
      simp
  cases ks with
  | nil => simp at h
  | cons a l => simpa using key l a

theorem linspace_unit (n m : ℕ) : linspace 0 1 n m = m / n := by
  unfold linspace
  rw [zero_add, sub_zero]
  ring

/-- The entries of an assembled matrix with finite values. -/
theorem assemble_entry (big : ℝ) (ks : List ℝ) (ells : List ℕ) (Nmu : ℕ) (N : ℕ → Flt) (x : ℕ → ℕ → ℕ → ℕ → Flt) (i j a b : ℕ) (ha : a < ks.length) (hb : b < ks.length)
    (Nr : ℝ) (hN : N b = fin Nr) (hN0 : Nr ≠ 0) (y : ℕ → ℝ) (hy : a = b → ∀ m, x (min i j) (max i j) a m = fin (y m)) :
    (assemble big ks ells Nmu N x).entry (i * ks.length + a) (j * ks.length + b) =
      if a = b then 2 / Nr * ((∑ m ∈ Finset.range (Nmu + 1), y m) / (Nmu + 1)) else 0 := by
  have e1 : ∀ i a, a < ks.length → (i * ks.length + a) / ks.length = i := by
    intro i a h
    rw [mul_comm, Nat.mul_add_div (by omega), Nat.div_eq_of_lt h, add_zero]
  have e2 : ∀ i a, a < ks.length → (i * ks.length + a) % ks.length = a := by
    intro i a h
    rw [mul_comm, Nat.mul_add_mod, Nat.mod_eq_of_lt h]
  simp only [assemble, e1 i a ha, e1 j b hb, e2 i a ha, e2 j b hb]
  split_ifs with hab
  · rw [show x (min i j) (max i j) a = fun m => fin (y m) from funext (hy hab), nanmean_range, mul, hN, div_fin _ _ hN0, nanToNum]
    ring
  · rw [mul, hN, div_fin _ _ hN0, nanToNum]
    simp

theorem coords (ks : List ℝ) (ells : List ℕ) (i a : ℕ) (hi : i < ells.length) (ha : a < ks.length) :
    (List.replicate ells.length ks).flatten.getD (i * ks.length + a) 0 = ks.getD a 0 ∧
    (ells.flatMap fun l => List.replicate ks.length l).getD (i * ks.length + a) 0 = ells.getD i 0 := by
  induction ells generalizing i with
  | nil => simp at hi
  | cons l ells ih =>
    rw [List.length_cons, List.replicate_succ, List.flatten_cons, List.flatMap_cons]
    cases i with
    | zero =>
      rw [zero_mul, zero_add, List.getD_append _ _ _ _ ha, List.getD_append _ _ _ _ (by simpa using ha)]
      refine ⟨rfl, ?_⟩
      rw [List.getD_eq_getElem _ _ (by simpa using ha)]
      simp
    | succ i =>
      have e : (i + 1) * ks.length + a - ks.length = i * ks.length + a := by rw [add_mul, one_mul]; omega
      rw [List.getD_append_right _ _ _ _ (by rw [add_mul]; omega), List.getD_append_right _ _ _ _ (by rw [List.length_replicate, add_mul]; omega), List.length_replicate, e]
      exact ih i (by simpa using hi)

/-- Legendre polynomials as polynomials. -/
def legPoly : ℕ → Polynomial ℝ
  | 0 => 1
  | 1 => Polynomial.X
  | n + 2 => Polynomial.C ((2 * n + 3) / (n + 2) : ℝ) * (Polynomial.X * legPoly (n + 1)) - Polynomial.C ((n + 1) / (n + 2) : ℝ) * legPoly n

theorem legPoly_eval (n : ℕ) (x : ℝ) : (legPoly n).eval x = leg n x := by
  have : ∀ n, (legPoly n).eval x = leg n x ∧ (legPoly (n + 1)).eval x = leg (n + 1) x := by
    intro n
    induction n with
    | zero => simp [legPoly, leg]
    | succ n ih =>
      refine ⟨ih.2, ?_⟩
      rw [legPoly, leg]
      simp only [Polynomial.eval_sub, Polynomial.eval_mul, Polynomial.eval_C, Polynomial.eval_X, ih.1, ih.2]
      have : (n : ℝ) + 2 ≠ 0 := by positivity
      field_simp
  exact (this n).1

theorem legPoly_degree (n : ℕ) : (legPoly n).degree = n := by
  have : ∀ n : ℕ, (legPoly n).degree = n ∧ (legPoly (n + 1)).degree = (n + 1 : ℕ) := by
    intro n
    induction n with
    | zero => simp [legPoly]
    | succ n ih =>
      refine ⟨ih.2, ?_⟩
      have c1 : ((2 * n + 3) / (n + 2) : ℝ) ≠ 0 := by positivity
      have c2 : ((n + 1) / (n + 2) : ℝ) ≠ 0 := by positivity
      have d1 : (Polynomial.C ((2 * n + 3) / (n + 2) : ℝ) * (Polynomial.X * legPoly (n + 1))).degree = ((n + 2 : ℕ) : WithBot ℕ) := by
        rw [Polynomial.degree_mul, Polynomial.degree_C c1, Polynomial.degree_mul, Polynomial.degree_X, ih.2, zero_add]
        norm_cast
        omega
      have d2 : (Polynomial.C ((n + 1) / (n + 2) : ℝ) * legPoly n).degree = ((n : ℕ) : WithBot ℕ) := by
        rw [Polynomial.degree_mul, Polynomial.degree_C c2, ih.1, zero_add]
      show (Polynomial.C ((2 * n + 3) / (n + 2) : ℝ) * (Polynomial.X * legPoly (n + 1)) - Polynomial.C ((n + 1) / (n + 2) : ℝ) * legPoly n).degree = _
      rw [Polynomial.degree_sub_eq_left_of_degree_lt, d1]
      rw [d1, d2]
      exact_mod_cast (by omega : n < n + 2)
  exact (this n).1

/-- the sequence of the Legendre polynomials -/
def legSeq : Polynomial.Sequence ℝ := ⟨legPoly, legPoly_degree⟩

/-- A combination of different multipoles that vanishes at `n + 1` equally spaced angles, with `n` not below the largest multipole, is zero. -/
theorem combination_zero (N2 : ℕ) (ells : ℕ → ℕ) (hinj : ∀ i < N2, ∀ j < N2, ells i = ells j → i = j) (n : ℕ) (hn : 1 ≤ n) (hl : ∀ i < N2, ells i ≤ n) (c : ℕ → ℝ)
    (h0 : ∀ m ≤ n, ∑ i ∈ Finset.range N2, c i * leg (ells i) (m / n) = 0) : ∀ i < N2, c i = 0 := by
  obtain ⟨p, hp⟩ : ∃ p : Polynomial ℝ, p = ∑ i ∈ Finset.range N2, Polynomial.C (c i) * legPoly (ells i) := ⟨_, rfl⟩
  have hev : ∀ x, p.eval x = ∑ i ∈ Finset.range N2, c i * leg (ells i) x := by
    intro x
    rw [hp, Polynomial.eval_finsetSum]
    refine Finset.sum_congr rfl fun i _ => ?_
    rw [Polynomial.eval_mul, Polynomial.eval_C, legPoly_eval]
  have hn0 : (n : ℝ) ≠ 0 := by positivity
  have hz : p = 0 := by
    have hcard : ((Finset.range (n + 1)).image fun m : ℕ => (m : ℝ) / n).card = n + 1 := by
      rw [Finset.card_image_of_injective, Finset.card_range]
      intro a b hab
      simp only at hab
      field_simp at hab
      exact_mod_cast hab
    refine Polynomial.eq_zero_of_degree_lt_of_eval_finset_eq_zero ((Finset.range (n + 1)).image fun m : ℕ => (m : ℝ) / n) ?_ ?_
    · rw [hcard, hp]
      refine lt_of_le_of_lt (Polynomial.degree_sum_le _ _) ?_
      rw [Finset.sup_lt_iff (WithBot.bot_lt_coe _)]
      intro i hi
      refine lt_of_le_of_lt (Polynomial.degree_mul_le _ _) ?_
      refine lt_of_le_of_lt (add_le_add (Polynomial.degree_C_le) le_rfl) ?_
      rw [legPoly_degree, zero_add]
      exact_mod_cast Nat.lt_succ_of_le (hl i (Finset.mem_range.1 hi))
    · intro x hx
      obtain ⟨m, hm, rfl⟩ := Finset.mem_image.1 hx
      rw [hev]
      exact h0 m (by have := Finset.mem_range.1 hm; omega)
  have hli := legSeq.linearIndependent
  have hli2 : LinearIndependent ℝ fun i : Fin N2 => legSeq (ells i) :=
    hli.comp (fun i : Fin N2 => ells i) fun a b hab => Fin.ext (hinj a a.2 b b.2 hab)
  intro i hi
  have := Fintype.linearIndependent_iff.1 hli2 (fun i => c i) (by
    rw [hp, Finset.sum_range] at hz
    rw [← hz]
    refine Finset.sum_congr rfl fun i _ => ?_
    rw [Polynomial.smul_eq_C_mul]
    rfl) ⟨i, hi⟩
  exact this

theorem sum_range_mul (f : ℕ → ℝ) (N2 N1 : ℕ) : ∑ p ∈ Finset.range (N1 * N2), f p = ∑ i ∈ Finset.range N2, ∑ a ∈ Finset.range N1, f (i * N1 + a) := by
  induction N2 with
  | zero => simp
  | succ n ih =>
    rw [Nat.mul_succ, Finset.sum_range_add, ih, Finset.sum_range_succ, mul_comm N1 n]

end

end Verif.GaussCov
