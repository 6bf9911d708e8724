/-
C132: correlation matrices and concrete cases.
-/
import Verif.Props.Labels
import Mathlib.Algebra.BigOperators.Ring.Finset
import Mathlib.Tactic.NormNum

namespace Verif.Labels

open Verif.Cov

noncomputable section

/-- the correlation of two variables -/
def corr (m : ℕ → ℕ → ℝ) (i j : ℕ) : ℝ := m i j / Real.sqrt (m i i * m j j)

theorem diag_pack (N : ℕ) (m : ℕ → ℕ → ℝ) : diag N (pack N m) = .ok ((List.range N).map fun i => m i i) := by
  unfold diag
  rw [mapM_ok (g := fun i => m i i)]
  intro i hi
  have := List.mem_range.1 hi
  rw [elem_pack_nat m this this, if_pos le_rfl]

theorem normalized_pack (N : ℕ) (m : ℕ → ℕ → ℝ) (r : Except Err (List ℝ)) (h : r = normalized N (pack N m)) :
    ((∀ i j, i ≤ j → j < N → close (corr m i j) (m i j)) → r = .ok (pack N m)) ∧
    ((∃ i j, i ≤ j ∧ j < N ∧ ¬ close (corr m i j) (m i j)) → r = .ok (pack N (corr m))) := by
  have hz : List.zipWith (fun a b => a / b) (pack N m) ((triu N).map fun p => Real.sqrt (((List.range N).map fun i => m i i).getD p.1 0 * ((List.range N).map fun i => m i i).getD p.2 0)) =
      pack N (corr m) := by
    unfold pack
    rw [List.zipWith_map, List.zipWith_self]
    apply List.map_congr_left
    rintro ⟨i, j⟩ hp
    obtain ⟨h1, h2⟩ := mem_triu.1 hp
    have hi : i < N := by omega
    simp [corr, List.getD_eq_getElem?_getD, List.getElem?_range hi, List.getElem?_range h2]
  have hl : (pack N m).length = (triu N).length := by simp [pack]
  have hget : ∀ (f : ℕ → ℕ → ℝ) n (hn : n < (triu N).length), (pack N f).getD n 0 = f (triu N)[n].1 (triu N)[n].2 := by
    intro f n hn
    simp [pack, List.getD_eq_getElem?_getD, List.getElem?_eq_getElem hn]
  subst h
  unfold normalized
  rw [diag_pack]
  dsimp only
  rw [hz]
  constructor
  · intro h
    rw [if_pos]
    intro n hn
    rw [hl] at hn
    rw [hget _ n hn, hget _ n hn]
    obtain ⟨h1, h2⟩ := mem_triu.1 (List.getElem_mem hn : ((triu N)[n].1, (triu N)[n].2) ∈ triu N)
    exact h _ _ h1 h2
  · rintro ⟨i, j, hij, hj, h⟩
    rw [if_neg]
    intro hall
    apply h
    obtain ⟨n, hn, he⟩ := List.getElem_of_mem (mem_triu.2 ⟨hij, hj⟩)
    have := hall n (hl ▸ hn)
    rw [hget _ n hn, hget _ n hn, he] at this
    exact this

theorem corr_symm (m : ℕ → ℕ → ℝ) (N : ℕ) (hs : ∀ i j, i < N → j < N → m i j = m j i) (i j : ℕ) (hi : i < N) (hj : j < N) : corr m i j = corr m j i := by
  unfold corr
  rw [hs i j hi hj, mul_comm]

/-- a sum of two terms -/
theorem sum_two (N i j : ℕ) (hi : i < N) (hj : j < N) (hij : i ≠ j) (x y : ℝ) (f : ℕ → ℝ) :
    ∑ a ∈ Finset.range N, (if a = i then x else if a = j then y else 0) * f a = x * f i + y * f j := by
  have h : ∀ a, (if a = i then x else if a = j then y else 0) * f a = (if a = i then x * f i else 0) + (if a = j then y * f j else 0) := by
    intro a
    by_cases h1 : a = i
    · have h2 : a ≠ j := fun h => hij (h1.symm.trans h)
      rw [if_pos h1, if_pos h1, if_neg h2, h1, add_zero]
    · by_cases h2 : a = j
      · rw [if_neg h1, if_pos h2, if_neg h1, if_pos h2, h2, zero_add]
      · simp [h1, h2]
  rw [Finset.sum_congr rfl fun a _ => h a, Finset.sum_add_distrib, Finset.sum_ite_eq', Finset.sum_ite_eq', if_pos (Finset.mem_range.2 hi), if_pos (Finset.mem_range.2 hj)]

/-- C132: the correlation matrix of a covariance matrix (symmetric, positive semidefinite, positive variances) of which some element differs noticeably from the correlation: its
elements are the correlations, symmetric, 1 on the diagonal and between -1 and 1. -/
theorem C132_correlation_partial (N : ℕ) (m : ℕ → ℕ → ℝ) (hs : ∀ i j, i < N → j < N → m i j = m j i) (hp : ∀ i, i < N → 0 < m i i)
    (hpsd : ∀ x : ℕ → ℝ, 0 ≤ ∑ i ∈ Finset.range N, ∑ j ∈ Finset.range N, x i * m i j * x j)
    (hfar : ∃ i j, i ≤ j ∧ j < N ∧ ¬ close (corr m i j) (m i j)) :
    ∃ d, normalized N (pack N m) = .ok d ∧ d.length = (triu N).length ∧ ∀ i j : ℕ, i < N → j < N →
      elem N d i j = .ok (m i j / Real.sqrt (m i i * m j j)) ∧ elem N d j i = elem N d i j ∧ (i = j → elem N d i j = .ok 1) ∧
      |m i j / Real.sqrt (m i i * m j j)| ≤ 1 := by
  refine ⟨pack N (corr m), (normalized_pack N m _ rfl).2 hfar, by simp [pack], fun i j hi hj => ?_⟩
  have he : ∀ i j, i < N → j < N → elem N (pack N (corr m)) (i : ℕ) (j : ℕ) = .ok (corr m i j) := by
    intro i j hi hj
    rw [elem_pack_nat (corr m) hi hj]
    split_ifs with h
    · rfl
    · rw [corr_symm m N hs j i hj hi]
  refine ⟨he i j hi hj, ?_, ?_, ?_⟩
  · rw [he i j hi hj, he j i hj hi, corr_symm m N hs j i hj hi]
  · rintro rfl
    rw [he i i hi hi]
    unfold corr
    rw [Real.sqrt_mul_self (hp i hi).le, div_self (hp i hi).ne']
  · have hpos : 0 < m i i * m j j := mul_pos (hp i hi) (hp j hj)
    have hsq : 0 < Real.sqrt (m i i * m j j) := Real.sqrt_pos.2 hpos
    rw [abs_div, abs_of_pos hsq, div_le_one hsq]
    apply Real.abs_le_sqrt
    by_cases hij : i = j
    · subst hij
      rw [sq]
    · have h := hpsd fun a => if a = i then m j j else if a = j then - m i j else 0
      have e : ∀ a, ∑ b ∈ Finset.range N, (if a = i then m j j else if a = j then - m i j else 0) * m a b * (if b = i then m j j else if b = j then - m i j else 0) =
          (if a = i then m j j else if a = j then - m i j else 0) * (m j j * m a i + (- m i j) * m a j) := by
        intro a
        rw [← sum_two N i j hi hj hij (m j j) (- m i j) (m a), Finset.mul_sum]
        apply Finset.sum_congr rfl
        intro b _
        ring
      rw [Finset.sum_congr rfl fun a _ => e a, sum_two N i j hi hj hij (m j j) (- m i j) fun a => m j j * m a i + (- m i j) * m a j, hs j i hj hi] at h
      have hj0 := hp j hj
      nlinarith [mul_pos hj0 hj0]

/-- C132: otherwise the matrix itself is returned, ... -/
theorem C132_close (N : ℕ) (m : ℕ → ℕ → ℝ) (h : ∀ i j, i ≤ j → j < N → close (m i j / Real.sqrt (m i i * m j j)) (m i j)) : normalized N (pack N m) = .ok (pack N m) :=
  (normalized_pack N m _ rfl).1 h

/-- C132: ... so that the diagonal of a correlation matrix need not be 1. -/
theorem C132_correlation_counterexample : ∃ v : ℝ, 0 < v ∧ v ≠ 1 ∧ normalized 1 [v] = .ok [v] := by
  refine ⟨1000001 / 1000000, by norm_num, by norm_num, ?_⟩
  have h := C132_close 1 (fun _ _ => 1000001 / 1000000) (by
    intro i j _ _
    rw [Real.sqrt_mul_self (by norm_num), div_self (by norm_num)]
    unfold close
    norm_num [abs_of_nonneg, abs_of_nonpos])
  simpa [pack, triu] using h

/-- the hypotheses hold for a matrix of two variables -/
example : ∃ d, normalized 2 (pack 2 fun i j => if i = j then (4 : ℝ) else 2) = .ok d ∧ elem 2 d 0 1 = .ok (1 / 2) ∧ elem 2 d 1 1 = .ok 1 := by
  obtain ⟨d, h1, _, h3⟩ := C132_correlation_partial 2 (fun i j => if i = j then (4 : ℝ) else 2) (by intro i j _ _; simp [eq_comm]) (by intro i _; simp) (by
    intro x
    simp only [Finset.sum_range_succ, Finset.sum_range_zero]
    norm_num
    nlinarith [sq_nonneg (x 0 + x 1), sq_nonneg (x 0), sq_nonneg (x 1)]) ⟨0, 0, le_rfl, by norm_num, by
    unfold close corr
    simp only [if_true]
    rw [Real.sqrt_mul_self (by norm_num)]
    norm_num [abs_of_nonneg, abs_of_nonpos]⟩
  refine ⟨d, h1, ?_, ?_⟩
  · have := (h3 0 1 (by norm_num) (by norm_num)).1
    simp only [if_true] at this
    rw [Real.sqrt_mul_self (by norm_num)] at this
    norm_num at this
    rw [show ((1 : ℝ) / 2) = 1 / 2 from rfl]
    simpa using this
  · exact (h3 1 1 (by norm_num) (by norm_num)).2.2.1 rfl

end

/-- two multipoles with two wavenumbers each -/
def sample : Cov := construct 4 (fun i j => ((i + 1) * (j + 1) + (if i = 0 ∧ j = 3 then 5 else 0) : Nat)) [(0, 1), (0, 2), (2, 1), (2, 2)] [(0, 1), (0, 2), (2, 1), (2, 2)]

/-- the hypotheses of `C132_select` and `C132_enumerate` hold for the sample -/
example : sample.WF ∧ lexsorted sample.coords1 = true ∧ sample.coords1 = sample.coords2 ∧ sample.N ≠ 0 ∧ Spec.Ordered (uniq (sample.coords1.map (·.1))) ∧
    Spec.Ordered (uniq (sample.coords1.map (·.2))) :=
  ⟨⟨by decide, rfl, rfl⟩, by decide +kernel, rfl, by decide, Or.inl (by decide +kernel), Or.inl (by decide +kernel)⟩

/-- what is returned, as a table -/
def table : Except Err Selected → Except Err (List (List Rat))
  | .error e => .error e
  | .ok (.cov c) => .ok ((List.range c.N).map fun i => (List.range c.N).map fun j => c.values i j)
  | .ok (.array n k m) => .ok ((List.range n).map fun i => (List.range k).map fun j => m i j)

example : table (sel sample (some (.near [19 / 10])) none (some (.near [19 / 10])) none) = .ok [[9, 12], [12, 16]] := by decide +kernel

/-- C132: an off-diagonal block is not the block of the matrix (of which the elements are 3, 9 and 6, 8). -/
theorem C132_block_counterexample :
    table (sel sample (some (.near [0])) none (some (.near [2])) none) = .ok [[3, 9], [9, 8]] ∧ sample.values 1 2 = 6 := by decide +kernel

/-- C132: statistics measured at different wavenumbers: the labels are not in order, and values of `k` cannot be looked up. -/
theorem C132_wavenumbers_counterexample (v : Rat) (q : Option Label) :
    sel (construct 4 (fun i j => if i = j then 1 else 0) [(0, 1), (0, 2), (2, 11 / 10), (2, 21 / 10)] [(0, 1), (0, 2), (2, 11 / 10), (2, 21 / 10)]) none (some (.near [v])) none q =
      .error .valueError := by
  have h : locate [(0, 1), (0, 2), (2, 11 / 10), (2, 21 / 10)] none (some (.near [v])) = .error .valueError := by
    unfold locate
    have hu : uniq ([((0 : Rat), (1 : Rat)), (0, 2), (2, 11 / 10), (2, 21 / 10)].map (·.2)) = [1, 2, 11 / 10, 21 / 10] := by decide +kernel
    have : choose ([((0 : Rat), (1 : Rat)), (0, 2), (2, 11 / 10), (2, 21 / 10)].map (·.2)) (some (.near [v])) = .error .valueError := by
      show (match getNearest ([((0 : Rat), (1 : Rat)), (0, 2), (2, 11 / 10), (2, 21 / 10)].map (·.2)) [v] with | .error e => .error e | .ok ls => .ok (.these ls) : Except Err Chosen) = _
      have : getNearest ([((0 : Rat), (1 : Rat)), (0, 2), (2, 11 / 10), (2, 21 / 10)].map (·.2)) [v] = .error .valueError := by
        unfold getNearest
        rw [hu, List.mapM_cons]
        have : nearestIdx [1, 2, 11 / 10, 21 / 10] v = .error .valueError := by
          unfold nearestIdx
          rw [if_neg (by simp), if_neg (by decide +kernel), if_neg (by decide +kernel)]
        rw [this]
        rfl
      rw [this]
    rw [this]
    rfl
  unfold sel
  simp only [construct, h]

/-- the hypothesis of `C132_order_counterexample`: multipoles in the order 2, 0 -/
example : lexsorted [(2, 1), (2, 2), (0, 1), (0, 2)] = false := by decide +kernel

end Verif.Labels
