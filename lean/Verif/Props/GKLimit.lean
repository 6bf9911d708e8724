/-
C122: the adaptive quadrature can fill its workspace without converging, and says nothing.
-/
import Verif.Props.GKQuad
import Mathlib.Algebra.Order.BigOperators.Group.Multiset

namespace Verif.GK

/-- For given values of the integrand the error estimate is proportional to the width, and at least the round-off error -/
theorem gaussKronrod_scale (fc : ℝ) (fv1 fv2 : ℕ → ℝ) :
    ∃ c B : ℝ, B = |fc * wgk15 7| + ∑ j ∈ Finset.range 3, wgk15 (2 * j + 1) * (|fv1 (2 * j + 1)| + |fv2 (2 * j + 1)|) + ∑ j ∈ Finset.range 4, wgk15 (2 * j) * (|fv1 (2 * j)| + |fv2 (2 * j)|) ∧
      50 * dblEps * B ≤ c ∧ ∀ half : ℝ, 0 < half → B * half > dblMin / (50 * dblEps) → (gaussKronrod fc fv1 fv2 half).2 = half * c := by
  unfold gaussKronrod
  obtain ⟨G, hG⟩ : ∃ G, G = fc * wg15 3 + ∑ j ∈ Finset.range 3, wg15 j * (fv1 (2 * j + 1) + fv2 (2 * j + 1)) := ⟨_, rfl⟩
  obtain ⟨K, hK⟩ : ∃ K, K = fc * wgk15 7 + ∑ j ∈ Finset.range 3, wgk15 (2 * j + 1) * (fv1 (2 * j + 1) + fv2 (2 * j + 1)) + ∑ j ∈ Finset.range 4, wgk15 (2 * j) * (fv1 (2 * j) + fv2 (2 * j)) := ⟨_, rfl⟩
  obtain ⟨B, hB⟩ : ∃ B, B = |fc * wgk15 7| + ∑ j ∈ Finset.range 3, wgk15 (2 * j + 1) * (|fv1 (2 * j + 1)| + |fv2 (2 * j + 1)|) + ∑ j ∈ Finset.range 4, wgk15 (2 * j) * (|fv1 (2 * j)| + |fv2 (2 * j)|) := ⟨_, rfl⟩
  simp only [← hG, ← hK, ← hB]
  obtain ⟨A, hA⟩ : ∃ A, A = wgk15 7 * |fc - 0.5 * K| + ∑ j ∈ Finset.range 7, wgk15 j * (|fv1 j - 0.5 * K| + |fv2 j - 0.5 * K|) := ⟨_, rfl⟩
  simp only [← hA]
  obtain ⟨D, hD⟩ : ∃ D, D = |K - G| := ⟨_, rfl⟩
  simp only [← hD]
  refine ⟨max (if A ≠ 0 ∧ D ≠ 0 then (if (200 * D / A) ^ (1.5 : ℝ) < 1 then A * (200 * D / A) ^ (1.5 : ℝ) else A) else D) (50 * dblEps * B), B, rfl, le_max_right _ _, ?_⟩
  intro half hh hBh
  rw [abs_of_pos hh, if_pos hBh]
  have hne : half ≠ 0 := hh.ne'
  have hr : 200 * (D * half) / (A * half) = 200 * D / A := by
    rw [← mul_assoc, mul_div_mul_right _ _ hne]
  have hcond : (A * half ≠ 0 ∧ D * half ≠ 0) ↔ (A ≠ 0 ∧ D ≠ 0) := by
    simp [hne]
  rw [hr, mul_max_of_nonneg _ _ hh.le]
  congr 1
  · by_cases h1 : A ≠ 0 ∧ D ≠ 0
    · rw [if_pos (hcond.2 h1), if_pos h1]
      split <;> ring
    · rw [if_neg (fun h => h1 (hcond.1 h)), if_neg h1]
      ring
  · ring

theorem dblMin_small : dblMin < 1 / 10 ^ 25 := by
  have h1 : dblMin ≤ (2⁻¹ : ℝ) ^ 100 := by
    unfold dblMin
    exact pow_le_pow_of_le_one (by norm_num) (by norm_num) (by norm_num)
  have h2 : (2⁻¹ : ℝ) ^ 100 < 1 / 10 ^ 25 := by norm_num
  linarith

theorem one_err : ∃ c : ℝ, 50 * dblEps ≤ c ∧ ∀ x y : ℝ, 1 / 100000 ≤ y - x → (gk15 (fun _ => 1) x y).2 = (y - x) / 2 * c := by
  obtain ⟨c, B, hB, hc, h⟩ := gaussKronrod_scale 1 (fun _ => 1) (fun _ => 1)
  have hB1 : 1 ≤ B := by
    rw [hB]
    simp only [Finset.sum_range_succ, Finset.sum_range_zero, wgk15]
    norm_num
  have heps : 0 < dblEps := by unfold dblEps; positivity
  refine ⟨c, le_trans (by nlinarith) hc, ?_⟩
  intro x y hxy
  unfold gk15
  simp only []
  have h2 : (0.5 : ℝ) * (y - x) = (y - x) / 2 := by ring
  rw [h2]
  refine h _ (by linarith) ?_
  have h3 : dblMin / (50 * dblEps) < 1 / 200000 := by
    rw [div_lt_iff₀ (by positivity)]
    have h4 : (1 : ℝ) / 10 ^ 25 < 1 / 200000 * (50 * dblEps) := by
      unfold dblEps
      norm_num
    linarith [dblMin_small]
  nlinarith

theorem one_val (x y : ℝ) : (gk15 (fun _ => 1) x y).1 = (y - x) / 2 * 1.99999999999999994 := by
  rw [gk15_val]
  congr 1
  simp only [K15, Finset.sum_range_succ, Finset.sum_range_zero, wgk15]
  norm_num

/-- An integrand whose error estimates are bounds (the hypothesis of `C122_accuracy`): a constant, on intervals of any width that occurs -/
example (x y : ℝ) (h : 1 / 100000 ≤ y - x) : |(gk15 (fun _ => 1) x y).1 - ∫ _ in x..y, (1 : ℝ)| ≤ (gk15 (fun _ => 1) x y).2 := by
  obtain ⟨c, hc, herr⟩ := one_err
  rw [herr x y h, one_val, intervalIntegral.integral_const, smul_eq_mul, mul_one,
    show (y - x) / 2 * 1.99999999999999994 - (y - x) = -((y - x) / 2 * 0.00000000000000006) by ring, abs_neg, abs_of_nonneg (mul_nonneg (by linarith) (by norm_num))]
  refine mul_le_mul_of_nonneg_left (le_trans ?_ hc) (by linarith)
  unfold dblEps
  norm_num

/-- The width of an interval -/
def wid (J : ℝ × ℝ) : ℝ := J.2 - J.1

theorem wid_step {S : Multiset (ℝ × ℝ)} {I : ℝ × ℝ} (hI : I ∈ S) (hmax : ∀ J ∈ S, wid J ≤ wid I) (hinv : ∀ J ∈ S, ∀ J' ∈ S, wid J ≤ 2 * wid J') (h0 : ∀ J ∈ S, 0 ≤ wid J) :
    (∀ J ∈ halve S I, ∀ J' ∈ halve S I, wid J ≤ 2 * wid J') ∧ ∀ J ∈ halve S I, 0 ≤ wid J := by
  have hhalf : ∀ J ∈ halve S I, J ∈ S ∨ wid J = wid I / 2 := by
    intro J hJ
    simp only [halve, Multiset.mem_add, Multiset.insert_eq_cons, Multiset.mem_cons, Multiset.mem_singleton] at hJ
    rcases hJ with hJ | rfl | rfl
    · exact Or.inl (Multiset.mem_of_mem_erase hJ)
    · right
      simp only [wid]
      ring
    · right
      simp only [wid]
      ring
  have hI0 := h0 I hI
  constructor
  · intro J hJ J' hJ'
    rcases hhalf J hJ with h1 | h1 <;> rcases hhalf J' hJ' with h2 | h2
    · exact hinv J h1 J' h2
    · rw [h2]
      have := hmax J h1
      linarith
    · rw [h1]
      have := hinv I hI J' h2
      have := h0 J' h2
      linarith
    · rw [h1, h2]
      linarith
  · intro J hJ
    rcases hhalf J hJ with h1 | h1
    · exact h0 J h1
    · rw [h1]
      linarith

/-- Counterexample to "an estimated error above the tolerance is reported": the integral of 1 from 1 to 2 with the (accepted) absolute tolerance 10⁻²⁰ runs until the workspace of 8192 intervals is
full (245745 evaluations), returns an estimated error of more than 10⁻¹⁵ and prints nothing. -/
theorem C122_limit_counterexample (w : WS) (hl : w.limit = gkLimit) : Accepts 0 (1 / 10 ^ 20) ∧
    ∃ out w' err, integrate w (fun _ => 1) 1 2 0 (1 / 10 ^ 20) = some (out, w') ∧ out.abserr = some err ∧ 1 / 10 ^ 15 < err ∧ out.neval = some 245745 ∧ out.warned = none := by
  have ht : Accepts 0 (1 / 10 ^ 20) := Or.inl (by norm_num)
  refine ⟨ht, ?_⟩
  have hl' : w.limit = 8192 := hl
  obtain ⟨out, w', n, S, I, hi, _, hR, h0, hn, hv, he, hne, hend⟩ := C122_adaptive_partial w (by omega) (fun _ => 1) 1 2 0 (1 / 10 ^ 20) ht
  rw [min_eq_left (by norm_num : (1 : ℝ) ≤ 2), max_eq_right (by norm_num : (1 : ℝ) ≤ 2)] at h0
  obtain ⟨c, hc, herr⟩ := one_err
  have hsub := run_subdivision hR (by norm_num : (1 : ℝ) ≤ 2) h0
  have hlen : ∀ i, i ≤ n → total (fun x y => y - x) (S i) = 1 ∧ (S i).card = i + 1 ∧ ∀ J ∈ S i, 1 ≤ J.1 ∧ J.2 ≤ 2 := by
    intro i hi
    obtain ⟨xs, hx, hS, hl⟩ := hsub i hi
    refine ⟨?_, ?_, ?_⟩
    · have := pieces_len xs 1 _ _ hx
      rw [hS]
      simp only [one_mul] at this
      rw [this]
      norm_num
    · rw [hS]
      simp [pieces, hl]
    · intro J hJ
      rw [hS] at hJ
      obtain ⟨h1, h2, h3⟩ := pieces_mem xs _ _ hx J (by simpa using hJ)
      exact ⟨h1, h3⟩
  have hinv : ∀ i, i ≤ n → (∀ J ∈ S i, ∀ J' ∈ S i, wid J ≤ 2 * wid J') ∧ (∀ J ∈ S i, 0 ≤ wid J) ∧ ∀ J ∈ S i, 1 / 20000 ≤ wid J := by
    have hthird : ∀ i, i ≤ n → (∀ J ∈ S i, ∀ J' ∈ S i, wid J ≤ 2 * wid J') → ∀ J ∈ S i, 1 / 20000 ≤ wid J := by
      intro i hi h1 J hJ
      obtain ⟨g1, g2, _⟩ := hlen i hi
      have h2 : total (fun x y => y - x) (S i) ≤ (S i).card • (2 * wid J) := by
        unfold total
        have := Multiset.sum_le_card_nsmul ((S i).map fun J => J.2 - J.1) (2 * wid J) (by
          intro x hx
          obtain ⟨J', hJ', rfl⟩ := Multiset.mem_map.1 hx
          exact h1 J' hJ' J hJ)
        simpa using this
      rw [g1, g2, nsmul_eq_mul] at h2
      have h3 : ((i + 1 : ℕ) : ℝ) ≤ 8192 := by
        have : i + 1 ≤ 8192 := by omega
        exact_mod_cast this
      have h4 : 0 < wid J := by
        by_contra hneg
        have : ((i + 1 : ℕ) : ℝ) * (2 * wid J) ≤ 0 := mul_nonpos_of_nonneg_of_nonpos (by positivity) (by linarith)
        linarith
      nlinarith
    intro i
    induction i with
    | zero =>
      intro hi
      have hw : ∀ J ∈ S 0, wid J = 1 := by
        intro J hJ
        rw [h0] at hJ
        have : J = (1, 2) := by simpa using hJ
        rw [this]
        norm_num [wid]
      have h1 : ∀ J ∈ S 0, ∀ J' ∈ S 0, wid J ≤ 2 * wid J' := by
        intro J hJ J' hJ'
        rw [hw J hJ, hw J' hJ']
        norm_num
      exact ⟨h1, fun J hJ => by rw [hw J hJ]; norm_num, hthird 0 hi h1⟩
    | succ i ih =>
      intro hi
      obtain ⟨h1, h2, h3⟩ := ih (by omega)
      obtain ⟨hW, hS⟩ := hR.step i (by omega)
      have hmax : ∀ J ∈ S i, wid J ≤ wid (I i) := by
        intro J hJ
        have h4 := hW.2 J hJ
        have h5 := h3 J hJ
        have h6 := h3 (I i) hW.1
        simp only [wid] at h5 h6 ⊢
        simp only [] at h4
        rw [herr _ _ (by linarith), herr _ _ (by linarith)] at h4
        have hcpos : 0 < c := lt_of_lt_of_le (by unfold dblEps; positivity) hc
        nlinarith
      have := wid_step hW.1 hmax h1 h2
      rw [← hS] at this
      exact ⟨this.1, this.2, hthird (i + 1) hi this.1⟩
  have hE : total (fun a b => (gk15 (fun _ => 1) a b).2) (S n) = c / 2 := by
    have h1 : total (fun a b => (gk15 (fun _ => 1) a b).2) (S n) = total (fun x y => (y - x) * (c / 2)) (S n) := by
      unfold total
      refine congrArg _ (Multiset.map_congr rfl ?_)
      intro J hJ
      have := (hinv n (le_refl _)).2.2 J hJ
      simp only [wid] at this
      simp only []
      rw [herr _ _ (by linarith)]
      ring
    rw [h1]
    have h2 : total (fun x y => (y - x) * (c / 2)) (S n) = total (fun x y => y - x) (S n) * (c / 2) := by
      unfold total
      rw [← Multiset.sum_map_mul_right]
    rw [h2, (hlen n (le_refl _)).1, one_mul]
  have hc2 : 1 / 10 ^ 15 < c / 2 := by
    have : (1 : ℝ) / 10 ^ 15 < 50 * dblEps / 2 := by
      unfold dblEps
      norm_num
    linarith
  have hnc : ¬ Converged (fun a b => (gk15 (fun _ => 1) a b).1) (fun a b => (gk15 (fun _ => 1) a b).2) 0 (1 / 10 ^ 20) (S n) := by
    unfold Converged
    rw [hE, zero_mul, max_eq_left (by norm_num)]
    have : (1 : ℝ) / 10 ^ 20 < 1 / 10 ^ 15 := by norm_num
    linarith
  have hnt : ¬ Tiny (I (n - 1)) := by
    have hp := hR.pos
    obtain ⟨hW, _⟩ := hR.step (n - 1) (by omega)
    have h1 := (hinv (n - 1) (by omega)).2.2 _ hW.1
    obtain ⟨h2, h3⟩ := (hlen (n - 1) (by omega)).2.2 _ hW.1
    unfold Tiny
    rintro ⟨_, h4⟩
    simp only [wid] at h1
    rw [abs_of_nonneg (by linarith), abs_of_nonneg (by linarith)] at h4
    obtain ⟨x, hx⟩ : ∃ x, x = (I (n - 1)).1 := ⟨_, rfl⟩
    obtain ⟨y, hy⟩ : ∃ y, y = (I (n - 1)).2 := ⟨_, rfl⟩
    rw [← hx, ← hy] at *
    have h5 : (1000 : ℝ) / 2 ^ 1022 < 1 / 10 ^ 10 := by
      rw [← dblMin_eq]
      have : (1000 : ℝ) * (1 / 10 ^ 25) < 1 / 10 ^ 10 := by norm_num
      linarith [dblMin_small]
    have h6 : (1 + 100 / 2 ^ 52 : ℝ) < 1 + 1 / 10 ^ 10 := by norm_num
    have h7 : (1 + 100 / 2 ^ 52 : ℝ) * ((x + y) / 2 + 1000 / 2 ^ 1022) ≤ (1 + 1 / 10 ^ 10) * ((x + y) / 2 + 1 / 10 ^ 10) := by
      refine mul_le_mul h6.le (by linarith) ?_ (by norm_num)
      have : (0 : ℝ) < 1000 / 2 ^ 1022 := by positivity
      linarith
    nlinarith
  rcases hend with h | h | h
  · exact absurd h.1 hnc
  · exact absurd h.2.1 hnt
  · refine ⟨out, w', c / 2, hi, by rw [he, hE], hc2, ?_, h.2.2.2⟩
    have : n = 8191 := by omega
    rw [hne, this]

end Verif.GK
