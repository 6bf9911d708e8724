/-
The bisections subdivide the interval; the 15-point rule integrates polynomials of degree up to 23.
-/
import Verif.Lemmas.GKQuad
import Mathlib.Analysis.SpecialFunctions.Integrals.Basic
import Mathlib.MeasureTheory.Integral.IntervalIntegral.IntegrationByParts
import Mathlib.Tactic.IntervalCases
import Mathlib.Tactic.Positivity

namespace Verif.GK

open MeasureTheory

theorem pieces_cons (x y : ℝ) (zs : List ℝ) : pieces (x :: y :: zs) = (x, y) :: pieces (y :: zs) := rfl

/-- Cutting a piece of a subdivision gives a subdivision -/
theorem halve_pieces (a b : ℝ) (xs : List ℝ) (h : IsSubdivision a b xs) (I : ℝ × ℝ) (hI : I ∈ pieces xs) :
    ∃ ys, IsSubdivision a b ys ∧ halve (pieces xs : Multiset (ℝ × ℝ)) I = (pieces ys : Multiset (ℝ × ℝ)) ∧ ys.length = xs.length + 1 := by
  induction xs generalizing a with
  | nil => simp [pieces] at hI
  | cons x zs ih =>
    rcases zs with _ | ⟨y, zs⟩
    · simp [pieces] at hI
    have hxa : x = a := by simpa using h.first
    subst hxa
    have hm := List.pairwise_cons.1 h.mono
    have hxy : x ≤ y := hm.1 y (by simp)
    have hlast : (y :: zs).getLast? = some b := by
      have := h.last
      rwa [List.getLast?_cons_cons] at this
    by_cases hc : I = (x, y)
    · subst hc
      refine ⟨x :: (x + y) / 2 :: y :: zs, ⟨rfl, ?_, ?_⟩, ?_, by simp⟩
      · rw [List.getLast?_cons_cons, List.getLast?_cons_cons]
        exact hlast
      · refine List.pairwise_cons.2 ⟨?_, List.pairwise_cons.2 ⟨?_, hm.2⟩⟩
        · intro z hz
          rcases List.mem_cons.1 hz with rfl | hz
          · linarith
          · exact hm.1 z hz
        · intro z hz
          have hyz : y ≤ z := by
            rcases List.mem_cons.1 hz with rfl | hz
            · exact le_refl _
            · exact (List.pairwise_cons.1 hm.2).1 z hz
          linarith
      · rw [pieces_cons, pieces_cons, pieces_cons]
        unfold halve
        rw [← Multiset.cons_coe, Multiset.erase_cons_head, ← Multiset.cons_coe, ← Multiset.cons_coe, Multiset.insert_eq_cons, add_comm, Multiset.cons_add, Multiset.singleton_add]
    · have hI2 : I ∈ pieces (y :: zs) := by
        rw [pieces_cons] at hI
        rcases List.mem_cons.1 hI with h1 | h1
        · exact absurd h1 hc
        · exact h1
      obtain ⟨ys, hy, hh, hlen⟩ := ih y ⟨rfl, hlast, hm.2⟩ hI2
      rcases ys with _ | ⟨y', ys⟩
      · have := hy.first
        simp at this
      have : y' = y := by simpa using hy.first
      subst this
      refine ⟨x :: y' :: ys, ⟨rfl, ?_, ?_⟩, ?_, by simpa using hlen⟩
      · rw [List.getLast?_cons_cons]
        exact hy.last
      · refine List.pairwise_cons.2 ⟨?_, hy.mono⟩
        intro z hz
        rcases List.mem_cons.1 hz with rfl | hz
        · exact hxy
        · exact le_trans hxy ((List.pairwise_cons.1 hy.mono).1 z hz)
      · rw [pieces_cons, pieces_cons, ← Multiset.cons_coe, ← Multiset.cons_coe, ← hh]
        unfold halve
        rw [Multiset.erase_cons_tail _ (fun h2 => hc h2.symm), Multiset.cons_add]

theorem run_subdivision {val err : ℝ → ℝ → ℝ} {epsrel epsabs : ℝ} {n : ℕ} {S : ℕ → Multiset (ℝ × ℝ)} {I : ℕ → ℝ × ℝ} (h : Run val err epsrel epsabs n S I) {a b : ℝ} (hab : a ≤ b)
    (h0 : S 0 = {(a, b)}) : ∀ i, i ≤ n → ∃ xs, IsSubdivision a b xs ∧ S i = (pieces xs : Multiset (ℝ × ℝ)) ∧ xs.length = i + 2 := by
  intro i
  induction i with
  | zero =>
    intro _
    exact ⟨[a, b], ⟨rfl, rfl, by simpa using hab⟩, by rw [h0]; rfl, rfl⟩
  | succ i ih =>
    intro hi
    obtain ⟨xs, h1, h2, h3⟩ := ih (by omega)
    obtain ⟨hw, hs⟩ := h.step i (by omega)
    have hm := hw.1
    rw [h2] at hm
    obtain ⟨ys, g1, g2, g3⟩ := halve_pieces a b xs h1 (I i) (by simpa using hm)
    exact ⟨ys, g1, by rw [hs, h2, g2], by omega⟩

theorem total_pieces (v : ℝ → ℝ → ℝ) (xs : List ℝ) : total v (pieces xs : Multiset (ℝ × ℝ)) = ((pieces xs).map fun J => v J.1 J.2).sum := by
  simp [total]

/-- Errors of the pieces add up -/
theorem sum_bound (f : ℝ → ℝ) (val bnd : ℝ → ℝ → ℝ) (xs : List ℝ) : ∀ (a b : ℝ), IsSubdivision a b xs → IntervalIntegrable f volume a b →
    (∀ J ∈ pieces xs, |val J.1 J.2 - ∫ x in J.1..J.2, f x| ≤ bnd J.1 J.2) →
    |total val (pieces xs : Multiset (ℝ × ℝ)) - ∫ x in a..b, f x| ≤ total bnd (pieces xs : Multiset (ℝ × ℝ)) := by
  induction xs with
  | nil =>
    intro a b h
    have := h.first
    simp at this
  | cons x zs ih =>
    intro a b h hint hJ
    have hxa : x = a := by simpa using h.first
    subst hxa
    rcases zs with _ | ⟨y, zs⟩
    · have : x = b := by simpa using h.last
      subst this
      simp [total, pieces]
    have hm := List.pairwise_cons.1 h.mono
    have hxy : x ≤ y := hm.1 y (by simp)
    have hlast : (y :: zs).getLast? = some b := by
      have := h.last
      rwa [List.getLast?_cons_cons] at this
    have hyb : y ≤ b := by
      have hb : b ∈ y :: zs := List.mem_of_getLast? hlast
      rcases List.mem_cons.1 hb with h1 | h1
      · exact h1.ge
      · exact (List.pairwise_cons.1 hm.2).1 b h1
    have i1 : IntervalIntegrable f volume x y := hint.mono_set (by
      rw [Set.uIcc_of_le hxy, Set.uIcc_of_le (le_trans hxy hyb)]
      exact Set.Icc_subset_Icc_right hyb)
    have i2 : IntervalIntegrable f volume y b := hint.mono_set (by
      rw [Set.uIcc_of_le hyb, Set.uIcc_of_le (le_trans hxy hyb)]
      exact Set.Icc_subset_Icc_left hxy)
    have h2 := ih y b ⟨rfl, hlast, hm.2⟩ i2 (fun J hJ' => hJ J (by rw [pieces_cons]; exact List.mem_cons_of_mem _ hJ'))
    have h1 := hJ (x, y) (by rw [pieces_cons]; simp)
    rw [pieces_cons, ← Multiset.cons_coe, total_cons, total_cons, ← intervalIntegral.integral_add_adjacent_intervals i1 i2]
    simp only [] at h1 ⊢
    calc |val x y + total val (pieces (y :: zs) : Multiset (ℝ × ℝ)) - ((∫ t in x..y, f t) + ∫ t in y..b, f t)|
        = |(val x y - ∫ t in x..y, f t) + (total val (pieces (y :: zs) : Multiset (ℝ × ℝ)) - ∫ t in y..b, f t)| := by congr 1; ring
      _ ≤ _ := abs_add_le _ _
      _ ≤ _ := add_le_add h1 h2

/-- The pieces of a subdivision lie in the interval and their lengths add up -/
theorem pieces_mem (xs : List ℝ) : ∀ (a b : ℝ), IsSubdivision a b xs → ∀ J ∈ pieces xs, a ≤ J.1 ∧ J.1 ≤ J.2 ∧ J.2 ≤ b := by
  induction xs with
  | nil =>
    intro a b h
    have := h.first
    simp at this
  | cons x zs ih =>
    intro a b h J hJ
    have hxa : x = a := by simpa using h.first
    subst hxa
    rcases zs with _ | ⟨y, zs⟩
    · simp [pieces] at hJ
    have hm := List.pairwise_cons.1 h.mono
    have hxy : x ≤ y := hm.1 y (by simp)
    have hlast : (y :: zs).getLast? = some b := by
      have := h.last
      rwa [List.getLast?_cons_cons] at this
    have hyb : y ≤ b := by
      have hb : b ∈ y :: zs := List.mem_of_getLast? hlast
      rcases List.mem_cons.1 hb with h1 | h1
      · exact h1.ge
      · exact (List.pairwise_cons.1 hm.2).1 b h1
    rw [pieces_cons] at hJ
    rcases List.mem_cons.1 hJ with rfl | hJ
    · exact ⟨le_refl _, hxy, hyb⟩
    · obtain ⟨h1, h2, h3⟩ := ih y b ⟨rfl, hlast, hm.2⟩ J hJ
      exact ⟨le_trans hxy h1, h2, h3⟩

theorem pieces_len (xs : List ℝ) (C : ℝ) : ∀ (a b : ℝ), IsSubdivision a b xs → total (fun x y => C * (y - x)) (pieces xs : Multiset (ℝ × ℝ)) = C * (b - a) := by
  induction xs with
  | nil =>
    intro a b h
    have := h.first
    simp at this
  | cons x zs ih =>
    intro a b h
    have hxa : x = a := by simpa using h.first
    subst hxa
    rcases zs with _ | ⟨y, zs⟩
    · have : x = b := by simpa using h.last
      subst this
      simp [total, pieces]
    have hm := List.pairwise_cons.1 h.mono
    have hlast : (y :: zs).getLast? = some b := by
      have := h.last
      rwa [List.getLast?_cons_cons] at this
    rw [pieces_cons, ← Multiset.cons_coe, total_cons, ih y b ⟨rfl, hlast, hm.2⟩]
    ring

/-- The 15-point rule on `[-1, 1]` -/
noncomputable def K15 (g : ℝ → ℝ) : ℝ := g 0 * wgk15 7 + ∑ j ∈ Finset.range 7, wgk15 j * (g (-xgk15 j) + g (xgk15 j))

theorem gk15_val (f : ℝ → ℝ) (a b : ℝ) : (gk15 f a b).1 = (b - a) / 2 * K15 (fun t => f ((a + b) / 2 + (b - a) / 2 * t)) := by
  have h1 : (0.5 : ℝ) * (a + b) = (a + b) / 2 := by ring
  have h2 : (0.5 : ℝ) * (b - a) = (b - a) / 2 := by ring
  simp only [gk15, gaussKronrod, K15, Finset.sum_range_succ, Finset.sum_range_zero, h1, h2, mul_neg, mul_zero, add_zero, ← sub_eq_add_neg]
  ring

theorem K15_monomial (m : ℕ) (hm : m < 24) : |K15 (fun t => t ^ m) - ∫ t in (-1 : ℝ)..1, t ^ m| ≤ 1 / 10 ^ 16 := by
  rw [integral_pow]
  simp only [K15, Finset.sum_range_succ, Finset.sum_range_zero, wgk15, xgk15]
  rw [abs_le]
  interval_cases m <;> norm_num

theorem K15_sum {ι : Type} (s : Finset ι) (g : ι → ℝ → ℝ) (q : ι → ℝ) : K15 (fun t => ∑ i ∈ s, q i * g i t) = ∑ i ∈ s, q i * K15 (g i) := by
  simp only [K15, mul_add, Finset.sum_add_distrib, Finset.sum_mul, Finset.mul_sum]
  rw [Finset.sum_comm (s := Finset.range 7), Finset.sum_comm (s := Finset.range 7)]
  congr 1
  · exact Finset.sum_congr rfl fun i _ => by ring
  · congr 1
    · exact Finset.sum_congr rfl fun i _ => Finset.sum_congr rfl fun j _ => by ring
    · exact Finset.sum_congr rfl fun i _ => Finset.sum_congr rfl fun j _ => by ring

theorem K15_affine (c h : ℝ) (m : ℕ) (hm : m < 24) : |K15 (fun t => (c + h * t) ^ m) - ∫ t in (-1 : ℝ)..1, (c + h * t) ^ m| ≤ 1 / 10 ^ 16 * (|c| + |h|) ^ m := by
  have hexp : ∀ t : ℝ, (c + h * t) ^ m = ∑ j ∈ Finset.range (m + 1), (h ^ j * c ^ (m - j) * (m.choose j : ℝ)) * t ^ j := by
    intro t
    rw [add_comm c, add_pow]
    refine Finset.sum_congr rfl ?_
    intro j _
    rw [mul_pow]
    ring
  have h1 : (fun t => (c + h * t) ^ m) = fun t => ∑ j ∈ Finset.range (m + 1), (h ^ j * c ^ (m - j) * (m.choose j : ℝ)) * t ^ j := funext hexp
  rw [h1, K15_sum (Finset.range (m + 1)) (fun j t => t ^ j) (fun j => h ^ j * c ^ (m - j) * (m.choose j : ℝ)),
    intervalIntegral.integral_finset_sum (fun j _ => (Continuous.intervalIntegrable (by fun_prop) _ _))]
  simp only [intervalIntegral.integral_const_mul]
  rw [← Finset.sum_sub_distrib]
  have h2 : (|c| + |h|) ^ m = ∑ j ∈ Finset.range (m + 1), |h ^ j * c ^ (m - j) * (m.choose j : ℝ)| := by
    rw [add_comm, add_pow]
    refine Finset.sum_congr rfl ?_
    intro j _
    rw [abs_mul, abs_mul, abs_pow, abs_pow, abs_of_nonneg (by positivity : (0 : ℝ) ≤ (m.choose j : ℝ))]
  rw [h2, Finset.mul_sum]
  refine le_trans (Finset.abs_sum_le_sum_abs _ _) (Finset.sum_le_sum ?_)
  intro j hj
  rw [← mul_sub, abs_mul, mul_comm]
  have hj' : j < 24 := by
    simp at hj
    omega
  exact mul_le_mul_of_nonneg_right (K15_monomial j hj') (abs_nonneg _)

/-- A polynomial of degree below 24 -/
noncomputable def poly (q : ℕ → ℝ) (x : ℝ) : ℝ := ∑ m ∈ Finset.range 24, q m * x ^ m

theorem poly_continuous (q : ℕ → ℝ) : Continuous (poly q) := by
  unfold poly
  fun_prop

theorem gk15_poly (q : ℕ → ℝ) (a b M : ℝ) (hab : a ≤ b) (ha : |a| ≤ M) (hb : |b| ≤ M) :
    |(gk15 (poly q) a b).1 - ∫ x in a..b, poly q x| ≤ 1 / 10 ^ 16 * (∑ m ∈ Finset.range 24, |q m| * M ^ m) * ((b - a) / 2) := by
  have hch : ∫ x in a..b, poly q x = (b - a) / 2 * ∫ t in (-1 : ℝ)..1, poly q ((a + b) / 2 + (b - a) / 2 * t) := by
    rw [intervalIntegral.mul_integral_comp_add_mul]
    congr 1 <;> ring
  have hM : |(a + b) / 2| + |(b - a) / 2| ≤ M := by
    rw [abs_of_nonneg (by linarith : 0 ≤ (b - a) / 2)]
    rcases abs_cases ((a + b) / 2) with ⟨h, _⟩ | ⟨h, _⟩ <;> rw [h] <;> linarith [le_abs_self b, neg_abs_le a]
  have hM0 : 0 ≤ |(a + b) / 2| + |(b - a) / 2| := by positivity
  rw [gk15_val, hch, ← mul_sub, abs_mul, abs_of_nonneg (by linarith : 0 ≤ (b - a) / 2), mul_comm]
  refine mul_le_mul_of_nonneg_right ?_ (by linarith)
  unfold poly
  rw [K15_sum (Finset.range 24) (fun m t => ((a + b) / 2 + (b - a) / 2 * t) ^ m) q,
    intervalIntegral.integral_finset_sum (fun j _ => (Continuous.intervalIntegrable (by fun_prop) _ _))]
  simp only [intervalIntegral.integral_const_mul]
  rw [← Finset.sum_sub_distrib, Finset.mul_sum]
  refine le_trans (Finset.abs_sum_le_sum_abs _ _) (Finset.sum_le_sum ?_)
  intro m hm
  rw [← mul_sub, abs_mul, mul_left_comm]
  refine mul_le_mul_of_nonneg_left ?_ (abs_nonneg _)
  refine le_trans (K15_affine _ _ m (by simpa using hm)) ?_
  exact mul_le_mul_of_nonneg_left (pow_le_pow_left₀ hM0 hM m) (by positivity)

/-- The change of variables of `ExpSub` -/
theorem exp_sub (f : ℝ → ℝ) (a b : ℝ) (ha : 0 < a) (hb : 0 < b) (hf : ContinuousOn f (Set.uIcc a b)) :
    ∫ u in Real.log a..Real.log b, subFunc expSub f u = ∫ x in a..b, f x := by
  have h := intervalIntegral.integral_comp_mul_deriv'' (a := Real.log a) (b := Real.log b) (f := Real.exp) (f' := Real.exp) (g := f)
    Real.continuous_exp.continuousOn (fun x _ => (Real.hasDerivAt_exp x).hasDerivWithinAt) Real.continuous_exp.continuousOn
    (by
      refine hf.mono ?_
      rintro y ⟨u, hu, rfl⟩
      have h1 : Set.MapsTo Real.exp (Set.uIcc (Real.log a) (Real.log b)) (Set.uIcc (Real.exp (Real.log a)) (Real.exp (Real.log b))) :=
        (Real.exp_monotone.mapsTo_uIcc)
      have h2 := h1 hu
      rwa [Real.exp_log ha, Real.exp_log hb] at h2)
  rw [Real.exp_log ha, Real.exp_log hb] at h
  rw [← h]
  rfl

/-- The change of variables of `InverseSub` -/
theorem inverse_sub (f : ℝ → ℝ) (a b : ℝ) (ha : 0 < a) (hb : 0 < b) (hf : ContinuousOn f (Set.uIcc a b)) :
    ∫ u in (1 / a)..(1 / b), subFunc inverseSub f u = ∫ x in a..b, f x := by
  have hpos : ∀ u ∈ Set.uIcc (1 / a) (1 / b), 0 < u := by
    intro u hu
    have h1 : min (1 / a) (1 / b) ≤ u := hu.1
    have h2 : 0 < min (1 / a) (1 / b) := lt_min (by positivity) (by positivity)
    linarith
  have h := intervalIntegral.integral_comp_mul_deriv'' (a := 1 / a) (b := 1 / b) (f := fun u => 1 / u) (f' := fun u => -1 / (u * u)) (g := f)
    (by
      intro u hu
      exact (ContinuousAt.div continuousAt_const continuousAt_id (hpos u hu).ne').continuousWithinAt)
    (by
      intro u hu
      have hu' : 0 < u := hpos u (Set.Ioo_subset_Icc_self hu)
      have := (hasDerivAt_inv hu'.ne').hasDerivWithinAt (s := Set.Ioi u)
      refine HasDerivWithinAt.congr_deriv (this.congr (fun y _ => one_div y) (one_div u)) ?_
      rw [pow_two, neg_div, one_div])
    (by
      intro u hu
      have : ContinuousAt (fun u : ℝ => -1 / (u * u)) u := ContinuousAt.div continuousAt_const (continuousAt_id.mul continuousAt_id) (mul_pos (hpos u hu) (hpos u hu)).ne'
      exact this.continuousWithinAt)
    (by
      refine hf.mono ?_
      rintro y ⟨u, hu, rfl⟩
      have hu0 := hpos u hu
      have h1 : min (1 / a) (1 / b) ≤ u := hu.1
      have h2 : u ≤ max (1 / a) (1 / b) := hu.2
      simp only [one_div] at *
      constructor
      · show min a b ≤ u⁻¹
        rcases le_total a b with hab | hab
        · rw [min_eq_left hab]
          have h3 : max a⁻¹ b⁻¹ = a⁻¹ := max_eq_left (inv_anti₀ ha hab)
          rw [h3] at h2
          exact (le_inv_comm₀ hu0 ha).1 h2
        · rw [min_eq_right hab]
          have h3 : max a⁻¹ b⁻¹ = b⁻¹ := max_eq_right (inv_anti₀ hb hab)
          rw [h3] at h2
          exact (le_inv_comm₀ hu0 hb).1 h2
      · show u⁻¹ ≤ max a b
        rcases le_total a b with hab | hab
        · rw [max_eq_right hab]
          have h3 : min a⁻¹ b⁻¹ = b⁻¹ := min_eq_right (inv_anti₀ ha hab)
          rw [h3] at h1
          exact (inv_le_comm₀ hb hu0).1 h1
        · rw [max_eq_left hab]
          have h3 : min a⁻¹ b⁻¹ = a⁻¹ := min_eq_left (inv_anti₀ hb hab)
          rw [h3] at h1
          exact (inv_le_comm₀ ha hu0).1 h1)
  simp only [one_div_one_div] at h
  rw [← h]
  rfl

end Verif.GK
