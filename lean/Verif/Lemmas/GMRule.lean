/-
The rule on a box: polynomials of degree up to 7 are integrated exactly; the integral over a box is the sum of those over its halves.
-/
import Verif.Lemmas.GMRun
import Verif.Lemmas.GMUnit
import Mathlib.Algebra.MvPolynomial.Degrees
import Mathlib.Algebra.MvPolynomial.Eval
import Mathlib.Analysis.SpecialFunctions.Integrals.Basic
import Mathlib.MeasureTheory.Integral.Pi
import Mathlib.MeasureTheory.Measure.Lebesgue.Basic

namespace Verif.GM

open MeasureTheory

variable {n : ℕ}

noncomputable section

/-- A point of the box from the coordinates in the cube -/
def pt (c w u : Fin n → ℝ) : Fin n → ℝ := fun j => c j + w j * u j

theorem sumAxes_eq (f : (Fin n → ℝ) → ℝ) (c w : Fin n → ℝ) (l : ℝ) : sumAxes f c w l = axesU (fun u => f (pt c w u)) l := by
  have h : ∀ j x, shift c j (x * w j) = pt c w (Pi.single j x) := by
    intro j x
    funext i
    by_cases hi : i = j
    · subst hi
      simp [shift, pt, mul_comm]
    · simp [shift, pt, hi]
  unfold sumAxes axesU
  refine Finset.sum_congr rfl fun j _ => ?_
  rw [← neg_mul, h, h]

theorem sumPairs_eq (f : (Fin n → ℝ) → ℝ) (c w : Fin n → ℝ) (l : ℝ) : sumPairs f c w l = pairsU (fun u => f (pt c w u)) l := by
  have h : ∀ i k x y, i ≠ k → shift (shift c i (x * w i)) k (y * w k) = pt c w (two i k x y) := by
    intro i k x y hik
    funext m
    by_cases hm : m = k
    · subst hm
      simp [shift, pt, two, hik.symm, mul_comm]
    · by_cases hi : m = i
      · subst hi
        simp [shift, pt, two, hm, mul_comm]
      · simp [shift, pt, two, hm, hi]
  unfold sumPairs pairsU
  refine Finset.sum_congr rfl fun i _ => Finset.sum_congr rfl fun k hk => ?_
  have hik : i ≠ k := (Finset.mem_filter.1 hk).2.ne
  simp only [← neg_mul]
  rw [h _ _ _ _ hik, h _ _ _ _ hik, h _ _ _ _ hik, h _ _ _ _ hik]

theorem cornerLoop_cons (g : List ℝ → ℝ) {a : ℝ} (ha : 0 < a) : ∀ (fuel : ℕ) (ys : List ℝ), cornerLoop g (2 * fuel) (-a :: ys) = cornerLoop (fun zs => g (-a :: zs) + g (a :: zs)) fuel ys := by
  intro fuel
  induction fuel with
  | zero => intro ys; rfl
  | succ fuel ih =>
    intro ys
    have h1 : flip (-a :: ys) = some (a :: ys) := by simp [flip, ha]
    have h2 : flip (a :: ys) = (flip ys).map fun zs => -a :: zs := by simp [flip, ha.le]
    rw [show 2 * (fuel + 1) = 2 * fuel + 1 + 1 by ring]
    simp only [cornerLoop, h1, h2]
    cases hf : flip ys with
    | none => simp
    | some zs =>
      simp only [Option.map_some, ih]
      ring

/-- All combinations of signs are gone through -/
theorem corners_eq : ∀ (n : ℕ) (w : Fin n → ℝ) (g : List ℝ → ℝ), (∀ j, 0 < w j) →
    cornerLoop g (2 ^ n) (List.ofFn fun j => -w j) = ∑ e : Fin n → Bool, g (List.ofFn fun j => if e j then w j else -w j) := by
  intro n
  induction n with
  | zero =>
    intro w g _
    simp [cornerLoop, flip]
  | succ n ih =>
    intro w g hw
    rw [List.ofFn_succ, pow_succ', cornerLoop_cons g (hw 0), ih (fun j => w j.succ) _ (fun j => hw _)]
    rw [← (Fin.consEquiv fun _ : Fin (n + 1) => Bool).sum_comp, Fintype.sum_prod_type, Fintype.sum_bool, Finset.sum_add_distrib, add_comm]
    congr 1 <;> refine Finset.sum_congr rfl fun e _ => ?_ <;> rw [List.ofFn_succ] <;> simp [Fin.consEquiv]

theorem sumCorners_eq (f : (Fin n → ℝ) → ℝ) (c w : Fin n → ℝ) (hw : ∀ j, 0 < w j) : sumCorners f c w = cornersU (fun u => f (pt c w u)) lambda5 := by
  have hl : 0 < lambda5 := Real.sqrt_pos.2 (by norm_num)
  unfold sumCorners cornersU
  have e : (List.finRange n).map (fun j => -lambda5 * w j) = List.ofFn fun j => -(lambda5 * w j) := by
    rw [List.ofFn_eq_map]
    simp only [neg_mul]
  rw [e, corners_eq n (fun j => lambda5 * w j) _ (fun j => mul_pos hl (hw j))]
  refine Finset.sum_congr rfl fun e _ => ?_
  congr 1
  funext j
  simp only [pt, List.getD_eq_getElem?_getD, List.getElem?_ofFn, j.2, dif_pos, Option.getD_some, Fin.eta]
  split_ifs <;> ring

/-- The rule in terms of the cube -/
theorem rule_eq (f : (Fin n → ℝ) → ℝ) (c w : Fin n → ℝ) (hw : ∀ j, 0 ≤ w j) : (rule f c w).1 = 2 ^ n * (∏ j, w j) * Q7 (fun u => f (pt c w u)) ∧
    (rule f c w).2.1 = |2 ^ n * (∏ j, w j) * Q7 (fun u => f (pt c w u)) - 2 ^ n * (∏ j, w j) * Q5 (fun u => f (pt c w u))| := by
  have hc : pt c w 0 = c := by
    funext j
    simp [pt]
  by_cases h : ∀ j, 0 < w j
  · unfold rule Q7 Q5
    simp only [sumAxes_eq, sumPairs_eq, sumCorners_eq f c w h, hc]
    constructor <;> trivial
  · push Not at h
    obtain ⟨j, hj⟩ := h
    have hz : ∏ j, w j = 0 := Finset.prod_eq_zero (Finset.mem_univ j) (le_antisymm hj (hw j))
    unfold rule
    simp [hz]

theorem axesU_add (F G : (Fin n → ℝ) → ℝ) (l : ℝ) : axesU (fun u => F u + G u) l = axesU F l + axesU G l := by
  unfold axesU
  rw [← Finset.sum_add_distrib]
  exact Finset.sum_congr rfl fun j _ => by ring

theorem pairsU_add (F G : (Fin n → ℝ) → ℝ) (l : ℝ) : pairsU (fun u => F u + G u) l = pairsU F l + pairsU G l := by
  unfold pairsU
  rw [← Finset.sum_add_distrib]
  refine Finset.sum_congr rfl fun j _ => ?_
  rw [← Finset.sum_add_distrib]
  exact Finset.sum_congr rfl fun k _ => by ring

theorem cornersU_add (F G : (Fin n → ℝ) → ℝ) (l : ℝ) : cornersU (fun u => F u + G u) l = cornersU F l + cornersU G l := by
  unfold cornersU
  rw [← Finset.sum_add_distrib]

theorem axesU_smul (a : ℝ) (F : (Fin n → ℝ) → ℝ) (l : ℝ) : axesU (fun u => a * F u) l = a * axesU F l := by
  unfold axesU
  rw [Finset.mul_sum]
  exact Finset.sum_congr rfl fun j _ => by ring

theorem pairsU_smul (a : ℝ) (F : (Fin n → ℝ) → ℝ) (l : ℝ) : pairsU (fun u => a * F u) l = a * pairsU F l := by
  unfold pairsU
  rw [Finset.mul_sum]
  refine Finset.sum_congr rfl fun j _ => ?_
  rw [Finset.mul_sum]
  exact Finset.sum_congr rfl fun k _ => by ring

theorem cornersU_smul (a : ℝ) (F : (Fin n → ℝ) → ℝ) (l : ℝ) : cornersU (fun u => a * F u) l = a * cornersU F l := by
  unfold cornersU
  rw [Finset.mul_sum]

theorem Q7_sum {ι : Type} (T : Finset ι) (a : ι → ℝ) (G : ι → (Fin n → ℝ) → ℝ) : Q7 (fun u => ∑ t ∈ T, a t * G t u) = ∑ t ∈ T, a t * Q7 (G t) := by
  classical
  induction T using Finset.induction with
  | empty => simp [Q7, axesU, pairsU, cornersU]
  | insert t T ht ih =>
    simp only [Finset.sum_insert ht]
    rw [← ih]
    unfold Q7
    rw [axesU_add, axesU_add, pairsU_add, cornersU_add, axesU_smul, axesU_smul, pairsU_smul, cornersU_smul]
    ring

theorem Q5_sum {ι : Type} (T : Finset ι) (a : ι → ℝ) (G : ι → (Fin n → ℝ) → ℝ) : Q5 (fun u => ∑ t ∈ T, a t * G t u) = ∑ t ∈ T, a t * Q5 (G t) := by
  classical
  induction T using Finset.induction with
  | empty => simp [Q5, axesU, pairsU]
  | insert t T ht ih =>
    simp only [Finset.sum_insert ht]
    rw [← ih]
    unfold Q5
    rw [axesU_add, axesU_add, pairsU_add, axesU_smul, axesU_smul, pairsU_smul]
    ring

/-- The coefficients of a power of a linear function -/
def coef (c w : ℝ) (s k : ℕ) : ℝ := w ^ k * c ^ (s - k) * (s.choose k : ℝ)

theorem pow_pt (c w u : ℝ) (s : ℕ) : (c + w * u) ^ s = ∑ k ∈ Finset.range (s + 1), coef c w s k * u ^ k := by
  rw [add_comm, add_pow]
  refine Finset.sum_congr rfl fun k _ => ?_
  unfold coef
  rw [mul_pow]
  ring

theorem mon_pt (c w : Fin n → ℝ) (s : Fin n → ℕ) (u : Fin n → ℝ) :
    mon s (pt c w u) = ∑ t ∈ Fintype.piFinset (fun j => Finset.range (s j + 1)), (∏ j, coef (c j) (w j) (s j) (t j)) * mon t u := by
  unfold mon pt
  simp only [pow_pt]
  rw [Finset.prod_univ_sum]
  refine Finset.sum_congr rfl fun t _ => ?_
  rw [← Finset.prod_mul_distrib]

theorem le_of_mem {s t : Fin n → ℕ} (ht : t ∈ Fintype.piFinset (fun j => Finset.range (s j + 1))) : ∑ j, t j ≤ ∑ j, s j :=
  Finset.sum_le_sum fun j _ => Nat.lt_succ_iff.1 (Finset.mem_range.1 (Fintype.mem_piFinset.1 ht j))

/-- The integral of a power -/
theorem integral_pow_pt (c w : ℝ) (s : ℕ) : ∫ x in (c - w)..(c + w), x ^ s = 2 * w * ∑ k ∈ Finset.range (s + 1), coef c w s k * mean k := by
  have h1 : ∫ x in (c - w)..(c + w), x ^ s = w * ∫ u in (-1 : ℝ)..1, (c + w * u) ^ s := by
    have := intervalIntegral.mul_integral_comp_mul_add (a := -1) (b := 1) (f := fun x : ℝ => x ^ s) w c
    rw [show w * (-1 : ℝ) + c = c - w by ring, show w * (1 : ℝ) + c = c + w by ring] at this
    rw [← this]
    simp only [add_comm c]
  have h2 : ∀ k : ℕ, ∫ u in (-1 : ℝ)..1, u ^ k = 2 * mean k := by
    intro k
    rw [integral_pow]
    unfold mean
    by_cases hk : Even k
    · rw [if_pos hk, (hk.add_one).neg_one_pow]
      simp
      ring
    · rw [if_neg hk, (Nat.not_even_iff_odd.1 hk).add_one.neg_one_pow]
      simp
  rw [h1]
  simp only [pow_pt]
  rw [intervalIntegral.integral_finsetSum (fun k _ => (Continuous.intervalIntegrable (by fun_prop) _ _))]
  simp only [intervalIntegral.integral_const_mul, h2]
  rw [mul_comm 2 w, mul_assoc, Finset.mul_sum _ _ (2 : ℝ)]
  congr 1
  exact Finset.sum_congr rfl fun k _ => by ring

theorem integral_box_mon (B : Box n) (hB : B.1 ≤ B.2) (s : Fin n → ℕ) :
    ∫ x in Set.Icc B.1 B.2, mon s x = 2 ^ n * (∏ j, B.half j) * ∏ j, ∑ k ∈ Finset.range (s j + 1), coef (B.mid j) (B.half j) (s j) k * mean k := by
  rw [← Set.pi_univ_Icc, volume_pi, Measure.restrict_pi_pi]
  unfold mon
  rw [integral_fintype_prod_eq_prod (fun j x => x ^ s j)]
  have : (2 : ℝ) ^ n = ∏ _j : Fin n, (2 : ℝ) := by simp
  rw [this, ← Finset.prod_mul_distrib, ← Finset.prod_mul_distrib]
  refine Finset.prod_congr rfl fun j _ => ?_
  rw [← integral_pow_pt, integral_Icc_eq_integral_Ioc, ← intervalIntegral.integral_of_le (hB j)]
  congr 1 <;> simp only [Box.mid, Box.half] <;> ring

theorem half_nonneg {B : Box n} (hB : B.1 ≤ B.2) (j : Fin n) : 0 ≤ B.half j := by
  have := hB j
  unfold Box.half
  linarith

theorem Q7_mon_pt (c w : Fin n → ℝ) (s : Fin n → ℕ) (hs : ∑ j, s j ≤ 7) : Q7 (fun u => mon s (pt c w u)) = ∏ j, ∑ k ∈ Finset.range (s j + 1), coef (c j) (w j) (s j) k * mean k := by
  rw [Finset.prod_univ_sum]
  simp only [mon_pt]
  rw [Q7_sum]
  refine Finset.sum_congr rfl fun t ht => ?_
  rw [Q7_mon t (le_trans (le_of_mem ht) hs), ← Finset.prod_mul_distrib]

theorem Q5_mon_pt (c w : Fin n → ℝ) (s : Fin n → ℕ) (hs : ∑ j, s j ≤ 5) : Q5 (fun u => mon s (pt c w u)) = ∏ j, ∑ k ∈ Finset.range (s j + 1), coef (c j) (w j) (s j) k * mean k := by
  rw [Finset.prod_univ_sum]
  simp only [mon_pt]
  rw [Q5_sum]
  refine Finset.sum_congr rfl fun t ht => ?_
  rw [Q5_mon t (le_trans (le_of_mem ht) hs), ← Finset.prod_mul_distrib]

theorem mon_continuous (s : Fin n → ℕ) : Continuous (mon s) := by
  unfold mon
  fun_prop

theorem eval_eq_mon (p : MvPolynomial (Fin n) ℝ) (x : Fin n → ℝ) : MvPolynomial.eval x p = ∑ d ∈ p.support, p.coeff d * mon d x := by
  rw [MvPolynomial.eval_eq']
  rfl

theorem degree_le (p : MvPolynomial (Fin n) ℝ) {d : Fin n →₀ ℕ} (hd : d ∈ p.support) : ∑ j, d j ≤ p.totalDegree := by
  have := MvPolynomial.le_totalDegree hd
  rwa [Finsupp.sum_fintype _ _ (fun _ => rfl)] at this

/-- Polynomials of degree up to 7 are integrated exactly -/
theorem boxVal_poly (p : MvPolynomial (Fin n) ℝ) (hp : p.totalDegree ≤ 7) (B : Box n) (hB : B.1 ≤ B.2) :
    boxVal (fun x => MvPolynomial.eval x p) B = ∫ x in Set.Icc B.1 B.2, MvPolynomial.eval x p := by
  unfold boxVal
  rw [(rule_eq _ _ _ (half_nonneg hB)).1]
  simp only [eval_eq_mon]
  rw [Q7_sum p.support (fun d => p.coeff d) (fun d u => mon d (pt B.mid B.half u)), integral_finsetSum]
  · rw [Finset.mul_sum]
    refine Finset.sum_congr rfl fun d hd => ?_
    rw [integral_const_mul, integral_box_mon B hB, Q7_mon_pt _ _ _ (le_trans (degree_le p hd) hp)]
    ring
  · intro d _
    exact ((continuous_const.mul (mon_continuous d)).continuousOn).integrableOn_compact isCompact_Icc

/-- The error estimate of polynomials of degree up to 5 is zero -/
theorem boxErr_poly (p : MvPolynomial (Fin n) ℝ) (hp : p.totalDegree ≤ 5) (B : Box n) (hB : B.1 ≤ B.2) : boxErr (fun x => MvPolynomial.eval x p) B = 0 := by
  unfold boxErr
  rw [(rule_eq _ _ _ (half_nonneg hB)).2]
  simp only [eval_eq_mon]
  rw [Q7_sum p.support (fun d => p.coeff d) (fun d u => mon d (pt B.mid B.half u)), Q5_sum p.support (fun d => p.coeff d) (fun d u => mon d (pt B.mid B.half u))]
  rw [Finset.sum_congr rfl fun d hd => by rw [Q7_mon_pt _ _ _ (le_trans (degree_le p hd) (by omega)), ← Q5_mon_pt _ _ _ (le_trans (degree_le p hd) hp)]]
  simp

/-- The integral over a box is the sum of those over the halves -/
theorem integral_cut (f : (Fin n → ℝ) → ℝ) (B : Box n) (hB : B.1 ≤ B.2) (hf : IntegrableOn f (Set.Icc B.1 B.2)) (j : Fin n) :
    ∫ x in Set.Icc B.1 B.2, f x = (∫ x in Set.Icc (B.lower j).1 (B.lower j).2, f x) + ∫ x in Set.Icc (B.upper j).1 (B.upper j).2, f x := by
  have hm1 : B.1 j ≤ B.mid j := by
    have := hB j
    unfold Box.mid
    linarith
  have hm2 : B.mid j ≤ B.2 j := by
    have := hB j
    unfold Box.mid
    linarith
  have hu : Set.Icc B.1 B.2 = Set.Icc (B.lower j).1 (B.lower j).2 ∪ Set.Icc (B.upper j).1 (B.upper j).2 := by
    ext x
    simp only [Set.mem_Icc, Set.mem_union, Box.lower, Box.upper]
    constructor
    · rintro ⟨h1, h2⟩
      rcases le_total (x j) (B.mid j) with h | h
      · left
        refine ⟨h1, fun i => ?_⟩
        by_cases hi : i = j
        · subst hi
          simpa using h
        · simpa [hi] using h2 i
      · right
        refine ⟨fun i => ?_, h2⟩
        by_cases hi : i = j
        · subst hi
          simpa using h
        · simpa [hi] using h1 i
    · rintro (⟨h1, h2⟩ | ⟨h1, h2⟩)
      · refine ⟨h1, fun i => ?_⟩
        have := h2 i
        by_cases hi : i = j
        · subst hi
          simp only [Function.update_self] at this
          linarith
        · simpa [hi] using this
      · refine ⟨fun i => ?_, h2⟩
        have := h1 i
        by_cases hi : i = j
        · subst hi
          simp only [Function.update_self] at this
          linarith
        · simpa [hi] using this
  rw [hu] at hf ⊢
  refine setIntegral_union₀ ?_ measurableSet_Icc.nullMeasurableSet (hf.mono_set Set.subset_union_left) (hf.mono_set Set.subset_union_right)
  refine measure_mono_null (t := {x : Fin n → ℝ | x j = B.mid j}) ?_ ?_
  · rintro x ⟨⟨_, h1⟩, ⟨h2, _⟩⟩
    have a := h1 j
    have b := h2 j
    simp only [Box.lower, Box.upper, Function.update_self] at a b
    exact le_antisymm a b
  · rw [volume_pi]
    exact Measure.pi_hyperplane _ j _

theorem lower_le {B : Box n} (hB : B.1 ≤ B.2) (j : Fin n) : (B.lower j).1 ≤ (B.lower j).2 ∧ Set.Icc (B.lower j).1 (B.lower j).2 ⊆ Set.Icc B.1 B.2 := by
  have hm := hB j
  refine ⟨fun i => ?_, Set.Icc_subset_Icc (le_refl _) fun i => ?_⟩ <;> by_cases hi : i = j
  · subst hi
    simp only [Box.lower, Function.update_self, Box.mid]
    linarith
  · simpa [Box.lower, hi] using hB i
  · subst hi
    simp only [Box.lower, Function.update_self, Box.mid]
    linarith
  · simp [Box.lower, hi]

theorem upper_le {B : Box n} (hB : B.1 ≤ B.2) (j : Fin n) : (B.upper j).1 ≤ (B.upper j).2 ∧ Set.Icc (B.upper j).1 (B.upper j).2 ⊆ Set.Icc B.1 B.2 := by
  have hm := hB j
  refine ⟨fun i => ?_, Set.Icc_subset_Icc (fun i => ?_) (le_refl _)⟩ <;> by_cases hi : i = j
  · subst hi
    simp only [Box.upper, Function.update_self, Box.mid]
    linarith
  · simpa [Box.upper, hi] using hB i
  · subst hi
    simp only [Box.upper, Function.update_self, Box.mid]
    linarith
  · simp [Box.upper, hi]

/-- The boxes of a run make up the first one -/
theorem run_total {val err : Box n → ℝ} {dif : Box n → Fin n → ℝ} {epsrel epsabs : ℝ} {m : ℕ} {S : ℕ → Multiset (Box n)} {B : ℕ → Box n} {ax : ℕ → Fin n}
    (hR : Run val err dif epsrel epsabs m S B ax) {a b : Fin n → ℝ} (hab : a ≤ b) (h0 : S 0 = {(a, b)}) : ∀ k, k ≤ m →
    (∀ C ∈ S k, C.1 ≤ C.2 ∧ Set.Icc C.1 C.2 ⊆ Set.Icc a b) ∧ (S k).card = k + 1 ∧
      ∀ f : (Fin n → ℝ) → ℝ, IntegrableOn f (Set.Icc a b) → total (fun C => ∫ x in Set.Icc C.1 C.2, f x) (S k) = ∫ x in Set.Icc a b, f x := by
  intro k
  induction k with
  | zero =>
    intro _
    rw [h0]
    refine ⟨fun C hC => ?_, by simp, fun f _ => by simp [total]⟩
    rw [Multiset.mem_singleton.1 hC]
    exact ⟨hab, le_refl _⟩
  | succ k ih =>
    intro hk
    obtain ⟨h1, h2, h3⟩ := ih (by omega)
    obtain ⟨⟨hm, _⟩, _, hc⟩ := hR.step k (by omega)
    obtain ⟨hle, hsub⟩ := h1 _ hm
    rw [hc]
    refine ⟨fun C hC => ?_, ?_, fun f hf => ?_⟩
    · unfold cut at hC
      rcases Multiset.mem_add.1 hC with hC | hC
      · exact h1 C (Multiset.mem_of_mem_erase hC)
      · rcases Multiset.mem_cons.1 hC with hC | hC
        · rw [hC]
          exact ⟨(lower_le hle _).1, (lower_le hle _).2.trans hsub⟩
        · rw [Multiset.mem_singleton.1 hC]
          exact ⟨(upper_le hle _).1, (upper_le hle _).2.trans hsub⟩
    · unfold cut
      have := Multiset.card_erase_of_mem hm
      simp [this, h2]
    · rw [total_cut _ hm, h3 f hf, integral_cut f (B k) hle (hf.mono_set hsub) (ax k)]
      ring

end

end Verif.GM
