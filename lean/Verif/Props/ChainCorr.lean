/-
C143: tables of chains and of correlations.
-/
import Verif.Model.ChainCorr
import Verif.Spec.ChainCorr
import Mathlib.Algebra.Order.BigOperators.Ring.Finset
import Mathlib.Data.List.ProdSigma
import Mathlib.Data.List.NodupEquivFin
import Mathlib.Tactic.Linarith
import Mathlib.Tactic.FieldSimp
import Mathlib.Tactic.NormNum

namespace Verif.ChainCorr

/-! ### Correlations -/

theorem mean_mul {m : ℕ} (hm : m ≠ 0) (x : Fin m → ℝ) : mean x * m = ∑ t, x t := by
  have : (m : ℝ) ≠ 0 := Nat.cast_ne_zero.2 hm
  unfold mean
  field_simp

theorem sq_nonneg_sum {m : ℕ} (x : Fin m → ℝ) (a : ℝ) : 0 ≤ ∑ t, (x t - a) ^ 2 :=
  Finset.sum_nonneg fun _ _ => sq_nonneg _

theorem pearson_iff {m : ℕ} (x y : Fin m → ℝ) (r : ℝ) : pearson x y = some r ↔ IsCorrelation x y r := by
  constructor
  · intro h
    unfold pearson at h
    split_ifs at h with h0
    have hr := Option.some.inj h
    have hm : m ≠ 0 := by
      rintro rfl
      apply h0
      simp
    have hx := sq_nonneg_sum x (mean x)
    have hy := sq_nonneg_sum y (mean y)
    have hx' : 0 < ∑ t, (x t - mean x) ^ 2 := by
      rcases hx.lt_or_eq with q | q
      · exact q
      · exact absurd (by rw [← q]; simp) h0
    have hy' : 0 < ∑ t, (y t - mean y) ^ 2 := by
      rcases hy.lt_or_eq with q | q
      · exact q
      · exact absurd (by rw [← q]; simp) h0
    refine ⟨mean x, mean y, mean_mul hm x, mean_mul hm y, hx', hy', ?_⟩
    rw [← Real.sqrt_mul hx, ← hr]
    field_simp
  · rintro ⟨a, b, ha, hb, hx, hy, h⟩
    have hm : m ≠ 0 := by
      rintro rfl
      simp at hx
    have hmr : (m : ℝ) ≠ 0 := Nat.cast_ne_zero.2 hm
    have ha' : mean x = a := by unfold mean; rw [← ha]; field_simp
    have hb' : mean y = b := by unfold mean; rw [← hb]; field_simp
    have hp : Real.sqrt ((∑ t, (x t - a) ^ 2) * ∑ t, (y t - b) ^ 2) ≠ 0 := (Real.sqrt_pos.2 (mul_pos hx hy)).ne'
    unfold pearson
    rw [ha', hb', if_neg hp, h, ← Real.sqrt_mul hx.le]
    field_simp

theorem sumsq_zero_iff {m : ℕ} (x : Fin m → ℝ) : ∑ t, (x t - mean x) ^ 2 = 0 ↔ Constant x := by
  rw [Finset.sum_eq_zero_iff_of_nonneg fun _ _ => sq_nonneg _]
  constructor
  · intro h s t
    have hs := pow_eq_zero_iff (two_ne_zero) |>.1 (h s (Finset.mem_univ _))
    have ht := pow_eq_zero_iff (two_ne_zero) |>.1 (h t (Finset.mem_univ _))
    linarith
  · intro h t _
    have hm : m ≠ 0 := by rintro rfl; exact t.elim0
    have hmr : (m : ℝ) ≠ 0 := Nat.cast_ne_zero.2 hm
    have : mean x = x t := by
      unfold mean
      rw [Finset.sum_congr rfl fun s _ => h s t]
      simp [hmr]
    rw [this]; simp

/-- **C143: no correlation only with a constant.** The table has no number for two parameters exactly when one of the chains is
constant (in particular when there is one sample or none). -/
theorem C143_missing_iff {m : ℕ} (x y : Fin m → ℝ) : pearson x y = none ↔ Constant x ∨ Constant y := by
  unfold pearson
  rw [← sumsq_zero_iff, ← sumsq_zero_iff]
  have h := mul_nonneg (sq_nonneg_sum x (mean x)) (sq_nonneg_sum y (mean y))
  split_ifs with h0
  · rw [Real.sqrt_eq_zero h, mul_eq_zero] at h0
    simp [h0]
  · rw [Real.sqrt_eq_zero h, mul_eq_zero] at h0
    simp [h0]

/-- **C143: correlations are correlations.** They are between -1 and 1, symmetric, 1 of a chain with itself. -/
theorem C143_correlation {m : ℕ} (x y : Fin m → ℝ) (r : ℝ) (h : pearson x y = some r) :
    IsCorrelation x y r ∧ -1 ≤ r ∧ r ≤ 1 ∧ pearson y x = some r ∧ pearson x x = some 1 := by
  have hc := (pearson_iff x y r).1 h
  refine ⟨hc, ?_⟩
  obtain ⟨a, b, ha, hb, hx, hy, hr⟩ := hc
  have hcs := Finset.sum_mul_sq_le_sq_mul_sq Finset.univ (fun t => x t - a) (fun t => y t - b)
  obtain ⟨P, hP⟩ : ∃ P, P = Real.sqrt (∑ t, (x t - a) ^ 2) := ⟨_, rfl⟩
  obtain ⟨Q, hQ⟩ : ∃ Q, Q = Real.sqrt (∑ t, (y t - b) ^ 2) := ⟨_, rfl⟩
  have hP2 : P ^ 2 = ∑ t, (x t - a) ^ 2 := by rw [hP, Real.sq_sqrt hx.le]
  have hQ2 : Q ^ 2 = ∑ t, (y t - b) ^ 2 := by rw [hQ, Real.sq_sqrt hy.le]
  have hPp : 0 < P := hP ▸ Real.sqrt_pos.2 hx
  have hQp : 0 < Q := hQ ▸ Real.sqrt_pos.2 hy
  rw [← hP, ← hQ] at hr
  rw [hr, ← hP2, ← hQ2] at hcs
  have hr2 : r ^ 2 ≤ 1 := by
    have hpq : 0 < (P * Q) ^ 2 := by positivity
    by_contra hcon
    push Not at hcon
    nlinarith
  refine ⟨by nlinarith, by nlinarith, ?_, ?_⟩
  · rw [pearson_iff]
    refine ⟨b, a, hb, ha, hy, hx, ?_⟩
    rw [← hP, ← hQ, Finset.sum_congr rfl fun t _ => mul_comm (y t - b) (x t - a), hr]
    ring
  · rw [pearson_iff]
    refine ⟨a, a, ha, ha, hx, hx, ?_⟩
    rw [Finset.sum_congr rfl fun t _ => (sq (x t - a)).symm, ← hP, ← hP2]
    ring

/-- **C143: units do not matter.** Rescaling and shifting a chain by a positive factor changes no correlation; a negative factor changes
its sign. -/
theorem C143_affine {m : ℕ} (x y : Fin m → ℝ) (r c d : ℝ) (h : pearson x y = some r) :
    (0 < c → pearson (fun t => c * x t + d) y = some r) ∧ (c < 0 → pearson (fun t => c * x t + d) y = some (-r)) := by
  obtain ⟨a, b, ha, hb, hx, hy, hr⟩ := (pearson_iff x y r).1 h
  have hs : ∑ t, (c * x t + d - (c * a + d)) ^ 2 = c ^ 2 * ∑ t, (x t - a) ^ 2 := by
    rw [Finset.mul_sum]
    exact Finset.sum_congr rfl fun t _ => by ring
  have hp : ∑ t, (c * x t + d - (c * a + d)) * (y t - b) = c * ∑ t, (x t - a) * (y t - b) := by
    rw [Finset.mul_sum]
    exact Finset.sum_congr rfl fun t _ => by ring
  have hm : (c * a + d) * m = ∑ t, (c * x t + d) := by
    rw [Finset.sum_add_distrib, ← Finset.mul_sum, ← ha]
    simp
    ring
  have hsq : Real.sqrt (c ^ 2 * ∑ t, (x t - a) ^ 2) = |c| * Real.sqrt (∑ t, (x t - a) ^ 2) := by
    rw [Real.sqrt_mul (sq_nonneg c), Real.sqrt_sq_eq_abs]
  constructor
  · intro hc
    rw [pearson_iff]
    refine ⟨c * a + d, b, hm, hb, by rw [hs]; positivity, hy, ?_⟩
    rw [hs, hp, hr, hsq, abs_of_pos hc]
    ring
  · intro hc
    rw [pearson_iff]
    refine ⟨c * a + d, b, hm, hb, by rw [hs]; have := hc.ne; positivity, hy, ?_⟩
    rw [hs, hp, hr, hsq, abs_of_neg hc]
    ring

/-! ### The table of pairs -/

/-- the rows kept -/
def keep {A : Type} (row : A × Option ℝ) : Option (A × ℝ) := row.2.map fun v => (row.1, v)

theorem keep_map_snd {A : Type} (l : List (A × Option ℝ)) : (l.filterMap keep).map Prod.snd = l.filterMap Prod.snd := by
  induction l with
  | nil => rfl
  | cons x l ih =>
    obtain ⟨a, o⟩ := x
    cases o with
    | none =>
      rw [List.filterMap_cons_none (by rfl), List.filterMap_cons_none (by rfl)]
      exact ih
    | some v =>
      rw [List.filterMap_cons_some (b := (a, v)) (by rfl), List.filterMap_cons_some (b := v) (by rfl)]
      simp [ih]

theorem keep_map_fst {A : Type} (l : List (A × Option ℝ)) : ((l.filterMap keep).map Prod.fst).Sublist (l.map Prod.fst) := by
  induction l with
  | nil => exact List.Sublist.slnil
  | cons x l ih =>
    obtain ⟨a, o⟩ := x
    cases o with
    | none =>
      rw [List.filterMap_cons_none (by rfl)]
      exact ih.trans (List.sublist_cons_self _ _)
    | some v =>
      rw [List.filterMap_cons_some (b := (a, v)) (by rfl)]
      exact ih.cons₂ _

theorem unstacked_fst {m : ℕ} (cols : List (String × (Fin m → ℝ))) (absval : Bool) :
    (unstacked cols absval).map Prod.fst = (cols.map Prod.fst) ×ˢ (cols.map Prod.fst) := by
  have h : ∀ (c : String), cols.zipIdx.map (fun r => (c, r.1.1)) = (cols.map Prod.fst).map (Prod.mk c) := by
    intro c
    conv_rhs => rw [← List.zipIdx_map_fst 0 cols]
    simp only [List.map_map, Function.comp_def]
  have h2 : ∀ L : List (String × String), cols.zipIdx.flatMap (fun c => (cols.map Prod.fst).map (Prod.mk c.1.1)) =
      (cols.map Prod.fst) ×ˢ (cols.map Prod.fst) := by
    intro _
    show _ = (cols.map Prod.fst).flatMap fun a => (cols.map Prod.fst).map (Prod.mk a)
    conv_rhs => rw [List.flatMap_map]; rw [← List.zipIdx_map_fst 0 cols, List.flatMap_map]
    simp [List.map_map, Function.comp_def]
  unfold unstacked
  rw [List.map_flatMap]
  simp only [List.map_map, Function.comp_def]
  simp only [h]
  exact h2 []

theorem mem_unstacked {m : ℕ} (cols : List (String × (Fin m → ℝ))) (absval : Bool) (p : String × String) (v : ℝ) :
    (p, some v) ∈ unstacked cols absval ↔ ∃ (i j : ℕ) (hij : i < j) (hj : j < cols.length),
      p = ((cols[i]'(hij.trans hj)).1, cols[j].1) ∧
      ∃ r, pearson (cols[i]'(hij.trans hj)).2 cols[j].2 = some r ∧ v = if absval then |r| else r := by
  unfold unstacked
  simp only [List.mem_flatMap, List.mem_map, Prod.mk.injEq]
  constructor
  · rintro ⟨c, hc, r, hr, rfl, hv⟩
    obtain ⟨ci, hci, rfl⟩ : ∃ (i : ℕ) (hi : i < cols.length), c = (cols[i], i) := by
      obtain ⟨c1, c2⟩ := c
      rw [List.mem_zipIdx_iff_getElem?] at hc
      obtain ⟨h1, h2⟩ := List.getElem?_eq_some_iff.1 hc
      dsimp only at h1 h2
      exact ⟨c2, h1, by rw [h2]⟩
    obtain ⟨ri, hri, rfl⟩ : ∃ (i : ℕ) (hi : i < cols.length), r = (cols[i], i) := by
      obtain ⟨c1, c2⟩ := r
      rw [List.mem_zipIdx_iff_getElem?] at hr
      obtain ⟨h1, h2⟩ := List.getElem?_eq_some_iff.1 hr
      dsimp only at h1 h2
      exact ⟨c2, h1, by rw [h2]⟩
    dsimp only at hv
    split_ifs at hv with h0
    all_goals
      rw [Option.map_eq_some_iff] at hv
      obtain ⟨r, h1, h2⟩ := hv
      exact ⟨ci, ri, by omega, hri, rfl, r, h1, by simp_all⟩
  · rintro ⟨i, j, hij, hj, rfl, r, hr, rfl⟩
    refine ⟨(cols[i]'(hij.trans hj), i), ?_, (cols[j], j), ?_, rfl, ?_⟩
    · rw [List.mem_zipIdx_iff_getElem?]; simp
    · rw [List.mem_zipIdx_iff_getElem?]; simp [hj]
    · rw [if_neg (by simpa using hij), hr]
      rfl

/-- **C143: every pair once, in order.** The rows of the table of pairs are exactly the pairs of columns (the one that comes first named
first) with their correlation, or its absolute value if that is asked for; a pair is left out only if one of the chains is constant
(`C143_missing_iff`); the numbers never increase; and no pair is listed twice if the labels are different. -/
theorem C143_pairs {m : ℕ} (sort : List Row → List Row) (hs : SortsDown sort) (cols : List (String × (Fin m → ℝ))) (absval : Bool) :
    (∀ a b v, ((a, b), v) ∈ sorted1d sort cols absval ↔ ∃ (i j : ℕ) (hij : i < j) (hj : j < cols.length),
      a = (cols[i]'(hij.trans hj)).1 ∧ b = cols[j].1 ∧
      ∃ r, IsCorrelation (cols[i]'(hij.trans hj)).2 cols[j].2 r ∧ v = if absval then |r| else r) ∧
    ((sorted1d sort cols absval).map Prod.snd).Pairwise (· ≥ ·) ∧
    ((cols.map Prod.fst).Nodup → ((sorted1d sort cols absval).map Prod.fst).Nodup) := by
  obtain ⟨hperm, hdown⟩ := hs (unstacked cols absval)
  have hdef : sorted1d sort cols absval = (sort (unstacked cols absval)).filterMap keep := rfl
  refine ⟨?_, ?_, ?_⟩
  · intro a b v
    rw [hdef, List.mem_filterMap]
    have : (∃ x ∈ sort (unstacked cols absval), keep x = some ((a, b), v)) ↔ ((a, b), some v) ∈ unstacked cols absval := by
      constructor
      · rintro ⟨⟨p, o⟩, hx, hk⟩
        simp only [keep, Option.map_eq_some_iff, Prod.mk.injEq] at hk
        obtain ⟨u, rfl, hp, rfl⟩ := hk
        rw [← hp]
        exact hperm.mem_iff.1 hx
      · intro hx
        exact ⟨_, hperm.mem_iff.2 hx, rfl⟩
    rw [this, mem_unstacked]
    simp only [Prod.mk.injEq, pearson_iff, and_assoc]
  · rw [hdef, keep_map_snd]
    exact hdown
  · intro hn
    rw [hdef]
    refine (keep_map_fst _).nodup ?_
    rw [(hperm.map Prod.fst).nodup_iff, unstacked_fst]
    exact hn.product hn

/-! ### The columns -/

theorem put_new {A : Type} (k : String) (v : A) (d : List (String × A)) (h : k ∉ d.map Prod.fst) : put k v d = d ++ [(k, v)] := by
  induction d with
  | nil => rfl
  | cons x d ih =>
    obtain ⟨k', v'⟩ := x
    simp only [List.map_cons, List.mem_cons, not_or] at h
    simp only [put, if_neg (Ne.symm h.1), ih h.2, List.cons_append]

theorem fill_new {A : Type} (trace : String → A) (labels tex : List (String × String)) (latex : Bool) (ps names : List String) :
    ∀ d : List (String × A), (d.map Prod.fst ++ (names.filter (wanted ps)).map (label labels tex latex)).Nodup →
      fill trace labels tex latex ps d names =
        d ++ (names.filter (wanted ps)).map (fun p => (label labels tex latex p, trace p)) := by
  induction names with
  | nil => intro d _; simp [fill]
  | cons p names ih =>
    intro d h
    simp only [fill]
    by_cases hp : wanted ps p = true
    · simp only [List.filter_cons_of_pos hp, List.map_cons] at h ⊢
      rw [if_pos hp, put_new, ih]
      · simp
      · simpa using h
      · intro hm
        rw [List.nodup_append] at h
        exact h.2.2 _ hm _ List.mem_cons_self rfl
    · rw [List.filter_cons_of_neg hp] at h ⊢
      rw [if_neg hp]
      exact ih d h

/-- **C143: the columns (partial).** When the labels of the parameters asked for are all different, the table has exactly their chains, the
free parameters first, each under its own label. Missing: equal labels (`C143_label_counterexample`). -/
theorem C143_columns_partial {A : Type} (free con : List String) (trace : String → A) (tex : List (String × String)) (sel : Sel)
    (labels : List (String × String)) (latex : Bool)
    (hl : (((free ++ con).filter (wanted (sel.names free con))).map (label labels tex latex)).Nodup) :
    chains free con trace tex sel labels latex =
      ((free ++ con).filter (wanted (sel.names free con))).map (fun p => (label labels tex latex p, trace p)) := by
  rw [List.filter_append, List.map_append] at hl
  unfold chains
  rw [fill_new _ _ _ _ _ free [] (by simpa using (List.nodup_append.1 hl).1)]
  rw [fill_new]
  · simp
  · simpa [List.map_map, Function.comp_def] using hl

/-- **C143: which parameters.** The default asks for all parameters, a name for that one, a nonempty list for the names in it, 'free' and
'constrained' for those, provided there are any. -/
theorem C143_asked (free con : List String) (hf : free ≠ []) (hc : con ≠ []) (hd : (free ++ con).Nodup) :
    ((free ++ con).filter (wanted (Sel.names free con (.many []))) = free ++ con) ∧
    (∀ p ∈ free ++ con, (free ++ con).filter (wanted (Sel.names free con (.one p))) = [p]) ∧
    (∀ ps, ps ≠ [] → ∀ p, p ∈ (free ++ con).filter (wanted (Sel.names free con (.many ps))) ↔ p ∈ ps ∧ p ∈ free ++ con) ∧
    ((free ++ con).filter (wanted (Sel.names free con .free)) = free) ∧
    ((free ++ con).filter (wanted (Sel.names free con .constrained)) = con) := by
  have hw : ∀ ps : List String, ps ≠ [] → ∀ p, wanted ps p = true ↔ p ∈ ps := by
    intro ps hps p
    cases ps with
    | nil => exact absurd rfl hps
    | cons a l => simp [wanted]
  have hdis : ∀ p ∈ free, p ∉ con := fun p hp hq => (List.nodup_append.1 hd).2.2 p hp p hq rfl
  refine ⟨?_, ?_, ?_, ?_, ?_⟩
  · exact List.filter_eq_self.2 fun p _ => rfl
  · intro p hp
    have : (free ++ con).filter (wanted (Sel.names free con (.one p))) = (free ++ con).filter (fun q => q == p) := by
      refine List.filter_congr fun q _ => ?_
      by_cases h : q = p <;> simp [Sel.names, wanted, h]
    rw [this, List.filter_beq, List.count_eq_one_of_mem hd hp]
    rfl
  · intro ps hps p
    rw [List.mem_filter, Sel.names, hw ps hps]
    exact and_comm
  · show (free ++ con).filter (wanted free) = free
    rw [List.filter_append, List.filter_eq_self.2 fun p hp => (hw free hf p).2 hp, List.filter_eq_nil_iff.2, List.append_nil]
    intro p hp hq
    exact hdis p ((hw free hf p).1 hq) hp
  · show (free ++ con).filter (wanted con) = con
    rw [List.filter_append, (List.filter_eq_self (l := con)).2 fun p hp => (hw con hc p).2 hp, List.filter_eq_nil_iff.2, List.nil_append]
    intro p hp hq
    exact hdis p hp ((hw con hc p).1 hq)

/-- The shipped latex names are all different, and none is the name of a parameter that has one: labels of the shipped parameters never
clash. -/
theorem C143_tex_names : (texNames.map Prod.snd).Nodup ∧ ∀ x ∈ texNames, x.2 ∉ texNames.map Prod.fst := by decide +kernel

/-- A concrete table. -/
theorem C143_case : chains ["b1", "f"] ["fsigma8"] (fun p => p.length) texNames (.many ["fsigma8", "f"]) [("f", "growth")] true =
    [("growth", 1), ("$f \\sigma_8$", 7)] := by decide +kernel

/-- a chain of three samples with its double: correlation 1 -/
example : pearson (fun t : Fin 3 => (t : ℝ)) (fun t : Fin 3 => 2 * (t : ℝ) + 5) = some 1 := by
  have h0 : pearson (fun t : Fin 3 => (t : ℝ)) (fun t : Fin 3 => (t : ℝ)) = some 1 := by
    rw [pearson_iff]
    refine ⟨1, 1, ?_, ?_, ?_, ?_, ?_⟩
    all_goals simp [Fin.sum_univ_three]
    all_goals norm_num
  have h1 := (C143_affine _ _ _ 2 5 h0).1 (by norm_num)
  exact (C143_correlation _ _ _ h1).2.2.2.1

/-- decreasing order with nan last -/
def downRel {A : Type} (a b : A × Option ℝ) : Prop :=
  match a.2, b.2 with
  | some x, some y => x ≥ y
  | some _, none => True
  | none, some _ => False
  | none, none => True

open Classical in
/-- There are sorts as assumed: the hypothesis of `C143_pairs` is met. -/
example {A : Type} : ∃ sort : List (A × Option ℝ) → List (A × Option ℝ), SortsDown sort := by
  have ht : ∀ a b : A × Option ℝ, downRel a b ∨ downRel b a := by
    rintro ⟨a, x⟩ ⟨b, y⟩
    cases x <;> cases y <;> simp [downRel, le_total]
  have htr : ∀ a b c : A × Option ℝ, downRel a b → downRel b c → downRel a c := by
    rintro ⟨a, x⟩ ⟨b, y⟩ ⟨c, z⟩
    cases x <;> cases y <;> cases z <;> simp [downRel]
    intro h1 h2
    linarith
  haveI : Std.Total (α := A × Option ℝ) downRel := ⟨ht⟩
  haveI : IsTrans (A × Option ℝ) downRel := ⟨htr⟩
  refine ⟨List.insertionSort downRel, fun l => ⟨List.perm_insertionSort _ l, ?_⟩⟩
  rw [List.pairwise_filterMap]
  refine (List.pairwise_insertionSort downRel l).imp ?_
  rintro ⟨a, x⟩ ⟨b, y⟩ h u hu v hv
  dsimp only at hu hv
  subst hu hv
  exact h

/-- Asking for the constrained parameters of a fit that has none gives the free ones. -/
theorem C143_constrained_counterexample :
    chains ["b1", "f"] [] (fun p => p.length) texNames .constrained [] false = [("b1", 2), ("f", 1)] := by decide +kernel

/-- Two parameters given the same label share one column, with the chain of the second: the first is lost without a word. -/
theorem C143_label_counterexample :
    chains ["b1_cA", "f"] ["b1"] (fun p => p.length) texNames (.many []) [("b1_cA", "bias"), ("b1", "bias")] false =
      [("bias", 2), ("f", 1)] := by decide +kernel

end Verif.ChainCorr
