import Verif.Props.Plot1D
import Mathlib.Algebra.BigOperators.Ring.List
import Mathlib.Algebra.BigOperators.Intervals

/-!
# C146: the curves of the one-dimensional posteriors
-/

namespace Verif.Plot1D

open Classical

/-! ### The histogram -/

theorem edges {t : List ℝ} (ht : t ≠ []) : first t < last t ∧ ∀ x ∈ t, first t ≤ x ∧ x ≤ last t := by
  have hm := least_le (most_mem ht)
  unfold first last
  by_cases h : least t = most t
  · rw [if_pos h, if_pos h]
    refine ⟨by linarith, fun x hx => ⟨?_, ?_⟩⟩
    · have := least_le hx; linarith
    · have := le_most hx; linarith
  · rw [if_neg h, if_neg h]
    exact ⟨lt_of_le_of_ne hm h, fun x hx => ⟨least_le hx, le_most hx⟩⟩

theorem edge_lt {t : List ℝ} (ht : t ≠ []) {n : ℕ} (hn : 0 < n) {i j : ℕ} (hij : i < j) : edge t n i < edge t n j := by
  have hw : 0 < (last t - first t) / n := div_pos (by linarith [(edges ht).1]) (by exact_mod_cast hn)
  have : (i : ℝ) < j := by exact_mod_cast hij
  unfold edge
  have := mul_lt_mul_of_pos_right this hw
  linarith

theorem edge_le {t : List ℝ} (ht : t ≠ []) {n : ℕ} (hn : 0 < n) {i j : ℕ} (hij : i ≤ j) : edge t n i ≤ edge t n j := by
  rcases hij.eq_or_lt with rfl | h
  · exact le_refl _
  · exact (edge_lt ht hn h).le

theorem edge_last {t : List ℝ} {n : ℕ} (hn : 0 < n) : edge t n n = last t := by
  have : (n : ℝ) ≠ 0 := by exact_mod_cast hn.ne'
  unfold edge; field_simp; ring

/-- C146: every sample is in exactly one bin. -/
theorem C146_one_bin {t : List ℝ} {n : ℕ} (hn : 0 < n) {x : ℝ} (hx : x ∈ t) : ∃ j, j < n ∧ holds t n j x ∧ ∀ i < n, holds t n i x → i = j := by
  have ht : t ≠ [] := List.ne_nil_of_mem hx
  obtain ⟨h1, h2⟩ := edges ht
  obtain ⟨h3, h4⟩ := h2 x hx
  have huniq : ∀ i j, i < n → j < n → holds t n i x → holds t n j x → i < j → False := by
    intro i j hi hj ha hb hij
    rcases ha.2 with h | ⟨h, -⟩
    · exact absurd (h.trans_le (edge_le ht hn (Nat.succ_le_of_lt hij))) (not_lt.mpr hb.1)
    · omega
  have hex : ∃ j, j < n ∧ holds t n j x := by
    by_contra hno
    push Not at hno
    have hall : ∀ j, j ≤ n - 1 → edge t n j ≤ x := by
      intro j
      induction j with
      | zero => intro _; simp [edge]; exact h3
      | succ j ih =>
        intro hj
        have hj' := ih (by omega)
        have := hno j (by omega)
        unfold holds at this
        push Not at this
        exact (this hj').1
    exact hno (n - 1) (by omega) ⟨hall _ le_rfl, Or.inr ⟨by omega, by rw [edge_last hn]; exact h4⟩⟩
  obtain ⟨j, hj, hh⟩ := hex
  refine ⟨j, hj, hh, fun i hi hi' => ?_⟩
  rcases lt_trichotomy i j with h | h | h
  · exact absurd h fun h => huniq i j hi hj hi' hh h
  · exact h
  · exact absurd h fun h => huniq j i hj hi hh hi' h

theorem sum_range_list (n : ℕ) (f : ℕ → ℝ) : ((List.range n).map f).sum = ∑ j ∈ Finset.range n, f j := by
  induction n with
  | zero => simp
  | succ n ih => rw [List.range_succ, List.map_append, List.sum_append, ih, Finset.sum_range_succ]; simp

theorem whist_sum_aux {H : ℕ → ℝ → Prop} (n : ℕ) : ∀ {l : List (ℝ × ℝ)}, (∀ p ∈ l, ∃ j, j < n ∧ H j p.1 ∧ ∀ i < n, H i p.1 → i = j) →
    ((List.range n).map fun j => (l.map fun p => if H j p.1 then p.2 else 0).sum).sum = (l.map Prod.snd).sum
  | [], _ => by simp
  | p :: l, h => by
    have ih := whist_sum_aux n (l := l) fun q hq => h q (List.mem_cons_of_mem _ hq)
    obtain ⟨j, hj, hH, hu⟩ := h p List.mem_cons_self
    simp only [List.map_cons, List.sum_cons]
    rw [List.sum_map_add, ih, sum_range_list]
    congr 1
    rw [Finset.sum_eq_single j]
    · rw [if_pos hH]
    · intro i hi hij
      rw [if_neg fun hc => hij (hu i (Finset.mem_range.mp hi) hc)]
    · intro hc; exact absurd (Finset.mem_range.mpr hj) hc

/-- C146: no weight is lost and none is counted twice. -/
theorem C146_weights {t w : List ℝ} (hw : t.length = w.length) {n : ℕ} (hn : 0 < n) : (whist t n w).sum = w.sum := by
  unfold whist
  rw [whist_sum_aux n]
  · rw [List.map_snd_zip (by omega)]
  · intro p hp
    exact C146_one_bin hn (List.of_mem_zip hp).1

theorem hist_get {t : List ℝ} {n j : ℕ} (hj : j < n) : (hist t n).getD j 0 = ((t.filter fun x => decide (holds t n j x)).length : ℝ) := by
  have haux : ∀ l : List ℝ, ((l.zip (l.map fun _ => (1 : ℝ))).map fun p => if holds t n j p.1 then p.2 else 0).sum = ((l.filter fun x => decide (holds t n j x)).length : ℝ) := by
    intro l
    induction l with
    | nil => simp
    | cons x l ih =>
      simp only [List.map_cons, List.zip_cons_cons, List.sum_cons, ih]
      by_cases hx : holds t n j x
      · rw [if_pos hx, List.filter_cons_of_pos (by simpa using hx)]
        push_cast [List.length_cons]; ring
      · rw [if_neg hx, List.filter_cons_of_neg (by simpa using hx)]; ring
  rw [List.getD_eq_getElem _ _ (by simp [hist, whist, hj])]
  simp only [hist, whist, List.getElem_map, List.getElem_range]
  exact haux t

/-- C146: the histogram has a bin for each number of bins asked, its entries are the numbers of samples between the edges, and they add up to the number of samples. -/
theorem C146_histogram (t : List ℝ) {n : ℕ} (hn : 0 < n) :
    (hist t n).length = n ∧ (hist t n).sum = t.length ∧ ∀ j < n, (hist t n).getD j 0 = ((t.filter fun x => decide (holds t n j x)).length : ℝ) := by
  refine ⟨by simp [hist, whist], ?_, fun j hj => hist_get hj⟩
  rw [hist, C146_weights (by simp) hn]
  simp

theorem hist_first {t : List ℝ} (ht : t ≠ []) (hv : least t ≠ most t) {n : ℕ} (hn : 0 < n) : 1 ≤ (hist t n).getD 0 0 := by
  rw [hist_get hn]
  have hmem : least t ∈ t.filter fun x => decide (holds t n 0 x) := by
    rw [List.mem_filter]
    refine ⟨least_mem ht, ?_⟩
    have hf : edge t n 0 = least t := by simp [edge, first, hv]
    simp only [decide_eq_true_eq]
    exact ⟨hf.le, Or.inl (by rw [← hf]; exact edge_lt ht hn (by omega))⟩
  have := List.length_pos_of_mem hmem
  exact_mod_cast this

/-! ### The curves -/

/-- An interpolation goes through its knots -/
def Good (I : Interp) : Prop := ∀ c h : List ℝ, c.length = h.length → 4 ≤ c.length → (∀ i j, i < j → j < c.length → c.getD i 0 < c.getD j 0) →
  ∀ i < c.length, I c h (c.getD i 0) = h.getD i 0

theorem centers_get {t : List ℝ} {n j : ℕ} (hj : j < n) : (centers t n).getD j 0 = 0.5 * (edge t n (j + 1) + edge t n j) := by
  rw [List.getD_eq_getElem _ _ (by simp [centers, hj])]
  simp [centers]

theorem headD_getD (l : List ℝ) : l.headD 0 = l.getD 0 0 := by cases l <;> rfl

theorem getLastD_getD (l : List ℝ) : l.getLastD 0 = l.getD (l.length - 1) 0 := by
  rcases List.eq_nil_or_concat l with rfl | ⟨l', x, rfl⟩
  · rfl
  · simp

/-- C146: the curve of a parameter that varies, with at least four bins: its height is one, and it is reached; it starts at the centre of the first bin and ends at that of the last, at ten points
for each bin, in increasing order; and there its heights are as the numbers of samples in these bins. -/
theorem C146_curve {I : Interp} (hI : Good I) {t : List ℝ} (ht : t ≠ []) (hv : least t ≠ most t) {n : ℕ} (hn : 4 ≤ n) :
    ∃ g v, posterior I t n = some (g, v) ∧ g.length = 10 * n ∧ v.length = 10 * n ∧ (∀ i j, i < j → j < 10 * n → g.getD i 0 < g.getD j 0) ∧
      (∀ x ∈ g, least t ≤ x ∧ x ≤ most t) ∧ (∀ y ∈ v, y ≤ 1) ∧ 1 ∈ v ∧
      ∃ M > 0, g.getD 0 0 = (centers t n).getD 0 0 ∧ g.getD (10 * n - 1) 0 = (centers t n).getD (n - 1) 0 ∧
        v.getD 0 0 = (hist t n).getD 0 0 / M ∧ v.getD (10 * n - 1) 0 = (hist t n).getD (n - 1) 0 / M ∧
        ∀ i < 10 * n, v.getD i 0 = I (centers t n) (hist t n) (g.getD i 0) / M := by
  have hcl : (centers t n).length = n := by simp [centers]
  have hhl : (hist t n).length = n := by simp [hist, whist]
  obtain ⟨c0, hc0⟩ : ∃ c0, c0 = (centers t n).getD 0 0 := ⟨_, rfl⟩
  obtain ⟨c1, hc1⟩ : ∃ c1, c1 = (centers t n).getD (n - 1) 0 := ⟨_, rfl⟩
  have hcinc : ∀ i j, i < j → j < (centers t n).length → (centers t n).getD i 0 < (centers t n).getD j 0 := by
    intro i j hij hj
    rw [hcl] at hj
    rw [centers_get (by omega), centers_get hj]
    have a := edge_lt ht (by omega : 0 < n) hij
    have b := edge_lt ht (by omega : 0 < n) (by omega : i + 1 < j + 1)
    linarith
  have hlt : c0 < c1 := by rw [hc0, hc1]; exact hcinc 0 (n - 1) (by omega) (by omega)
  obtain ⟨g, hg⟩ : ∃ g, g = linspace c0 c1 (n * 10) := ⟨_, rfl⟩
  have hgl : g.length = 10 * n := by rw [hg, linspace_length]; omega
  have hgget : ∀ i < 10 * n, g.getD i 0 = c0 + i * ((c1 - c0) / ((n * 10 - 1 : ℕ) : ℝ)) := by
    intro i hi; rw [hg, linspace_get (by omega) (by omega)]
  have hNpos : (0 : ℝ) < ((n * 10 - 1 : ℕ) : ℝ) := by
    have : 0 < n * 10 - 1 := by omega
    exact_mod_cast this
  have hstep : 0 < (c1 - c0) / ((n * 10 - 1 : ℕ) : ℝ) := div_pos (by linarith) hNpos
  obtain ⟨u, hu⟩ : ∃ u, u = g.map (I (centers t n) (hist t n)) := ⟨_, rfl⟩
  have hul : u.length = 10 * n := by rw [hu, List.length_map, hgl]
  have huget : ∀ i < 10 * n, u.getD i 0 = I (centers t n) (hist t n) (g.getD i 0) := by
    intro i hi
    rw [List.getD_eq_getElem _ _ (by omega), List.getD_eq_getElem _ _ (by omega)]
    simp [hu]
  have hg0 : g.getD 0 0 = c0 := by rw [hgget 0 (by omega)]; simp
  have hg1 : g.getD (10 * n - 1) 0 = c1 := by
    rw [hgget _ (by omega), show (10 * n - 1 : ℕ) = n * 10 - 1 by omega]
    field_simp
    ring
  have hu0 : u.getD 0 0 = (hist t n).getD 0 0 := by
    rw [huget 0 (by omega), hg0, hc0]; exact hI _ _ (by rw [hcl, hhl]) (by omega) hcinc 0 (by omega)
  have hu1 : u.getD (10 * n - 1) 0 = (hist t n).getD (n - 1) 0 := by
    rw [huget _ (by omega), hg1, hc1]; exact hI _ _ (by rw [hcl, hhl]) (by omega) hcinc _ (by omega)
  have hune : u ≠ [] := by
    intro h; rw [h] at hul; simp at hul; omega
  have hM : 0 < most u := by
    have h1 : u.getD 0 0 ∈ u := by rw [List.getD_eq_getElem _ _ (by omega)]; exact List.getElem_mem _
    have := le_most h1
    rw [hu0] at this
    have := hist_first ht hv (by omega : 0 < n)
    linarith
  have hcub : cubic I (hist t n) (centers t n) = some (u, g) := by
    unfold cubic
    rw [if_neg (by omega), headD_getD, getLastD_getD, hcl, ← hc0, ← hc1, ← hg, ← hu]
  have hvget : ∀ i < 10 * n, (u.map (· / most u)).getD i 0 = u.getD i 0 / most u := by
    intro i hi
    rw [List.getD_eq_getElem _ _ (by rw [List.length_map]; omega), List.getD_eq_getElem _ _ (by omega)]
    simp
  refine ⟨g, u.map (· / most u), by simp [posterior, hcub], hgl, by rw [List.length_map, hul], ?_, ?_, ?_, ?_, most u, hM, hg0.trans hc0, hg1.trans hc1, ?_, ?_, ?_⟩
  · intro i j hij hj
    rw [hgget i (by omega), hgget j hj]
    have : (i : ℝ) < j := by exact_mod_cast hij
    have := mul_lt_mul_of_pos_right this hstep
    linarith
  · intro x hx
    obtain ⟨i, hi, rfl⟩ := List.getElem_of_mem hx
    have h2 := hgget i (by omega)
    rw [List.getD_eq_getElem _ _ hi] at h2
    have hc0' : least t ≤ c0 := by
      rw [hc0, centers_get (by omega)]
      have a := edge_lt ht (by omega : 0 < n) (show 0 < 0 + 1 by omega)
      have hf : edge t n 0 = least t := by simp [edge, first, hv]
      rw [hf] at a ⊢
      linarith
    have hc1' : c1 ≤ most t := by
      rw [hc1, centers_get (by omega)]
      have a := edge_lt ht (by omega : 0 < n) (show n - 1 < n by omega)
      have hf : edge t n n = most t := by rw [edge_last (by omega)]; simp [last, hv]
      rw [Nat.sub_add_cancel (by omega)]
      rw [hf] at a ⊢
      linarith
    have hi' : (i : ℝ) ≤ ((n * 10 - 1 : ℕ) : ℝ) := by
      have : i ≤ n * 10 - 1 := by omega
      exact_mod_cast this
    have hb : (i : ℝ) * ((c1 - c0) / ((n * 10 - 1 : ℕ) : ℝ)) ≤ c1 - c0 := by
      calc (i : ℝ) * ((c1 - c0) / ((n * 10 - 1 : ℕ) : ℝ)) ≤ ((n * 10 - 1 : ℕ) : ℝ) * ((c1 - c0) / ((n * 10 - 1 : ℕ) : ℝ)) :=
            mul_le_mul_of_nonneg_right hi' hstep.le
        _ = c1 - c0 := by field_simp
    have hb0 : 0 ≤ (i : ℝ) * ((c1 - c0) / ((n * 10 - 1 : ℕ) : ℝ)) := by positivity
    rw [h2]
    constructor <;> linarith
  · intro y hy
    obtain ⟨z, hz, rfl⟩ := List.mem_map.mp hy
    exact (div_le_one hM).mpr (le_most hz)
  · exact List.mem_map.mpr ⟨most u, most_mem hune, div_self hM.ne'⟩
  · rw [hvget 0 (by omega), hu0]
  · rw [hvget _ (by omega), hu1]
  · intro i hi
    rw [hvget i hi, huget i hi]

/-- C146: fewer than four bins are an error. -/
theorem C146_few {I : Interp} {t : List ℝ} {n : ℕ} (hn : n < 4) : posterior I t n = none := by
  have hcl : (centers t n).length = n := by simp [centers]
  simp [posterior, cubic, hcl, hn]

/-! ### The likelihood -/

theorem whist_mul (t w : List ℝ) (n : ℕ) (c : ℝ) : whist t n (w.map (c * ·)) = (whist t n w).map (c * ·) := by
  unfold whist
  rw [List.map_map]
  apply List.map_congr_left
  intro j _
  simp only [Function.comp]
  rw [List.zip_map_right, List.map_map, ← List.sum_map_mul_left]
  congr 1
  apply List.map_congr_left
  intro p _
  simp [Prod.map]

theorem div_most_mul {c : ℝ} (hc : 0 < c) (l : List ℝ) : (l.map (c * ·)).map (· / most (l.map (c * ·))) = l.map (· / most l) := by
  rw [most_mul hc.le, List.map_map]
  apply List.map_congr_left
  intro x _
  simp only [Function.comp]
  rw [mul_div_mul_left _ _ hc.ne']

/-- C146: the curve of the likelihood is the same when a number is added to all log-probabilities, and does not depend on the smallest value subtracted. -/
theorem C146_offset (I : Interp) (t lnprob : List ℝ) (n : ℕ) (m m' a : ℝ) : meanLikelihood I t (lnprob.map (· + a)) n m' = meanLikelihood I t lnprob n m := by
  have key : lklMean t (lnprob.map (· + a)) n m' = lklMean t lnprob n m := by
    unfold lklMean
    have hw : ((lnprob.map (· + a)).map fun l => Real.exp (m' + l)) = (lnprob.map fun l => Real.exp (m + l)).map (Real.exp (m' + a - m) * ·) := by
      rw [List.map_map, List.map_map]
      apply List.map_congr_left
      intro l _
      simp only [Function.comp]
      rw [← Real.exp_add]
      congr 1; ring
    rw [hw, whist_mul, div_most_mul (Real.exp_pos _)]
  unfold meanLikelihood
  rw [key]

theorem whist_sum_filter (t l : List ℝ) (n j : ℕ) (m : ℝ) (hj : j < n) :
    (whist t n (l.map fun x => Real.exp (m + x))).getD j 0 =
      Real.exp m * (((t.zip l).filter fun p => decide (holds t n j p.1)).map fun p => Real.exp p.2).sum := by
  have haux : ∀ q : List (ℝ × ℝ), ((q.map fun p => (p.1, Real.exp (m + p.2))).map fun p => if holds t n j p.1 then p.2 else 0).sum =
      Real.exp m * ((q.filter fun p => decide (holds t n j p.1)).map fun p => Real.exp p.2).sum := by
    intro q
    induction q with
    | nil => simp
    | cons x q ih =>
      simp only [List.map_cons, List.sum_cons, ih]
      by_cases hx : holds t n j x.1
      · rw [if_pos hx, List.filter_cons_of_pos (by simpa using hx), List.map_cons, List.sum_cons, Real.exp_add]; ring
      · rw [if_neg hx, List.filter_cons_of_neg (by simpa using hx)]; ring
  rw [List.getD_eq_getElem _ _ (by simp [whist, hj])]
  simp only [whist, List.getElem_map, List.getElem_range]
  rw [← haux, List.zip_map_right]
  rfl

/-- C146: the curve of the likelihood of a parameter that varies, with at least four bins: its abscissae are those of the posterior; the heights of the bins are as the sums of the likelihoods of
the samples in them, the greatest is one; the curve begins and ends with those of the first and the last bin, and in between it is the interpolation of them. -/
theorem C146_likelihood {I : Interp} (hI : Good I) {t lnprob : List ℝ} (ht : t ≠ []) (hv : least t ≠ most t) (hl : lnprob.length = t.length) {n : ℕ} (hn : 4 ≤ n) (m : ℝ) :
    ∃ g v s, meanLikelihood I t lnprob n m = some (g, v) ∧ (posterior I t n).map Prod.fst = some g ∧ v.length = 10 * n ∧ s.length = n ∧
      (∃ M > 0, ∀ j < n, s.getD j 0 = (((t.zip lnprob).filter fun p => decide (holds t n j p.1)).map fun p => Real.exp p.2).sum / M) ∧
      (∀ y ∈ s, y ≤ 1) ∧ 1 ∈ s ∧ v.getD 0 0 = s.getD 0 0 ∧ v.getD (10 * n - 1) 0 = s.getD (n - 1) 0 ∧
      ∀ i < 10 * n, v.getD i 0 = I (centers t n) s (g.getD i 0) := by
  have hcl : (centers t n).length = n := by simp [centers]
  obtain ⟨g, u, hp, hgl, -, -, -, -, -, M', -, hg0, hg1, -⟩ := C146_curve hI ht hv hn
  have hgrid : g = linspace ((centers t n).headD 0) ((centers t n).getLastD 0) ((centers t n).length * 10) := by
    unfold posterior cubic at hp
    rw [if_neg (by omega)] at hp
    simp only [Option.some.injEq, Prod.mk.injEq] at hp
    exact hp.1.symm
  obtain ⟨w, hw⟩ : ∃ w, w = whist t n (lnprob.map fun l => Real.exp (m + l)) := ⟨_, rfl⟩
  have hwl : w.length = n := by rw [hw]; simp [whist]
  have hs : lklMean t lnprob n m = w.map (· / most w) := by unfold lklMean; rw [← hw]
  have hwne : w ≠ [] := by intro h; rw [h] at hwl; simp at hwl; omega
  have hwsum : 0 < w.sum := by
    rw [hw, C146_weights (by rw [List.length_map, hl]) (by omega)]
    apply List.sum_pos
    · intro x hx
      obtain ⟨y, -, rfl⟩ := List.mem_map.mp hx
      exact Real.exp_pos _
    · intro h
      have : lnprob.length = 0 := by simpa using congrArg List.length h
      exact ht (List.length_eq_zero_iff.mp (by omega))
  have hmost : 0 < most w := by
    by_contra hc
    have hnp : ∀ q : List ℝ, (∀ x ∈ q, x ≤ 0) → q.sum ≤ 0 := by
      intro q
      induction q with
      | nil => simp
      | cons x q ih =>
        intro h
        have h1 := h x List.mem_cons_self
        have h2 := ih fun y hy => h y (List.mem_cons_of_mem _ hy)
        rw [List.sum_cons]; linarith
    have := hnp w fun x hx => (le_most hx).trans (not_lt.mp hc)
    linarith
  have hsl : (lklMean t lnprob n m).length = n := by rw [hs, List.length_map, hwl]
  have hcinc : ∀ i j, i < j → j < (centers t n).length → (centers t n).getD i 0 < (centers t n).getD j 0 := by
    intro i j hij hj
    rw [hcl] at hj
    rw [centers_get (by omega), centers_get hj]
    have a := edge_lt ht (by omega : 0 < n) hij
    have b := edge_lt ht (by omega : 0 < n) (by omega : i + 1 < j + 1)
    linarith
  have hcurve : ∀ i < 10 * n, (g.map (I (centers t n) (lklMean t lnprob n m))).getD i 0 = I (centers t n) (lklMean t lnprob n m) (g.getD i 0) := by
    intro i hi
    rw [List.getD_eq_getElem _ _ (by rw [List.length_map]; omega), List.getD_eq_getElem _ _ (by omega)]
    simp
  refine ⟨g, g.map (I (centers t n) (lklMean t lnprob n m)), lklMean t lnprob n m, ?_, by rw [hp]; rfl, by rw [List.length_map, hgl], hsl,
    ⟨most w / Real.exp m, div_pos hmost (Real.exp_pos _), ?_⟩, ?_, ?_, ?_, ?_, hcurve⟩
  · unfold meanLikelihood cubic
    rw [if_neg (by omega), ← hgrid]
  · intro j hj
    have h1 : (lklMean t lnprob n m).getD j 0 = w.getD j 0 / most w := by
      rw [hs, List.getD_eq_getElem _ _ (by rw [List.length_map]; omega), List.getD_eq_getElem _ _ (by omega)]
      simp
    rw [h1, hw, whist_sum_filter t lnprob n j m hj, ← hw]
    have := (Real.exp_pos m).ne'
    field_simp
  · intro y hy
    rw [hs] at hy
    obtain ⟨z, hz, rfl⟩ := List.mem_map.mp hy
    exact (div_le_one hmost).mpr (le_most hz)
  · rw [hs]
    exact List.mem_map.mpr ⟨most w, most_mem hwne, div_self hmost.ne'⟩
  · rw [hcurve 0 (by omega), hg0]
    exact hI _ _ (by rw [hcl, hsl]) (by omega) hcinc 0 (by omega)
  · rw [hcurve _ (by omega), hg1]
    exact hI _ _ (by rw [hcl, hsl]) (by omega) hcinc _ (by omega)

/-- Not so: what is drawn as the mean likelihood is not a mean, but a sum over the samples of a bin: when all samples have the same likelihood it is the histogram. -/
theorem C146_mean_counterexample (t : List ℝ) (n : ℕ) (m l : ℝ) : lklMean t (t.map fun _ => l) n m = (hist t n).map (· / most (hist t n)) := by
  unfold lklMean
  have hw : ((t.map fun _ => l).map fun l => Real.exp (m + l)) = (t.map fun _ => (1 : ℝ)).map (Real.exp (m + l) * ·) := by
    rw [List.map_map, List.map_map]
    apply List.map_congr_left
    intro x _
    simp
  rw [hw, whist_mul, div_most_mul (Real.exp_pos _)]
  rfl

/-! ### The figures -/

/-- What is kept under a name is what would be computed -/
def Holds (make : String → Option Curve) (c : Cache) : Prop := ∀ n v, c.lookup n = some v → make n = some v

theorem cached_spec {make : String → Option Curve} {c : Cache} (h : Holds make c) (n : String) :
    (cached (make n) c n).1 = make n ∧ Holds make (cached (make n) c n).2 := by
  unfold cached
  cases hl : c.lookup n with
  | some v => exact ⟨(h n v hl).symm, h⟩
  | none =>
    dsimp only
    cases hm : make n with
    | none => exact ⟨rfl, h⟩
    | some v =>
      refine ⟨rfl, fun n' v' h' => ?_⟩
      simp only [List.lookup_cons] at h'
      by_cases e : n' = n
      · subst e; simp at h'; rw [hm, h']
      · have : (n' == n) = false := by simpa using e
        rw [this] at h'
        exact h n' v' h'

/-- What a panel of a parameter is to be -/
def Right (I : Interp) (i : Info) (p : Panel) : Prop :=
  posterior I (i.scaled p.name) i.bins = some p.curve ∧ p.axis = axis (i.trace p.name) (i.ask p.name) ∧
    p.likelihood = (if i.meanLik then meanLikelihood I (i.scaled p.name) i.lnprobs i.bins i.minus else none) ∧
    p.fiducial = (if i.showFid then i.fid p.name else none) ∧
    p.file = (if i.meanLik then (meanLikelihood I (i.scaled p.name) i.lnprobs i.bins i.minus).getD p.curve else p.curve)

/-- Both dictionaries -/
def Kept (I : Interp) (i : Info) (c : Cache × Cache) : Prop :=
  Holds (fun n => posterior I (i.scaled n) i.bins) c.1 ∧ Holds (fun n => meanLikelihood I (i.scaled n) i.lnprobs i.bins i.minus) c.2

theorem panel_spec {I : Interp} {i : Info} {c c' : Cache × Cache} {n : String} {p : Panel} (hc : Kept I i c) (h : panel I i c n = some (p, c')) :
    p.name = n ∧ Right I i p ∧ Kept I i c' := by
  obtain ⟨h1, h2⟩ := cached_spec hc.1 n
  obtain ⟨h3, h4⟩ := cached_spec hc.2 n
  unfold panel at h
  obtain ⟨⟨o, c1⟩, hr⟩ : ∃ r, r = cached (posterior I (i.scaled n) i.bins) c.1 n := ⟨_, rfl⟩
  rw [← hr] at h h1 h2
  cases o with
  | none => simp at h
  | some q =>
    simp only [Option.some.injEq, Prod.mk.injEq] at h
    obtain ⟨rfl, rfl⟩ := h
    refine ⟨rfl, ⟨h1.symm, rfl, ?_, rfl, ?_⟩, h2, ?_⟩
    · dsimp only; rw [h3]
    · dsimp only; rw [h3]
    · dsimp only; split_ifs
      · exact h4
      · exact hc.2

theorem panels_spec {I : Interp} {i : Info} : ∀ {l : List String} {c c' : Cache × Cache} {ps : List Panel}, Kept I i c → panels I i c l = some (ps, c') →
    ps.map Panel.name = l ∧ (∀ p ∈ ps, Right I i p) ∧ Kept I i c'
  | [], c, c', ps, hc, h => by
    simp only [panels, Option.some.injEq, Prod.mk.injEq] at h
    obtain ⟨rfl, rfl⟩ := h
    exact ⟨rfl, by simp, hc⟩
  | n :: l, c, c', ps, hc, h => by
    unfold panels at h
    cases h1 : panel I i c n with
    | none => simp [h1] at h
    | some r =>
      obtain ⟨p, c1⟩ := r
      simp only [h1] at h
      cases h2 : panels I i c1 l with
      | none => simp [h2] at h
      | some r =>
        obtain ⟨ps', c2⟩ := r
        simp only [h2, Option.some.injEq, Prod.mk.injEq] at h
        obtain ⟨rfl, rfl⟩ := h
        obtain ⟨a1, a2, a3⟩ := panel_spec hc h1
        obtain ⟨b1, b2, b3⟩ := panels_spec a3 h2
        refine ⟨by simp [a1, b1], ?_, b3⟩
        intro q hq
        rcases List.mem_cons.mp hq with rfl | hq
        · exact a2
        · exact b2 q hq

/-- C146: in every figure there is one panel for each parameter asked for, in order; it shows the axis and the curve of the samples of its own parameter, whatever was drawn before. -/
theorem C146_figures {I : Interp} {i : Info} : ∀ {l : List (List String)} {c : Cache × Cache} {r : List (List Panel)}, Kept I i c → figures I i c l = some r →
    r.map (fun ps => ps.map Panel.name) = l ∧ ∀ ps ∈ r, ∀ p ∈ ps, Right I i p
  | [], c, r, _, h => by
    simp only [figures, Option.some.injEq] at h
    subst h
    exact ⟨rfl, by simp⟩
  | ns :: rest, c, r, hc, h => by
    unfold figures at h
    split_ifs at h with hne
    cases h1 : panels I i c ns with
    | none => simp [h1] at h
    | some q =>
      obtain ⟨ps, c1⟩ := q
      simp only [h1] at h
      cases h2 : figures I i c1 rest with
      | none => simp [h2] at h
      | some r' =>
        simp only [h2, Option.some.injEq] at h
        subst h
        obtain ⟨a1, a2, a3⟩ := panels_spec hc h1
        obtain ⟨b1, b2⟩ := C146_figures a3 h2
        refine ⟨by simp [a1, b1], ?_⟩
        intro qs hqs
        rcases List.mem_cons.mp hqs with rfl | hqs
        · exact a2
        · exact b2 qs hqs

/-- The dictionaries are empty at first. -/
theorem kept_empty (I : Interp) (i : Info) : Kept I i ([], []) := by
  constructor <;> intro n v h <;> simp at h

/-- C146: with at least four bins and parameters asked for in every figure, all figures are drawn. -/
theorem C146_drawn {I : Interp} {i : Info} (hb : 4 ≤ i.bins) : ∀ {l : List (List String)} {c : Cache × Cache}, (∀ ns ∈ l, ns ≠ []) → ∃ r, figures I i c l = some r := by
  have hpost : ∀ n, ∃ v, posterior I (i.scaled n) i.bins = some v := by
    intro n
    have hcl : (centers (i.scaled n) i.bins).length = i.bins := by simp [centers]
    exact ⟨_, by simp [posterior, cubic, hcl, show ¬ i.bins < 4 by omega]; rfl⟩
  have hpanel : ∀ n c, ∃ r, panel I i c n = some r := by
    intro n c
    obtain ⟨v, hv⟩ := hpost n
    unfold panel
    have : ∃ w c1, cached (posterior I (i.scaled n) i.bins) c.1 n = (some w, c1) := by
      unfold cached
      cases c.1.lookup n with
      | some w => exact ⟨_, _, rfl⟩
      | none => rw [hv]; exact ⟨_, _, rfl⟩
    obtain ⟨w, c1, h⟩ := this
    rw [h]
    exact ⟨_, rfl⟩
  have hpanels : ∀ l c, ∃ r, panels I i c l = some r := by
    intro l
    induction l with
    | nil => intro c; exact ⟨_, rfl⟩
    | cons n l ih =>
      intro c
      obtain ⟨⟨p, c1⟩, h1⟩ := hpanel n c
      obtain ⟨⟨ps, c2⟩, h2⟩ := ih c1
      exact ⟨_, by simp [panels, h1, h2]; rfl⟩
  intro l
  induction l with
  | nil => intro c _; exact ⟨_, rfl⟩
  | cons ns l ih =>
    intro c hne
    obtain ⟨⟨ps, c1⟩, h1⟩ := hpanels ns c
    obtain ⟨r, h2⟩ := ih (c := c1) fun m hm => hne m (List.mem_cons_of_mem _ hm)
    exact ⟨_, by simp [figures, hne ns List.mem_cons_self, h1, h2]; rfl⟩

/-! ### Cases, and where it fails -/

/-- A case: a parameter with two samples, five bins -/
def sample : List ℝ := [1, 3]

/-- Two samples at a distance: their mean and their standard deviation; the hypotheses of the theorems hold. -/
theorem C146_case : mean sample = 2 ∧ std sample = 1 ∧ sample ≠ [] ∧ least sample ≠ most sample ∧
    (axis sample ⟨1, some (-1.4), none, 3, 20⟩).lo = -1.4 ∧ (axis sample ⟨1, some (-1.4), none, 3, 20⟩).hi = 5.5 := by
  have hm : mean sample = 2 := by simp [mean, sample]; norm_num
  have hs : std sample = 1 := by
    have : ((sample.map fun x => (x - mean sample) ^ 2).sum / sample.length : ℝ) = 1 := by rw [hm]; simp [sample]; norm_num
    rw [std, this, Real.sqrt_one]
  refine ⟨hm, hs, by simp [sample], by simp [sample, least, most], ?_, ?_⟩
  · simp only [axis, right, left, axis0, hm, hs]
    rw [if_pos (by norm_num [abs_lt])]
  · simp only [axis, right, left, axis0, hm, hs]
    rw [if_pos (by norm_num [abs_lt])]
    norm_num

/-- Not so: for a parameter with a scale the boundary is compared, and drawn, in the wrong units: with the scale 1/2 the boundary -2.9 is at -5.8 on the axis, and the axis is cut at -2.9. -/
theorem C146_units_counterexample : ∃ (a : Ask) (b : ℝ), a.scale = 0.5 ∧ a.lower = some b ∧ (∀ x ∈ sample, b ≤ x) ∧
    (axis sample a).lo = b ∧ (axis sample a).lo ≠ b / a.scale ∧ (axis sample a).lo ≠ (mean sample - 3.5 * std sample) / a.scale := by
  obtain ⟨hm, hs, -⟩ := C146_case
  have hlo : (axis sample ⟨0.5, some (-2.9), none, 3, 20⟩).lo = -2.9 := by
    simp only [axis, right, left, axis0, hm, hs]
    rw [if_pos (by norm_num [abs_lt])]
  refine ⟨⟨0.5, some (-2.9), none, 3, 20⟩, -2.9, rfl, rfl, ?_, hlo, ?_, ?_⟩
  · simp [sample]; norm_num
  · rw [hlo]; norm_num
  · rw [hlo, hm, hs]; norm_num

/-- Not so: the file for the posterior of a parameter holds the curve of the likelihood when that is drawn too (as it is by default). -/
theorem C146_file_counterexample {I : Interp} {i : Info} {p : Panel} (hp : Right I i p) (hm : i.meanLik = true) (hb : 4 ≤ i.bins) :
    some p.file = p.likelihood ∧ some p.file = meanLikelihood I (i.scaled p.name) i.lnprobs i.bins i.minus := by
  have hcl : (centers (i.scaled p.name) i.bins).length = i.bins := by simp [centers]
  obtain ⟨v, hv⟩ : ∃ v, meanLikelihood I (i.scaled p.name) i.lnprobs i.bins i.minus = some v :=
    ⟨_, by simp [meanLikelihood, cubic, hcl, show ¬ i.bins < 4 by omega]; rfl⟩
  obtain ⟨-, -, h3, -, h5⟩ := hp
  rw [h3, h5, hm, if_pos rfl, if_pos rfl, hv]
  exact ⟨rfl, rfl⟩

/-- Not so: the line at the fiducial is drawn at its value, not in the units of the axis. -/
theorem C146_fiducial_counterexample {I : Interp} {i : Info} {p : Panel} (hp : Right I i p) (hs : i.showFid = true) {x : ℝ} (hx : i.fid p.name = some x) (hx0 : x ≠ 0)
    (ha : (i.ask p.name).scale = 0.5) : p.fiducial = some x ∧ x ≠ x / (i.ask p.name).scale := by
  obtain ⟨-, -, -, h4, -⟩ := hp
  refine ⟨by rw [h4, hs, if_pos rfl, hx], ?_⟩
  rw [ha]
  intro h
  apply hx0
  have : x / 0.5 = 2 * x := by ring
  linarith

end Verif.Plot1D
