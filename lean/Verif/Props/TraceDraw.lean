import Verif.Props.Trace

/-!
# C148: the distribution of a chain, anywhere, and what is drawn from it
-/

namespace Verif.Trace

open Plot1D Classical

/-! ### Between the points -/

theorem interp_left {x : ℝ} {p : ℝ × ℝ} (l : List (ℝ × ℝ)) (h : x ≤ p.1) : interp x (p :: l) = p.2 := by
  cases l with
  | nil => rfl
  | cons q l => rw [interp, if_pos h]

theorem between {a b y z x : ℝ} (hab : a < b) (h1 : a < x) (h2 : x < b) (hyz : y ≤ z) : y ≤ y + (z - y) / (b - a) * (x - a) ∧ y + (z - y) / (b - a) * (x - a) ≤ z := by
  have hb : 0 < b - a := by linarith
  have h3 : 0 ≤ (z - y) / (b - a) := div_nonneg (by linarith) hb.le
  constructor
  · have := mul_nonneg h3 (show 0 ≤ x - a by linarith)
    linarith
  · have h4 : (z - y) / (b - a) * (x - a) ≤ (z - y) / (b - a) * (b - a) := mul_le_mul_of_nonneg_left (by linarith) h3
    rw [div_mul_cancel₀ _ hb.ne'] at h4
    linarith

/-- Points that go up -/
def Rising : List (ℝ × ℝ) → Prop := List.Pairwise fun p q => p.1 < q.1 ∧ p.2 ≤ q.2

theorem interp_bounds {x : ℝ} : ∀ {p : ℝ × ℝ} {l : List (ℝ × ℝ)}, Rising (p :: l) → p.2 ≤ interp x (p :: l) ∧ interp x (p :: l) ≤ ((p :: l).getLast (by simp)).2 := by
  intro p l
  induction l generalizing p with
  | nil => intro _; simp [interp]
  | cons q l ih =>
    intro h
    obtain ⟨h1, h2⟩ := List.pairwise_cons.1 h
    obtain ⟨h3, h4⟩ := ih h2
    have hpq := h1 q (by simp)
    rw [List.getLast_cons (by simp)]
    rw [interp]
    split_ifs with ha hb
    · exact ⟨le_rfl, by linarith⟩
    · obtain ⟨h5, h6⟩ := between hpq.1 (not_le.1 ha) hb hpq.2
      refine ⟨h5, h6.trans ?_⟩
      linarith
    · exact ⟨by linarith, h4⟩

theorem interp_mono : ∀ {l : List (ℝ × ℝ)}, Rising l → ∀ {x y : ℝ}, x ≤ y → interp x l ≤ interp y l := by
  intro l
  induction l with
  | nil => intro _ x y _; simp [interp]
  | cons p l ih =>
    cases l with
    | nil => intro _ x y _; simp [interp]
    | cons q l =>
      intro h x y hxy
      obtain ⟨h1, h2⟩ := List.pairwise_cons.1 h
      have hpq := h1 q (by simp)
      by_cases hx : x ≤ p.1
      · rw [interp_left _ hx]
        exact (interp_bounds h).1
      · have hy : ¬ y ≤ p.1 := by linarith [not_le.1 hx]
        rw [interp, interp, if_neg hx, if_neg hy]
        by_cases hxq : x < q.1
        · rw [if_pos hxq]
          by_cases hyq : y < q.1
          · rw [if_pos hyq]
            have h3 : 0 ≤ (q.2 - p.2) / (q.1 - p.1) := div_nonneg (by linarith) (by linarith)
            have := mul_le_mul_of_nonneg_left (show x - p.1 ≤ y - p.1 by linarith) h3
            linarith
          · rw [if_neg hyq]
            exact (between hpq.1 (not_le.1 hx) hxq hpq.2).2.trans (interp_bounds h2).1
        · have hyq : ¬ y < q.1 := by linarith [not_lt.1 hxq]
          rw [if_neg hxq, if_neg hyq]
          exact ih h2 hxy

theorem interp_knot : ∀ {l : List (ℝ × ℝ)}, l.Pairwise (fun p q => p.1 < q.1) → ∀ p ∈ l, interp p.1 l = p.2 := by
  intro l
  induction l with
  | nil => intro _ p hp; cases hp
  | cons a l ih =>
    cases l with
    | nil => intro _ p hp; simp at hp; subst hp; rfl
    | cons q l =>
      intro h p hp
      obtain ⟨h1, h2⟩ := List.pairwise_cons.1 h
      rcases List.mem_cons.1 hp with rfl | hp
      · exact interp_left _ le_rfl
      · have h3 : a.1 < p.1 := h1 p hp
        have h4 : q.1 ≤ p.1 := by
          rcases List.mem_cons.1 hp with rfl | hp'
          · exact le_rfl
          · exact ((List.pairwise_cons.1 h2).1 p hp').le
        rw [interp, if_neg (not_le.2 h3), if_neg (not_lt.2 h4)]
        exact ih h2 p hp

theorem interp_right {x : ℝ} : ∀ {p : ℝ × ℝ} {l : List (ℝ × ℝ)}, (p :: l).Pairwise (fun p q => p.1 < q.1) → ((p :: l).getLast (by simp)).1 ≤ x →
    interp x (p :: l) = ((p :: l).getLast (by simp)).2 := by
  intro p l
  induction l generalizing p with
  | nil => intro _ _; rfl
  | cons q l ih =>
    intro h hx
    obtain ⟨h1, h2⟩ := List.pairwise_cons.1 h
    rw [List.getLast_cons (by simp)] at hx ⊢
    have h3 := h1 _ (List.getLast_mem (l := q :: l) (by simp))
    have h4 : q.1 ≤ ((q :: l).getLast (by simp)).1 := by
      rcases List.mem_cons.1 (List.getLast_mem (l := q :: l) (by simp)) with h5 | h5
      · rw [h5]
      · exact ((List.pairwise_cons.1 h2).1 _ h5).le
    rw [interp, if_neg (by linarith), if_neg (by linarith)]
    exact ih h2 hx

theorem zip_get {xs ys : List ℝ} (hl : xs.length = ys.length) {i : ℕ} (hi : i < xs.length) :
    (xs.zip ys)[i]'(by simp; omega) = (xs.getD i 0, ys.getD i 0) := by
  rw [List.getElem_zip, List.getD_eq_getElem _ _ hi, List.getD_eq_getElem _ _ (by omega)]

theorem zip_pairwise {xs ys : List ℝ} (hl : xs.length = ys.length) (hx : Increasing xs) : (xs.zip ys).Pairwise fun p q => p.1 < q.1 := by
  rw [List.pairwise_iff_getElem]
  intro i j hi hj hij
  simp only [List.length_zip] at hi hj
  rw [zip_get hl (by omega), zip_get hl (by omega)]
  exact hx i j hij (by omega)

theorem zip_rising {xs ys : List ℝ} (hl : xs.length = ys.length) (hx : Increasing xs) (hy : ∀ i j, i ≤ j → j < ys.length → ys.getD i 0 ≤ ys.getD j 0) : Rising (xs.zip ys) := by
  rw [Rising, List.pairwise_iff_getElem]
  intro i j hi hj hij
  simp only [List.length_zip] at hi hj
  rw [zip_get hl (by omega), zip_get hl (by omega)]
  exact ⟨hx i j hij (by omega), hy i j hij.le (by omega)⟩

theorem zip_cons {xs ys : List ℝ} (hl : xs.length = ys.length) (h0 : 0 < xs.length) :
    ∃ p l, xs.zip ys = p :: l ∧ p = (xs.getD 0 0, ys.getD 0 0) ∧ (p :: l).getLast (by simp) = (xs.getD (xs.length - 1) 0, ys.getD (xs.length - 1) 0) := by
  have hz : xs.zip ys ≠ [] := by
    rw [← List.length_pos_iff, List.length_zip]
    omega
  obtain ⟨p, l, h⟩ := List.exists_cons_of_ne_nil hz
  refine ⟨p, l, h, ?_, ?_⟩
  · have := zip_get hl h0
    simp only [h, List.getElem_cons_zero] at this
    exact this
  · have h1 : (p :: l).length = xs.length := by rw [← h, List.length_zip]; omega
    rw [List.getLast_eq_getElem]
    have := zip_get hl (show xs.length - 1 < xs.length by omega)
    simp only [h] at this
    simp only [h1]
    exact this

/-- `cdf(domain)` and `pdf(domain)` are functions of every point of the domain, which is returned as it is; they agree with `cdf()` and `pdf()` at the centres; the first never falls, and lies
between the mass of the first bin and one. -/
theorem C148_anywhere {t : Trace} {xs cs ds : List ℝ} {f : ℝ} (hc : t.cdf none f = .ok (xs, cs)) (hd : t.pdf none f = .ok (xs, ds)) :
    ∃ F p : ℝ → ℝ, (∀ dom g, t.cdf (some dom) g = .ok (dom, dom.map F)) ∧ (∀ dom g, t.pdf (some dom) g = .ok (dom, dom.map p)) ∧
      (∀ i < xs.length, F (xs.getD i 0) = cs.getD i 0 ∧ p (xs.getD i 0) = ds.getD i 0) ∧ Monotone F ∧ (∀ x, cs.getD 0 0 ≤ F x ∧ F x ≤ 1) ∧
      (∀ x, xs.getD (xs.length - 1) 0 ≤ x → F x = 1 ∧ p x = ds.getD (xs.length - 1) 0) ∧ ∀ x ≤ xs.getD 0 0, F x = cs.getD 0 0 ∧ p x = ds.getD 0 0 := by
  obtain ⟨ha, ht, n, hn, hx, hy, hi, hmem, hval, hb, hmono, hfirst, hlast⟩ := C148_cdf hc
  obtain ⟨_, _, n', hn', hx', hy', _⟩ := C148_density hd
  rw [hn] at hn'
  cases hn'
  have h2 := (nBins_ok hn).2.2
  obtain ⟨_, m, hm, hr⟩ := cdf_ok hc
  obtain ⟨_, m', hm', hr'⟩ := pdf_ok hd
  rw [hn] at hm hm'
  cases hm
  cases hm'
  simp only [table, Prod.mk.injEq] at hr hr'
  obtain ⟨hr1, hr2⟩ := hr
  obtain ⟨_, hr3⟩ := hr'
  obtain ⟨q, l, hz, hq, hg⟩ := zip_cons (xs := xs) (ys := cs) (by omega) (by omega)
  obtain ⟨q', l', hz', hq', hg'⟩ := zip_cons (xs := xs) (ys := ds) (by omega) (by omega)
  have hrise : Rising (xs.zip cs) := zip_rising (by omega) hi fun i j hij hj => hmono i j hij (by omega)
  have hpc := zip_pairwise (ys := cs) (by omega) hi
  have hpd := zip_pairwise (ys := ds) (by omega) hi
  refine ⟨fun x => interp x (xs.zip cs), fun x => interp x (xs.zip ds), fun dom g => ?_, fun dom g => ?_, fun i hi' => ⟨?_, ?_⟩, fun x y hxy => interp_mono hrise hxy, fun x => ?_,
    fun x hx0 => ⟨?_, ?_⟩, fun x hx0 => ⟨?_, ?_⟩⟩
  · rw [cdf_of ha hn, hr1, hr2]; rfl
  · rw [pdf_of ha hn, hr1, hr3]; rfl
  · have h3 := interp_knot hpc ((xs.zip cs)[i]'(by simp; omega)) (List.getElem_mem _)
    rw [zip_get (by omega) hi'] at h3
    exact h3
  · have h3 := interp_knot hpd ((xs.zip ds)[i]'(by simp; omega)) (List.getElem_mem _)
    rw [zip_get (by omega) hi'] at h3
    exact h3
  · dsimp only
    rw [hz] at hrise ⊢
    have h3 := interp_bounds (x := x) hrise
    rw [hg, hq] at h3
    dsimp only at h3
    rw [hx, hlast] at h3
    rw [hq]
    exact h3
  · dsimp only
    rw [hz] at hpc ⊢
    rw [interp_right hpc (by rw [hg]; exact hx0), hg, hx]
    exact hlast
  · dsimp only
    rw [hz'] at hpd ⊢
    rw [interp_right hpd (by rw [hg']; exact hx0), hg']
  · dsimp only
    rw [hz, interp_left _ (by rw [hq]; exact hx0), hq]
  · dsimp only
    rw [hz', interp_left _ (by rw [hq']; exact hx0), hq']

/-- Where it fails: far below the smallest sample the density is not zero, and neither is the cumulative distribution; the same number as in the first bin, however far. -/
theorem C148_tails_counterexample {t : Trace} {xs ds : List ℝ} {f : ℝ} (hd : t.pdf none f = .ok (xs, ds)) :
    ∃ d c : ℝ, 0 < d ∧ 0 < c ∧ ∀ x ≤ least t.finite, ∀ g, t.pdf (some [x]) g = .ok ([x], [d]) ∧ t.cdf (some [x]) g = .ok ([x], [c]) := by
  obtain ⟨ha, n, hn, hr⟩ := pdf_ok hd
  simp only [table, Prod.mk.injEq] at hr
  obtain ⟨rfl, rfl⟩ := hr
  have hc := cdf_of ha hn none f
  obtain ⟨F, p, hF, hp, _, _, _, _, hle⟩ := C148_anywhere hc hd
  obtain ⟨_, ht, m, hm, hl, _, _, hmem, _, _, _, h1, _⟩ := C148_cdf hc
  rw [hn] at hm
  cases hm
  obtain ⟨_, hv, h2⟩ := nBins_ok hn
  have hn0 : 0 < n := by omega
  have hlen : (0 : ℝ) < t.finite.length := by exact_mod_cast List.length_pos_iff.2 ht
  refine ⟨(density t.finite n).getD 0 0, (cumulative t.finite n).getD 0 0, ?_, lt_of_lt_of_le (by positivity) h1, fun x hx g => ?_⟩
  · rw [density_get hn0]
    have h3 := hist_first ht hv hn0
    rw [hist_get hn0] at h3
    have := span_pos ht hn0
    exact div_pos (div_pos (by linarith) this) hlen
  · have h3 : x ≤ (centers t.finite n).getD 0 0 := by
      have : (centers t.finite n).getD 0 0 ∈ centers t.finite n := by
        rw [List.getD_eq_getElem _ _ (by rw [centers_length]; omega)]
        exact List.getElem_mem _
      linarith [(hmem _ this).1]
    obtain ⟨h4, h5⟩ := hle x h3
    rw [hF, hp]
    simp [h4, h5]

end Verif.Trace
