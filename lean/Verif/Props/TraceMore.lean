import Verif.Props.TraceDraw

/-!
# C148: what is drawn from a chain, its limits, its units
-/

namespace Verif.Trace

open Plot1D Classical

/-! ### Drawing -/

theorem least_increasing {xs : List ℝ} (h : Increasing xs) (h0 : 0 < xs.length) : least xs = xs.getD 0 0 := by
  have hne : xs ≠ [] := List.length_pos_iff.1 h0
  refine le_antisymm (least_le ?_) ?_
  · rw [List.getD_eq_getElem _ _ h0]; exact List.getElem_mem _
  · obtain ⟨i, hi, he⟩ := List.mem_iff_getElem.1 (least_mem hne)
    rw [← he]
    rcases Nat.eq_zero_or_pos i with rfl | hp
    · rw [List.getD_eq_getElem _ _ h0]
    · have := h 0 i hp hi
      rw [List.getD_eq_getElem _ _ hi] at this
      exact this.le

theorem most_increasing {xs : List ℝ} (h : Increasing xs) (h0 : 0 < xs.length) : most xs = xs.getD (xs.length - 1) 0 := by
  have hne : xs ≠ [] := List.length_pos_iff.1 h0
  refine le_antisymm ?_ (le_most ?_)
  · obtain ⟨i, hi, he⟩ := List.mem_iff_getElem.1 (most_mem hne)
    rw [← he]
    rcases Nat.lt_or_ge i (xs.length - 1) with hp | hp
    · have := h i _ hp (by omega)
      rw [List.getD_eq_getElem _ _ hi] at this
      exact this.le
    · have : i = xs.length - 1 := by omega
      subst this
      rw [List.getD_eq_getElem _ _ hi]
  · rw [List.getD_eq_getElem _ _ (by omega)]; exact List.getElem_mem _

theorem roots_spec {B : Solver} (hB : Bisects B) {f : ℝ → ℝ} (hf : Continuous f) {a b : ℝ} (hab : a ≤ b) (hb : f b = 1) (ha : f a ≤ 1) :
    ∀ {rs : List ℝ}, (∀ r ∈ rs, r ≤ 1) →
      ((∀ r ∈ rs, f a ≤ r) → ∃ l, roots B f a b rs = .ok l ∧ l.length = rs.length ∧ ∀ i < rs.length, a ≤ l.getD i 0 ∧ l.getD i 0 ≤ b ∧ f (l.getD i 0) = rs.getD i 0) ∧
      ((∃ r ∈ rs, r < f a) → roots B f a b rs = .error .value) := by
  intro rs
  induction rs with
  | nil => intro _; exact ⟨fun _ => ⟨[], rfl, rfl, fun i hi => by simp at hi⟩, fun ⟨r, hr, _⟩ => by simp at hr⟩
  | cons r rs ih =>
    intro h1
    obtain ⟨ih1, ih2⟩ := ih fun x hx => h1 x (List.mem_cons_of_mem _ hx)
    have hr1 := h1 r List.mem_cons_self
    have hcont : Continuous fun x => f x - r := hf.sub continuous_const
    obtain ⟨he, hk⟩ := hB _ a b hcont hab
    have hgood : f a ≤ r → ∃ x, B (fun x => f x - r) a b = .ok x ∧ a ≤ x ∧ x ≤ b ∧ f x - r = 0 := fun hr => hk (by
      rw [hb]
      nlinarith)
    constructor
    · intro h
      obtain ⟨l, hl, hlen, hget⟩ := ih1 fun x hx => h x (List.mem_cons_of_mem _ hx)
      obtain ⟨x, hx, h2, h3, h4⟩ := hgood (h r List.mem_cons_self)
      refine ⟨x :: l, by simp [roots, hx, hl], by simp [hlen], fun i hi => ?_⟩
      cases i with
      | zero => exact ⟨h2, h3, by simp; linarith⟩
      | succ i => simpa using hget i (by simpa using hi)
    · rintro ⟨q, hq, hlt⟩
      rcases lt_or_ge r (f a) with hr | hr
      · have := he (by
          rw [hb]
          exact mul_pos (by linarith) (by linarith))
        simp [roots, this]
      · obtain ⟨x, hx, _⟩ := hgood hr
        have hq' : q ∈ rs := by
          rcases List.mem_cons.1 hq with rfl | h
          · linarith
          · exact h
        simp [roots, hx, ih2 ⟨q, hq', hlt⟩]

/-- What `_draw_from_discrete` does with the levels `rs` -/
theorem discrete_spec {S : Interp} (hS : Smooth S) {B : Solver} (hB : Bisects B) {t : Trace} {xs cs : List ℝ} (hc : t.cdf none 1 = .ok (xs, cs)) (h4 : 4 ≤ xs.length)
    {rs : List ℝ} (h1 : ∀ r ∈ rs, r ≤ 1) (h0 : rs ≠ []) :
    ((∀ r ∈ rs, cs.getD 0 0 ≤ r) → ∃ d, t.fromDiscrete S B rs.length rs = .ok d ∧ d.values.length = rs.length ∧ (d.isArray ↔ rs.length ≠ 1) ∧
      ∀ i < rs.length, least t.finite < d.values.getD i 0 ∧ d.values.getD i 0 < most t.finite ∧ S xs cs (d.values.getD i 0) = rs.getD i 0) ∧
    ((∃ r ∈ rs, r < cs.getD 0 0) → t.fromDiscrete S B rs.length rs = .error .value) := by
  obtain ⟨ha, ht, n, hn, hx, hy, hi, hmem, _, _, hmono, hfirst, hlast⟩ := C148_cdf hc
  have hmost : most cs = 1 := by
    have hne : cs ≠ [] := List.length_pos_iff.1 (by omega)
    refine le_antisymm ?_ (le_most ?_)
    · obtain ⟨i, hi', he⟩ := List.mem_iff_getElem.1 (most_mem hne)
      have := hmono i (n - 1) (by omega) (by omega)
      rw [hlast, List.getD_eq_getElem _ _ hi', he] at this
      exact this
    · rw [← hlast, List.getD_eq_getElem _ _ (by omega)]
      exact List.getElem_mem _
  have hdiv : cs.map (· / most cs) = cs := by rw [hmost]; simp only [div_one, List.map_id']
  obtain ⟨hcont, hknot⟩ := hS xs cs (by omega) h4 hi
  have hA := least_increasing hi (by omega)
  have hZ := most_increasing hi (by omega)
  have hab : least xs ≤ most xs := least_le (most_mem (List.length_pos_iff.1 (by omega)))
  have hfa : S xs cs (least xs) = cs.getD 0 0 := by rw [hA]; exact hknot 0 (by omega)
  have hfb : S xs cs (most xs) = 1 := by
    rw [hZ, hknot _ (by omega), hx]
    exact hlast
  have hle : cs.getD 0 0 ≤ 1 := by rw [← hlast]; exact hmono 0 (n - 1) (by omega) (by omega)
  obtain ⟨hgood, hbad⟩ := roots_spec hB hcont hab hfb (by rw [hfa]; exact hle) h1
  rw [hfa] at hgood hbad
  have hmA := hmem _ (least_mem (List.length_pos_iff.1 (show 0 < xs.length by omega)))
  have hmZ := hmem _ (most_mem (List.length_pos_iff.1 (show 0 < xs.length by omega)))
  have hun : ∀ size, t.fromDiscrete S B size rs = match roots B (S xs cs) (least xs) (most xs) rs with | .error e => .error e | .ok l => shaped size l := by
    intro size
    simp only [Trace.fromDiscrete, hc, hdiv]
    rw [if_neg (by omega)]
    rfl
  constructor
  · intro h
    obtain ⟨l, hl, hlen, hget⟩ := hgood h
    have hfin : ∀ i < rs.length, least t.finite < l.getD i 0 ∧ l.getD i 0 < most t.finite ∧ S xs cs (l.getD i 0) = rs.getD i 0 := fun i hi' => by
      obtain ⟨h2, h3, h5⟩ := hget i hi'
      exact ⟨by linarith [hmA.1], by linarith [hmZ.2], h5⟩
    rw [hun]
    simp only [hl]
    by_cases h2 : 1 < rs.length
    · refine ⟨.many l, by simp only [shaped, if_pos h2], hlen, ?_, hfin⟩
      simp only [Drawn.isArray, true_iff]
      omega
    · have h3 : rs.length = 1 := by
        have := List.length_pos_iff.2 h0
        omega
      obtain ⟨x, rfl⟩ := List.length_eq_one_iff.1 (hlen.trans h3)
      refine ⟨.one x, by simp [shaped, h3], by simp [Drawn.values, h3], by simp [Drawn.isArray, h3], hfin⟩
  · intro h
    rw [hun, hbad h]

/-- `draw(size)`: with random numbers that are not below the mass of the first bin, as many values as asked for, an array unless one is asked for, all between the smallest and the largest
sample, and where the interpolated cumulative distribution is the random number. -/
theorem C148_draw_partial {S : Interp} (hS : Smooth S) {B : Solver} (hB : Bisects B) {t : Trace} {xs cs : List ℝ} (hc : t.cdf none 1 = .ok (xs, cs)) (h4 : 4 ≤ xs.length)
    {us : List ℝ} (h0 : us ≠ []) (h1 : ∀ u ∈ us, u < 1) (h : ∀ u ∈ us, cs.getD 0 0 ≤ u) :
    ∃ d, t.draw S B us = .ok d ∧ d.values.length = us.length ∧ (d.isArray ↔ us.length ≠ 1) ∧
      ∀ i < us.length, least t.finite < d.values.getD i 0 ∧ d.values.getD i 0 < most t.finite ∧ S xs cs (d.values.getD i 0) = us.getD i 0 :=
  (discrete_spec hS hB hc h4 (fun u hu => (h1 u hu).le) h0).1 h

/-- Where it fails: for every chain there are random numbers, all those below a positive number, with which `draw` raises a `ValueError`. -/
theorem C148_draw_counterexample {S : Interp} (hS : Smooth S) {B : Solver} (hB : Bisects B) {t : Trace} {xs cs : List ℝ} (hc : t.cdf none 1 = .ok (xs, cs)) (h4 : 4 ≤ xs.length) :
    1 / t.finite.length ≤ cs.getD 0 0 ∧ 0 < t.finite.length ∧ ∀ us : List ℝ, (∀ u ∈ us, u < 1) → (∃ u ∈ us, u < cs.getD 0 0) → t.draw S B us = .error .value := by
  obtain ⟨_, ht, _, _, _, _, _, _, _, _, _, hfirst, _⟩ := C148_cdf hc
  refine ⟨hfirst, List.length_pos_iff.2 ht, fun us h1 ⟨u, hu, hlt⟩ => ?_⟩
  exact (discrete_spec hS hB hc h4 (fun u hu => (h1 u hu).le) (List.ne_nil_of_mem hu)).2 ⟨u, hu, hlt⟩

theorem levels_eq (s : ℕ) : levels s = (List.range s).map fun i : ℕ => ((i : ℝ) + 1) / (s + 1) := by
  refine List.ext_getElem (by simp [levels, linspace]) fun i h1 h2 => ?_
  have hi : i < s := by simpa using h2
  have hs : (0 : ℝ) < (s : ℝ) + 1 := by positivity
  simp only [levels, linspace, List.getElem_dropLast, List.getElem_drop, List.getElem_map, List.getElem_range]
  rw [if_neg (by omega)]
  have : ((s + 2 - 1 : ℕ) : ℝ) = s + 1 := by
    rw [show s + 2 - 1 = s + 1 by omega]
    push_cast
    ring
  rw [this]
  push_cast
  ring

/-- `grid(sampling)`: the points where the interpolated cumulative distribution is `1/(sampling+1), 2/(sampling+1), ...`, if the first bin does not hold more than the first of these. -/
theorem C148_grid_partial {S : Interp} (hS : Smooth S) {B : Solver} (hB : Bisects B) {t : Trace} {xs cs : List ℝ} (hc : t.cdf none 1 = .ok (xs, cs)) (h4 : 4 ≤ xs.length)
    {s : ℕ} (hs : 0 < s) (h : cs.getD 0 0 ≤ 1 / (s + 1)) :
    ∃ d, t.grid S B s = .ok d ∧ d.values.length = s ∧ (d.isArray ↔ s ≠ 1) ∧
      ∀ i < s, least t.finite < d.values.getD i 0 ∧ d.values.getD i 0 < most t.finite ∧ S xs cs (d.values.getD i 0) = (i + 1) / (s + 1) := by
  have hs1 : (0 : ℝ) < (s : ℝ) + 1 := by positivity
  have hlen : (levels s).length = s := by simp [levels_eq]
  have hmem : ∀ r ∈ levels s, 1 / ((s : ℝ) + 1) ≤ r ∧ r ≤ 1 := by
    intro r hr
    rw [levels_eq] at hr
    obtain ⟨i, hi, rfl⟩ := List.mem_map.1 hr
    rw [List.mem_range] at hi
    have h5 : (i : ℝ) + 1 ≤ s := by exact_mod_cast hi
    constructor
    · exact div_le_div_of_nonneg_right (by linarith [Nat.cast_nonneg (α := ℝ) i]) hs1.le
    · rw [div_le_one hs1]; linarith
  have hne : levels s ≠ [] := List.length_pos_iff.1 (by omega)
  have := (discrete_spec hS hB hc h4 (fun r hr => (hmem r hr).2) hne).1 fun r hr => h.trans (hmem r hr).1
  rw [hlen] at this
  obtain ⟨d, h5, h6, h7, h8⟩ := this
  refine ⟨d, h5, h6, h7, fun i hi => ?_⟩
  obtain ⟨h9, h10, h11⟩ := h8 i hi
  refine ⟨h9, h10, h11.trans ?_⟩
  rw [levels_eq, List.getD_eq_getElem _ _ (by simpa using hi), List.getElem_map, List.getElem_range]

/-- Where it fails: as many points as samples, or more, are always an error; and none also. -/
theorem C148_grid_counterexample {S : Interp} (hS : Smooth S) {B : Solver} (hB : Bisects B) {t : Trace} {xs cs : List ℝ} (hc : t.cdf none 1 = .ok (xs, cs)) (h4 : 4 ≤ xs.length) :
    (∀ s : ℕ, 1 / ((s : ℝ) + 1) < cs.getD 0 0 → 0 < s → t.grid S B s = .error .value) ∧ (∀ s : ℕ, t.finite.length ≤ s → t.grid S B s = .error .value) ∧
      t.grid S B 0 = .error .index := by
  obtain ⟨hfirst, hlen, _⟩ := C148_draw_counterexample hS hB hc h4
  have key : ∀ s : ℕ, 1 / ((s : ℝ) + 1) < cs.getD 0 0 → 0 < s → t.grid S B s = .error .value := by
    intro s h hs
    have hs1 : (0 : ℝ) < (s : ℝ) + 1 := by positivity
    have hmem : (1 : ℝ) / (s + 1) ∈ levels s := by
      rw [levels_eq]
      exact List.mem_map.2 ⟨0, List.mem_range.2 hs, by simp⟩
    have hle : ∀ r ∈ levels s, r ≤ 1 := by
      intro r hr
      rw [levels_eq] at hr
      obtain ⟨i, hi, rfl⟩ := List.mem_map.1 hr
      rw [List.mem_range] at hi
      have h5 : (i : ℝ) + 1 ≤ s := by exact_mod_cast hi
      rw [div_le_one hs1]; linarith
    have := (discrete_spec hS hB hc h4 hle (List.ne_nil_of_mem hmem)).2 ⟨_, hmem, h⟩
    rwa [show (levels s).length = s by simp [levels_eq]] at this
  refine ⟨key, fun s h => key s (lt_of_lt_of_le ?_ hfirst) (by omega), ?_⟩
  · have h1 : (0 : ℝ) < t.finite.length := by exact_mod_cast hlen
    have h2 : (t.finite.length : ℝ) ≤ s := by exact_mod_cast h
    exact one_div_lt_one_div_of_lt h1 (by linarith)
  · have : levels 0 = [] := by simp [levels_eq]
    simp only [Trace.grid, Trace.fromDiscrete, hc, this, roots, shaped]
    rw [if_neg (by omega), if_neg (by omega)]

end Verif.Trace
