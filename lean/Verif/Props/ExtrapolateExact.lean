import Verif.Props.Extrapolate

/-!
# C147: what is extrapolated exactly; multipoles
-/

namespace Verif.Extrapolate

noncomputable section

open Classical ExtrapolateSpec

theorem logspace_get (a b : ℝ) (n i : ℕ) (h : i < n) : (logspace a b n).getD i 0 = (10 : ℝ) ^ (Real.logb 10 a + (i : ℝ) * ((Real.logb 10 b - Real.logb 10 a) / ((n - 1 : ℕ) : ℝ))) := by
  unfold logspace
  rw [List.getD_eq_getElem?_getD, List.getElem?_map, List.getElem?_range h]
  rfl

theorem logspace_length (a b : ℝ) (n : ℕ) : (logspace a b n).length = n := by simp [logspace]

theorem logspace_first {a b : ℝ} (ha : 0 < a) (n : ℕ) (h : 0 < n) : (logspace a b n).getD 0 0 = a := by
  rw [logspace_get a b n 0 h]
  simp [Real.rpow_logb (by norm_num : (0:ℝ) < 10) (by norm_num) ha]

theorem logspace_last {a b : ℝ} (hb : 0 < b) (n : ℕ) (h : 2 ≤ n) : (logspace a b n).getD (n - 1) 0 = b := by
  rw [logspace_get a b n (n - 1) (by omega)]
  have : ((n - 1 : ℕ) : ℝ) ≠ 0 := by
    have : n - 1 ≠ 0 := by omega
    exact_mod_cast this
  rw [mul_div_cancel₀ _ this]
  simp [Real.rpow_logb (by norm_num : (0:ℝ) < 10) (by norm_num) hb]

theorem logspace_pairwise {a b : ℝ} (ha : 0 < a) (hab : a < b) (n : ℕ) : (logspace a b n).Pairwise (· < ·) := by
  unfold logspace
  rw [List.pairwise_map]
  refine List.pairwise_lt_range.imp_of_mem ?_
  intro i j hi hj hij
  rw [List.mem_range] at hi hj
  apply Real.rpow_lt_rpow_of_exponent_lt (by norm_num)
  have h1 : (0:ℝ) < (Real.logb 10 b - Real.logb 10 a) / ((n - 1 : ℕ) : ℝ) := by
    apply div_pos
    · exact sub_pos.mpr (Real.logb_lt_logb (by norm_num) ha hab)
    · have : 0 < n - 1 := by omega
      exact_mod_cast this
  have h2 : (i : ℝ) < j := by exact_mod_cast hij
  nlinarith

theorem mus_pairwise : mus.Pairwise (· < ·) := by
  unfold mus
  rw [List.pairwise_map]
  refine List.pairwise_lt_range.imp ?_
  intro i j hij
  have h2 : (i : ℝ) < j := by exact_mod_cast hij
  exact div_lt_div_of_pos_right h2 (by norm_num)

theorem mus_length : mus.length = 100 := by simp [mus]

/-- C147: the cosines for which slopes are fitted are a hundred, equally spaced, from zero to one, both included. -/
theorem C147_mu_grid : mus.length = 100 ∧ (∀ i < 100, mus.getD i 0 = (i : ℝ) / 99) ∧ mus.getD 0 0 = 0 ∧ mus.getD 99 0 = 1 ∧ (∀ x ∈ mus, 0 ≤ x ∧ x ≤ 1) := by
  have hget : ∀ i < 100, mus.getD i 0 = (i : ℝ) / 99 := by
    intro i hi
    rw [List.getD_eq_getElem?_getD, mus, List.getElem?_map, List.getElem?_range hi]
    rfl
  refine ⟨mus_length, hget, by rw [hget 0 (by norm_num)]; norm_num, by rw [hget 99 (by norm_num)]; norm_num, ?_⟩
  intro x hx
  obtain ⟨i, hi, rfl⟩ := List.mem_map.mp hx
  have h : (i : ℝ) ≤ 99 := by
    have : i ≤ 99 := by have := List.mem_range.mp hi; omega
    exact_mod_cast this
  constructor
  · positivity
  · rw [div_le_one (by norm_num)]; exact h

/-- `x` is the entry `i` of `l`. -/
theorem mem_getD {l : List ℝ} {x : ℝ} (h : x ∈ l) : ∃ i, i < l.length ∧ l.getD i 0 = x := by
  obtain ⟨i, hi, e⟩ := List.getElem_of_mem h
  exact ⟨i, hi, by rw [List.getD_eq_getElem?_getD, List.getElem?_eq_getElem hi]; exact e⟩

/-- The table and its values at the nodes -/
theorem newTable_spec (e : Ext) {P : ℝ → ℝ → ℝ} (hP : e.m.P = some P) (h0 : 0 < e.kmin * 1.05) (h1 : e.kmin * 1.05 < e.kmax * 0.95) :
    ∃ I, e.newTable = .ok I ∧ ∀ k ∈ e.ks, ∀ mu ∈ mus, look I k mu = .ok (P k mu) := by
  have hk : e.ks.Pairwise (· < ·) := logspace_pairwise h0 h1 200
  have hkl : e.ks.length = 200 := logspace_length _ _ _
  obtain ⟨I, hI, g1, g2, g3, g4, g5⟩ := (Interp.C90_constructor [e.ks, mus] [200, 100] (fun ix => P (e.ks.getD (ix.getD 0 0).toNat 0) (mus.getD (ix.getD 1 0).toNat 0)) .linear true (some none)).mpr
    ⟨⟨[], by simp [hkl, mus_length]⟩, by intro g hg; simp only [List.mem_cons, List.not_mem_nil, or_false] at hg; rcases hg with rfl | rfl; exacts [hk, mus_pairwise]⟩
  refine ⟨I, by unfold Ext.newTable; rw [hP]; simp only [hI], ?_⟩
  intro k hk' mu hmu
  obtain ⟨i, hi, ei⟩ := mem_getD hk'
  obtain ⟨j, hj, ej⟩ := mem_getD hmu
  have good : ∀ g ∈ I.grid, Interp.GoodGrid g := by
    rw [g1]; intro g hg; simp only [List.mem_cons, List.not_mem_nil, or_false] at hg
    rcases hg with rfl | rfl
    · exact ⟨hk, by omega⟩
    · exact ⟨mus_pairwise, by rw [mus_length]; omega⟩
  have gi : k = e.ks[i] := by rw [← ei, List.getD_eq_getElem?_getD, List.getElem?_eq_getElem hi]; rfl
  have gj : mu = mus[j] := by rw [← ej, List.getD_eq_getElem?_getD, List.getElem?_eq_getElem hj]; rfl
  have hn : Interp.evalPoint I .linear [k, mu] = some (P k mu) := by
    rw [Interp.C90_nodes I good [i, j] [k, mu] ?_ (by rw [g1]; rfl), g2]
    · simp only [List.map_cons, List.map_nil, List.getD_cons_zero, List.getD_cons_succ]
      simp only [Int.ofNat_eq_natCast, Int.toNat_natCast, ei, ej]
    · rw [g1]
      exact .cons ⟨hi, gi⟩ (.cons ⟨hj, gj⟩ .nil)
  have le : ∀ {l : List ℝ}, l.Pairwise (· < ·) → ∀ {n} (hn : n < l.length) (hne : l ≠ []), l.head hne ≤ l[n] ∧ l[n] ≤ l.getLast hne := by
    intro l hl n hn hne
    have hmono := List.pairwise_iff_getElem.mp hl
    constructor
    · rw [List.head_eq_getElem]
      rcases Nat.eq_zero_or_pos n with h | h
      · subst h; exact le_rfl
      · exact (hmono 0 n _ hn h).le
    · rw [List.getLast_eq_getElem]
      rcases Nat.lt_or_ge n (l.length - 1) with h | h
      · exact (hmono n _ hn (by omega) h).le
      · have : n = l.length - 1 := by omega
        subst this; exact le_rfl
  have hd := (Interp.C90_domain I good g4 [[k, mu]] (by rw [g1]; simp) none).2 (by
    intro x hx
    rw [List.mem_singleton] at hx
    subst hx
    unfold Interp.InDomain
    rw [g1]
    have hne : e.ks ≠ [] := by intro h; rw [h] at hkl; simp at hkl
    have hne2 : mus ≠ [] := by intro h; have := mus_length; rw [h] at this; simp at this
    exact .cons ⟨hne, by rw [gi]; exact le hk hi hne⟩ (.cons ⟨hne2, by rw [gj]; exact le mus_pairwise hj hne2⟩ .nil))
  unfold look
  rw [hd, g3]
  simp [hn]

theorem mapM_ok {α β : Type} (f : α → Except Err β) (g : α → β) (l : List α) (h : ∀ x ∈ l, f x = .ok (g x)) : l.mapM f = .ok (l.map g) := by
  induction l with
  | nil => rfl
  | cons x l ih =>
    rw [List.mapM_cons, h x List.mem_cons_self, ih fun y hy => h y (List.mem_cons_of_mem _ hy)]
    rfl

theorem ssr_map (A c : ℝ) (f : ℝ → ℝ) (xs : List ℝ) (a b : ℝ) :
    ssr A (xs.map fun k => k / c) (xs.map f) a b = (xs.map fun k => (A * (k / c) ^ (a + b * Real.logb 10 (k / c)) - f k) ^ 2).sum := by
  unfold ssr
  rw [List.zipWith_map, List.zipWith_self]

theorem sum_sq_nonneg (f : ℝ → ℝ) (xs : List ℝ) : 0 ≤ (xs.map fun k => f k ^ 2).sum :=
  List.sum_nonneg (by intro y hy; rw [List.mem_map] at hy; obtain ⟨k, -, rfl⟩ := hy; positivity)

theorem sum_sq_zero (f : ℝ → ℝ) (xs : List ℝ) (h : (xs.map fun k => f k ^ 2).sum ≤ 0) : ∀ k ∈ xs, f k = 0 := by
  induction xs with
  | nil => simp
  | cons x xs ih =>
    have hn : 0 ≤ (xs.map fun k => f k ^ 2).sum := List.sum_nonneg (by intro y hy; rw [List.mem_map] at hy; obtain ⟨k, -, rfl⟩ := hy; positivity)
    rw [List.map_cons, List.sum_cons] at h
    have hx : f x ^ 2 = 0 := by nlinarith [sq_nonneg (f x)]
    intro k hk
    rcases List.mem_cons.mp hk with rfl | hk
    · exact pow_eq_zero_iff (two_ne_zero) |>.mp hx
    · exact ih (by nlinarith [sq_nonneg (f x)]) k hk

/-- Exact data have one exponent. -/
theorem exponent_unique {A x s t : ℝ} (hA : A ≠ 0) (hx : 0 < x) (h1 : x ≠ 1) (h : A * x ^ s - A * x ^ t = 0) : s = t := by
  have : x ^ s = x ^ t := by
    have : A * (x ^ s - x ^ t) = 0 := by linarith
    rcases mul_eq_zero.mp this with h | h
    · exact absurd h hA
    · linarith
  exact Real.rpow_right_inj hx h1 |>.mp this

theorem fitLo_exact {T : Tools} (hT : LeastSquares1 T.fitLo) {c : ℝ} (hc : 0 < c) {f : ℝ → ℝ} {n : ℝ} (hA : f c ≠ 0) (xs : List ℝ) (hpos : ∀ k ∈ xs, 0 < k)
    (hf : ∀ k ∈ xs, f k = f c * (k / c) ^ n) (hx : ∃ k ∈ xs, k ≠ c) : T.fitLo (f c) (xs.map fun k => k / c) (xs.map f) = n := by
  obtain ⟨N, hN⟩ : ∃ N, N = T.fitLo (f c) (xs.map fun k => k / c) (xs.map f) := ⟨_, rfl⟩
  have hz : (xs.map fun k => (f c * (k / c) ^ (n + 0 * Real.logb 10 (k / c)) - f k) ^ 2).sum = 0 := by
    rw [List.map_congr_left (g := fun _ => (0 : ℝ))]
    · simp
    · intro k hk; rw [hf k hk]; simp
  have h := hT (f c) (xs.map fun k => k / c) (xs.map f) n (by intro a; rw [ssr_map, ssr_map, hz]; exact sum_sq_nonneg _ _)
  rw [← hN, ssr_map, ssr_map, hz] at h
  obtain ⟨k, hk, hne⟩ := hx
  have := sum_sq_zero (fun k => f c * (k / c) ^ (N + 0 * Real.logb 10 (k / c)) - f k) xs h k hk
  simp only [zero_mul, add_zero] at this
  rw [hf k hk] at this
  rw [← hN]
  exact exponent_unique hA (div_pos (hpos k hk) hc) (by rw [ne_eq, div_eq_one_iff_eq hc.ne']; exact hne) this

theorem fitHi_exact {T : Tools} (hT : LeastSquares2 T.fitHi) {c : ℝ} (hc : 0 < c) {f : ℝ → ℝ} {n b : ℝ} (hA : f c ≠ 0) (xs : List ℝ) (hpos : ∀ k ∈ xs, 0 < k)
    (hf : ∀ k ∈ xs, f k = f c * (k / c) ^ (n + b * Real.logb 10 (k / c))) (hx : ∃ k ∈ xs, ∃ q ∈ xs, k ≠ c ∧ q ≠ c ∧ k ≠ q) :
    T.fitHi (f c) (xs.map fun k => k / c) (xs.map f) = (n, b) := by
  obtain ⟨N, hN⟩ : ∃ N, N = T.fitHi (f c) (xs.map fun k => k / c) (xs.map f) := ⟨_, rfl⟩
  have hz : (xs.map fun k => (f c * (k / c) ^ (n + b * Real.logb 10 (k / c)) - f k) ^ 2).sum = 0 := by
    rw [List.map_congr_left (g := fun _ => (0 : ℝ))]
    · simp
    · intro k hk; rw [hf k hk]; simp
  have h := hT (f c) (xs.map fun k => k / c) (xs.map f) n b (by intro a d; rw [ssr_map, ssr_map, hz]; exact sum_sq_nonneg _ _)
  rw [← hN, ssr_map, ssr_map, hz] at h
  have key : ∀ k ∈ xs, k ≠ c → N.1 + N.2 * Real.logb 10 (k / c) = n + b * Real.logb 10 (k / c) := by
    intro k hk hne
    have := sum_sq_zero (fun k => f c * (k / c) ^ (N.1 + N.2 * Real.logb 10 (k / c)) - f k) xs h k hk
    rw [hf k hk] at this
    exact exponent_unique hA (div_pos (hpos k hk) hc) (by rw [ne_eq, div_eq_one_iff_eq hc.ne']; exact hne) this
  obtain ⟨k, hk, q, hq, h1, h2, h3⟩ := hx
  have a1 := key k hk h1
  have a2 := key q hq h2
  have hl : Real.logb 10 (k / c) ≠ Real.logb 10 (q / c) := by
    intro e
    have := Real.logb_injOn_pos (by norm_num : (1:ℝ) < 10) (Set.mem_Ioi.mpr (div_pos (hpos k hk) hc)) (Set.mem_Ioi.mpr (div_pos (hpos q hq) hc)) e
    rw [div_left_inj' hc.ne'] at this
    exact h3 this
  have hb : N.2 = b := by
    have : (N.2 - b) * (Real.logb 10 (k / c) - Real.logb 10 (q / c)) = 0 := by linarith
    rcases mul_eq_zero.mp this with h | h
    · linarith
    · exact absurd (by linarith) hl
  rw [← hN]
  rw [hb] at a1
  exact Prod.ext (by linarith) hb

theorem ks_pos (e : Ext) {k : ℝ} (h : k ∈ e.ks) : 0 < k := by
  unfold Ext.ks logspace at h
  rw [List.mem_map] at h
  obtain ⟨i, -, rfl⟩ := h
  exact Real.rpow_pos_of_pos (by norm_num) _

theorem first_mem (e : Ext) (h0 : 0 < e.kmin * 1.05) : e.kmin * 1.05 ∈ e.ks := by
  have h := logspace_first h0 200 (b := e.kmax * 0.95) (by norm_num)
  have hl : 0 < e.ks.length := by unfold Ext.ks; rw [logspace_length]; norm_num
  rw [← h]
  unfold Ext.ks at hl ⊢
  rw [List.getD_eq_getElem?_getD, List.getElem?_eq_getElem hl]
  exact List.getElem_mem hl

theorem last_mem (e : Ext) (h0 : 0 < e.kmax * 0.95) : e.kmax * 0.95 ∈ e.ks := by
  have h := logspace_last (a := e.kmin * 1.05) h0 200 (by norm_num)
  have hl : 200 - 1 < e.ks.length := by unfold Ext.ks; rw [logspace_length]; norm_num
  rw [← h]
  unfold Ext.ks at hl ⊢
  rw [List.getD_eq_getElem?_getD, List.getElem?_eq_getElem hl]
  exact List.getElem_mem hl

/-- The low slopes of data that are a power law on the grid -/
theorem lowOf_exact {T : Tools} (hT : LeastSquares1 T.fitLo) {e : Ext} {P : ℝ → ℝ → ℝ} (hP : e.m.P = some P)
    (h0 : 0 < e.kmin * 1.05) (h1 : e.kmin * 1.05 < e.kmax * 0.95) (hk : e.kLo = e.kmin * 1.05) (hx : ∃ k ∈ e.ks, e.kLo < k ∧ k ≤ e.cutLo)
    {n : ℝ → ℝ} (hA : ∀ mu ∈ mus, P e.kLo mu ≠ 0) (hn : ∀ mu ∈ mus, ∀ k ∈ e.ks, k ≤ e.cutLo → P k mu = P e.kLo mu * (k / e.kLo) ^ n mu) :
    e.lowOf T = .ok (T.spline mus (mus.map n)) := by
  obtain ⟨I, hI, hl⟩ := newTable_spec e hP h0 h1
  have hmem : e.kLo ∈ e.ks := by rw [hk]; exact first_mem e h0
  obtain ⟨q, hq, q1, q2⟩ := hx
  have hqf : q ∈ e.ks.filter fun k => decide (k ≤ e.cutLo) := by rw [List.mem_filter]; exact ⟨hq, by simpa using q2⟩
  simp only [Ext.lowOf, hI, bind, Except.bind, Ext.newLow]
  rw [if_neg (List.ne_nil_of_mem hqf), mapM_ok _ n]
  · rfl
  · intro mu hmu
    have hl' : (e.ks.filter fun k => decide (k ≤ e.cutLo)).mapM (fun k => look I k mu) = .ok ((e.ks.filter fun k => decide (k ≤ e.cutLo)).map fun k => P k mu) :=
      mapM_ok _ _ _ fun k hk => hl k (List.mem_filter.mp hk).1 mu hmu
    simp only [slopeLo, hl _ hmem mu hmu, hl', bind, Except.bind]
    congr 1
    refine fitLo_exact hT (f := fun k => P k mu) (by rw [hk]; exact h0) (hA mu hmu) _ (fun k hk => ks_pos e (List.mem_filter.mp hk).1) ?_ ⟨q, hqf, q1.ne'⟩
    intro k hk
    rw [List.mem_filter] at hk
    exact hn mu hmu k hk.1 (by simpa using hk.2)

/-- The high slopes of data that are a power law with a varying slope on the grid -/
theorem highOf_exact {T : Tools} (hT : LeastSquares2 T.fitHi) {e : Ext} {P : ℝ → ℝ → ℝ} (hP : e.m.P = some P)
    (h0 : 0 < e.kmin * 1.05) (h1 : e.kmin * 1.05 < e.kmax * 0.95) (hk : e.kHi = e.kmax * 0.95) (hx : ∃ k ∈ e.ks, ∃ q ∈ e.ks, e.cutHi ≤ k ∧ k < q ∧ q < e.kHi)
    {n b : ℝ → ℝ} (hA : ∀ mu ∈ mus, P e.kHi mu ≠ 0)
    (hn : ∀ mu ∈ mus, ∀ k ∈ e.ks, e.cutHi ≤ k → P k mu = P e.kHi mu * (k / e.kHi) ^ (n mu + b mu * Real.logb 10 (k / e.kHi))) :
    e.highOf T = .ok (T.spline mus (mus.map n), T.spline mus (mus.map b)) := by
  obtain ⟨I, hI, hl⟩ := newTable_spec e hP h0 h1
  have hmem : e.kHi ∈ e.ks := by rw [hk]; exact last_mem e (h0.trans h1)
  obtain ⟨k₁, hk₁, k₂, hk₂, c1, c2, c3⟩ := hx
  have f1 : k₁ ∈ e.ks.filter fun k => decide (e.cutHi ≤ k) := by rw [List.mem_filter]; exact ⟨hk₁, by simpa using c1⟩
  have f2 : k₂ ∈ e.ks.filter fun k => decide (e.cutHi ≤ k) := by rw [List.mem_filter]; exact ⟨hk₂, by simpa using c1.trans c2.le⟩
  have hlen : ¬ (e.ks.filter fun k => decide (e.cutHi ≤ k)).length < 2 := by
    intro h
    rcases hl : e.ks.filter (fun k => decide (e.cutHi ≤ k)) with _ | ⟨x, _ | ⟨y, l⟩⟩
    · rw [hl] at f1; simp at f1
    · rw [hl] at f1 f2; simp at f1 f2; linarith
    · rw [hl] at h; simp at h
  simp only [Ext.highOf, hI, bind, Except.bind, Ext.newHigh]
  rw [if_neg (List.ne_nil_of_mem f1), if_neg hlen, mapM_ok _ (fun mu => (n mu, b mu))]
  · simp only [Except.map, List.map_map, Function.comp_def]
  · intro mu hmu
    have hl' : (e.ks.filter fun k => decide (e.cutHi ≤ k)).mapM (fun k => look I k mu) = .ok ((e.ks.filter fun k => decide (e.cutHi ≤ k)).map fun k => P k mu) :=
      mapM_ok _ _ _ fun k hk => hl k (List.mem_filter.mp hk).1 mu hmu
    simp only [slopeHi, hl _ hmem mu hmu, hl', bind, Except.bind]
    congr 1
    refine fitHi_exact hT (f := fun k => P k mu) (by rw [hk]; exact h0.trans h1) (hA mu hmu) _ (fun k hk => ks_pos e (List.mem_filter.mp hk).1) ?_
      ⟨k₁, f1, k₂, f2, (c2.trans c3).ne, c3.ne, c2.ne⟩
    intro k hk
    rw [List.mem_filter] at hk
    exact hn mu hmu k hk.1 (by simpa using hk.2)

theorem low_is {T : Tools} {m : PModel} {o : Opts} {e : Ext} (h : Run T m o e) {P : ℝ → ℝ → ℝ} (hP : m.P = some P) {f : ℝ → ℝ} (hf : e.lowOf T = .ok f) (k mu : ℝ) (hk : k < e.kLo)
    (hhi : e.kLo ≤ e.kHi) : (e.call T [(k, mu)]).map (·.1) = .ok [P e.kLo mu * (k / e.kLo) ^ f mu] := by
  obtain ⟨s, hm⟩ := run_sound h
  rcases getLow_spec s with ⟨x, a, -⟩ | ⟨f', e', a, b, c, -⟩
  · rw [hf] at a; exact absurd a (by simp)
  · rw [hf] at a; injection a with a; subst a
    have h2 : ¬ ∃ q ∈ [k], e'.kHi < q := by
      rintro ⟨q, hq, h⟩
      rw [List.mem_singleton] at hq; subst hq
      have : e'.kHi = e.kHi := (congrArg Ext.kHi c).symm
      linarith
    have hc : e.curve T ([(k, mu)].map (·.1)) = .ok (entry P e.kLo e.kHi f (fun _ => 0, fun _ => 0), e') := by
      simp only [Ext.curve, bind, Except.bind, Ext.lowFor, Ext.highFor, List.map_cons, List.map_nil]
      rw [if_pos ⟨k, List.mem_singleton.mpr rfl, hk⟩, b]
      simp only [if_neg h2, hm.trans hP]
    unfold Ext.call
    rw [if_neg (by simp), hc]
    simp only [Except.map, List.map_cons, List.map_nil, entry, if_pos hk, powerLaw, zero_mul, add_zero]

theorem high_is {T : Tools} {m : PModel} {o : Opts} {e : Ext} (h : Run T m o e) {P : ℝ → ℝ → ℝ} (hP : m.P = some P) {f : (ℝ → ℝ) × (ℝ → ℝ)} (hf : e.highOf T = .ok f) (k mu : ℝ) (hk : e.kHi < k)
    (hhi : e.kLo ≤ e.kHi) : (e.call T [(k, mu)]).map (·.1) = .ok [P e.kHi mu * (k / e.kHi) ^ (f.1 mu + f.2 mu * Real.logb 10 (k / e.kHi))] := by
  obtain ⟨s, hm⟩ := run_sound h
  rcases getHigh_spec s with ⟨x, a, -⟩ | ⟨f', e', a, b, c, -⟩
  · rw [hf] at a; exact absurd a (by simp)
  · rw [hf] at a; injection a with a; subst a
    have h2 : ¬ ∃ q ∈ [k], q < e.kLo := by
      rintro ⟨q, hq, h⟩
      rw [List.mem_singleton] at hq; subst hq
      linarith
    have hc : e.curve T ([(k, mu)].map (·.1)) = .ok (entry P e.kLo e.kHi (fun _ => 0) f, e') := by
      simp only [Ext.curve, bind, Except.bind, Ext.lowFor, Ext.highFor, List.map_cons, List.map_nil]
      rw [if_neg h2]
      dsimp only
      rw [if_pos ⟨k, List.mem_singleton.mpr rfl, hk⟩, b]
      simp only [hm.trans hP]
    unfold Ext.call
    rw [if_neg (by simp), hc]
    simp only [Except.map, List.map_cons, List.map_nil, entry, if_neg (not_lt.mpr (hhi.trans hk.le)), if_neg (not_le.mpr hk), powerLaw]

/-- C147: a power spectrum that is a power law in the wavenumber is continued exactly to low wavenumbers, at the mu of the grid, if the end is the first wavenumber of the grid and a further one
takes part in the fit: whatever was evaluated before. -/
theorem C147_exact_low {T : Tools} (hT : LeastSquares1 T.fitLo) (hS : Interpolates T.spline) {m : PModel} {o : Opts} {e : Ext} (h : Run T m o e) {A n : ℝ → ℝ} {P : ℝ → ℝ → ℝ} (hP : m.P = some P)
    (h0 : 0 < e.kmin * 1.05) (h1 : e.kmin * 1.05 < e.kmax * 0.95) (hk : e.kLo = e.kmin * 1.05) (hhi : e.kLo ≤ e.kHi) (hx : ∃ k ∈ e.ks, e.kLo < k ∧ k ≤ e.cutLo)
    (hA : ∀ mu ∈ mus, A mu ≠ 0) (hn : ∀ mu ∈ mus, ∀ k ∈ e.ks, k ≤ e.cutLo → P k mu = A mu * k ^ n mu) (hcut : e.kLo < e.cutLo) (k mu : ℝ) (hmu : mu ∈ mus) (hk0 : 0 < k) (hk1 : k < e.kLo) :
    (e.call T [(k, mu)]).map (·.1) = .ok [A mu * k ^ n mu] := by
  obtain ⟨s, hm⟩ := run_sound h
  have hpos : 0 < e.kLo := by rw [hk]; exact h0
  have hmem : e.kLo ∈ e.ks := by rw [hk]; exact first_mem e h0
  have hlo : ∀ mu ∈ mus, P e.kLo mu = A mu * e.kLo ^ n mu := fun mu hmu => hn mu hmu _ hmem hcut.le
  have hf := lowOf_exact hT (hm.trans hP) h0 h1 hk hx (n := n) (fun mu hmu => by rw [hlo mu hmu]; exact mul_ne_zero (hA mu hmu) (Real.rpow_pos_of_pos hpos _).ne') (by
    intro mu hmu k hk' hk2
    rw [hn mu hmu k hk' hk2, hlo mu hmu, Real.div_rpow (ks_pos e hk').le hpos.le, mul_assoc, mul_div_cancel₀ _ (Real.rpow_pos_of_pos hpos _).ne'])
  rw [low_is h hP hf k mu hk1 hhi]
  obtain ⟨j, hj, ej⟩ := mem_getD hmu
  have hs : T.spline mus (mus.map n) mu = n mu := by
    have h := hS mus (mus.map n) mus_pairwise (by simp) j hj
    rw [ej] at h
    rw [h, List.getD_eq_getElem?_getD, List.getElem?_map, List.getElem?_eq_getElem hj]
    have : mus[j] = mu := by rw [← ej, List.getD_eq_getElem?_getD, List.getElem?_eq_getElem hj]; rfl
    simp [this]
  rw [hs, hlo mu hmu, Real.div_rpow hk0.le hpos.le, mul_assoc, mul_div_cancel₀ _ (Real.rpow_pos_of_pos hpos _).ne']

/-- C147: the same at high wavenumbers, for a power law whose slope varies with the logarithm of the wavenumber, if the end is the last wavenumber of the grid and two more take part in the fit. -/
theorem C147_exact_high {T : Tools} (hT : LeastSquares2 T.fitHi) (hS : Interpolates T.spline) {m : PModel} {o : Opts} {e : Ext} (h : Run T m o e) {A n b : ℝ → ℝ} {P : ℝ → ℝ → ℝ} (hP : m.P = some P)
    (h0 : 0 < e.kmin * 1.05) (h1 : e.kmin * 1.05 < e.kmax * 0.95) (hk : e.kHi = e.kmax * 0.95) (hlo : e.kLo ≤ e.kHi) (hx : ∃ k ∈ e.ks, ∃ q ∈ e.ks, e.cutHi ≤ k ∧ k < q ∧ q < e.kHi)
    (hA : ∀ mu ∈ mus, A mu ≠ 0) (hn : ∀ mu ∈ mus, ∀ k ∈ e.ks, e.cutHi ≤ k → P k mu = A mu * (k / e.kHi) ^ (n mu + b mu * Real.logb 10 (k / e.kHi))) (hcut : e.cutHi < e.kHi)
    (k mu : ℝ) (hmu : mu ∈ mus) (hk1 : e.kHi < k) :
    (e.call T [(k, mu)]).map (·.1) = .ok [A mu * (k / e.kHi) ^ (n mu + b mu * Real.logb 10 (k / e.kHi))] := by
  obtain ⟨s, hm⟩ := run_sound h
  have hpos : 0 < e.kHi := by rw [hk]; exact h0.trans h1
  have hmem : e.kHi ∈ e.ks := by rw [hk]; exact last_mem e (h0.trans h1)
  have hA' : ∀ mu ∈ mus, P e.kHi mu = A mu := fun mu hmu => by rw [hn mu hmu _ hmem hcut.le, div_self hpos.ne', Real.one_rpow, mul_one]
  have hf := highOf_exact hT (hm.trans hP) h0 h1 hk hx (n := n) (b := b) (fun mu hmu => by rw [hA' mu hmu]; exact hA mu hmu) (by
    intro mu hmu k hk' hk2
    rw [hn mu hmu k hk' hk2, hA' mu hmu])
  rw [high_is h hP hf k mu hk1 hlo, hA' mu hmu]
  obtain ⟨j, hj, ej⟩ := mem_getD hmu
  have hs : ∀ n : ℝ → ℝ, T.spline mus (mus.map n) mu = n mu := by
    intro n
    have h := hS mus (mus.map n) mus_pairwise (by simp) j hj
    rw [ej] at h
    rw [h, List.getD_eq_getElem?_getD, List.getElem?_map, List.getElem?_eq_getElem hj]
    have : mus[j] = mu := by rw [← ej, List.getD_eq_getElem?_getD, List.getElem?_eq_getElem hj]; rfl
    simp [this]
  simp only [hs n, hs b]

end

end Verif.Extrapolate
