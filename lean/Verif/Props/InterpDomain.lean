/-
C135: a spectrum is only returned at the wavenumbers the model covers.
-/
import Verif.Spec.InterpDomain
import Verif.Props.AP
import Mathlib.LinearAlgebra.Lagrange
import Mathlib.Analysis.Calculus.Deriv.Polynomial
import Mathlib.Analysis.Calculus.Deriv.Add
import Mathlib.Analysis.Calculus.Deriv.Mul
import Mathlib.Tactic.NormNum
import Mathlib.Tactic.Ring
import Mathlib.Tactic.Linarith
import Mathlib.Tactic.FieldSimp

namespace Verif.InterpDomain

open Verif.AP

noncomputable section

/-! ### The wavenumbers of the model -/

theorem logspace_get (a b : ℝ) (n i : ℕ) (h : i < n) :
    (logspace a b n)[i]? = some ((10 : ℝ) ^ (Real.logb 10 a + i * ((Real.logb 10 b - Real.logb 10 a) / ((n : ℝ) - 1)))) := by
  simp [logspace, h]

/-- **C135 (range).** For limits the model accepts, its wavenumbers are `Nk` increasing ones from `kmin` to `kmax`, both included. -/
theorem C135_range (kmin kmax : ℝ) (nk : ℕ) (h1 : 5e-6 ≤ kmin) (h2 : kmin < kmax) (h3 : kmax ≤ 1) (hn : 2 ≤ nk) :
    (modelK kmin kmax nk).length = nk ∧ (modelK kmin kmax nk).head? = some kmin ∧ (modelK kmin kmax nk).getLast? = some kmax ∧
    (modelK kmin kmax nk).Pairwise (· < ·) := by
  have h0 : 0 < kmin := lt_of_lt_of_le (by norm_num) h1
  have hk : modelK kmin kmax nk = logspace kmin kmax nk := by
    unfold modelK interpKmin interpKmax
    dsimp only
    rw [if_neg (not_lt.2 h1), if_neg (not_lt.2 h3)]
  have hlen : (logspace kmin kmax nk).length = nk := by simp [logspace]
  have hn1 : (0 : ℝ) < (nk : ℝ) - 1 := by
    have : (2 : ℝ) ≤ nk := by exact_mod_cast hn
    linarith
  rw [hk]
  refine ⟨hlen, ?_, ?_, ?_⟩
  · rw [List.head?_eq_getElem?, logspace_get _ _ _ _ (by omega)]
    simp only [Nat.cast_zero, zero_mul, add_zero]
    rw [Real.rpow_logb (by norm_num) (by norm_num) h0]
  · rw [List.getLast?_eq_getElem?, hlen, logspace_get _ _ _ _ (by omega)]
    have : ((nk - 1 : ℕ) : ℝ) = (nk : ℝ) - 1 := by
      rw [Nat.cast_sub (by omega)]; norm_num
    rw [this, mul_div_cancel₀ _ hn1.ne', add_sub_cancel, Real.rpow_logb (by norm_num) (by norm_num) (h0.trans h2)]
  · unfold logspace
    rw [List.pairwise_map]
    refine List.pairwise_lt_range.imp ?_
    intro i j hij
    refine Real.rpow_lt_rpow_of_exponent_lt (by norm_num) ?_
    have hl : Real.logb 10 kmin < Real.logb 10 kmax := Real.logb_lt_logb (by norm_num) h0 h2
    have hd : 0 < (Real.logb 10 kmax - Real.logb 10 kmin) / ((nk : ℝ) - 1) := div_pos (by linarith) hn1
    have hij' : (i : ℝ) < j := by exact_mod_cast hij
    nlinarith [mul_pos (sub_pos.2 hij') hd]

/-! ### Evaluation -/

theorem call_spec (m : Model) (c : Caches) (hc : CacheOK m c) (i : ℕ) (dv : Bool) (ks : List Num) :
    (m.call c i dv ks).1 = callInterp ⟨m.grid, interpolant m i, interpolant' m i⟩ dv ks ∧ CacheOK m (m.call c i dv ks).2 := by
  have hs : entry m.interp ⟨m.P i, m.grid⟩ (c i) = ⟨m.grid, interpolant m i, interpolant' m i⟩ := by
    rcases hc i with h | h <;> rw [h] <;> rfl
  unfold Model.call wrapped
  simp only [Bool.false_eq_true, if_false]
  constructor
  · rw [hs]
  · intro j
    by_cases hj : j = i
    · subst hj
      right
      simp only [if_true]
      rw [hs]
    · simp only [hj, if_false]
      exact hc j

/-- what a spline does on numbers -/
theorem splCall (s : Spl) (lo hi : ℝ) (h1 : s.x.head? = some lo) (h2 : s.x.getLast? = some hi) (ks : List ℝ) :
    ((∀ k ∈ ks, lo ≤ k ∧ k ≤ hi) → s.call (ks.map some) = .ok (ks.map fun k => some (s.f k))) ∧
    ((∃ k ∈ ks, k < lo ∨ hi < k) → ∃ above below, s.call (ks.map some) = .error (.domain above below) ∧
      (above = true ↔ ∃ k ∈ ks, hi < k) ∧ (below = true ↔ ∃ k ∈ ks, k < lo)) := by
  have hlt : ∀ (k b : ℝ), numLt (some k) b ↔ k < b := fun k b => ⟨fun ⟨v, e, h⟩ => by cases e; exact h, fun h => ⟨k, rfl, h⟩⟩
  have hgt : ∀ (k b : ℝ), numGt (some k) b ↔ b < k := fun k b => ⟨fun ⟨v, e, h⟩ => by cases e; exact h, fun h => ⟨k, rfl, h⟩⟩
  have hlo : s.x.head?.getD 0 = lo := by rw [h1]; rfl
  have hhi : s.x.getLast?.getD 0 = hi := by rw [h2]; rfl
  clear h1 h2
  subst hlo hhi
  unfold Spl.call
  dsimp only
  constructor
  · intro h
    rw [if_neg]
    · rw [List.map_map]; rfl
    · rw [List.any_eq_true]
      rintro ⟨x, hx, hd⟩
      obtain ⟨k, hk, rfl⟩ := List.mem_map.1 hx
      simp only [Bool.or_eq_true, decide_eq_true_eq, hlt, hgt] at hd
      have := h k hk
      rcases hd with hd | hd <;> linarith
  · rintro ⟨k, hk, hd⟩
    rw [if_pos]
    · refine ⟨_, _, rfl, ?_, ?_⟩
      · rw [List.any_eq_true]
        constructor
        · rintro ⟨x, hx, hd⟩
          obtain ⟨k, hk, rfl⟩ := List.mem_map.1 hx
          simp only [decide_eq_true_eq, hgt] at hd
          exact ⟨k, hk, hd⟩
        · rintro ⟨k, hk, hd⟩
          exact ⟨some k, List.mem_map_of_mem hk, by simpa [hgt] using hd⟩
      · rw [List.any_eq_true]
        constructor
        · rintro ⟨x, hx, hd⟩
          obtain ⟨k, hk, rfl⟩ := List.mem_map.1 hx
          simp only [decide_eq_true_eq, hlt] at hd
          exact ⟨k, hk, hd⟩
        · rintro ⟨k, hk, hd⟩
          exact ⟨some k, List.mem_map_of_mem hk, by simpa [hlt] using hd⟩
    · rw [List.any_eq_true]
      exact ⟨some k, List.mem_map_of_mem hk, by simpa [hlt, hgt] using hd⟩

theorem arr_apK (m : Model) (l : List (ℝ × ℝ)) : (arr l).map (apK m.al) = (l.map (trueK m)).map some := by
  unfold arr
  rw [List.map_map, List.map_map]
  rfl

/-- the term of order `2i` in observed volumes -/
def termAt (m : Model) (i : ℕ) (q : ℝ × ℝ) : ℝ := rescale m.al (trueMu m q ^ (2 * i) * interpolant m i (trueK m q))

theorem term_spec (m : Model) (lo hi : ℝ) (hg : Covers m lo hi) (c : Caches) (hc : CacheOK m c) (i : ℕ) (l : List (ℝ × ℝ)) :
    CacheOK m (m.term c i (arr l)).2 ∧
    ((∀ q ∈ l, lo ≤ trueK m q ∧ trueK m q ≤ hi) → (m.term c i (arr l)).1 = .ok (l.map fun q => some (termAt m i q))) ∧
    ((∃ q ∈ l, trueK m q < lo ∨ hi < trueK m q) → ∃ above below, (m.term c i (arr l)).1 = .error (.domain above below) ∧
      (above = true ↔ ∃ q ∈ l, hi < trueK m q) ∧ (below = true ↔ ∃ q ∈ l, trueK m q < lo)) := by
  obtain ⟨c1, c2⟩ := call_spec m c hc i false ((arr l).map (apK m.al))
  obtain ⟨s1, s2⟩ := splCall ⟨m.grid, interpolant m i, interpolant' m i⟩ lo hi hg.1 hg.2 (l.map (trueK m))
  obtain ⟨r, c', hr⟩ : ∃ r c', m.call c i false ((arr l).map (apK m.al)) = (r, c') := ⟨_, _, rfl⟩
  rw [hr] at c1 c2
  simp only [callInterp, Bool.false_eq_true, if_false] at c1
  rw [arr_apK] at c1
  unfold Model.term
  rw [hr]
  refine ⟨?_, ?_, ?_⟩
  · cases r with
    | error e => exact c2
    | ok v => exact c2
  · intro h
    have := s1 (by
      intro k hk
      obtain ⟨q, hq, rfl⟩ := List.mem_map.1 hk
      exact h q hq)
    rw [this] at c1
    subst c1
    simp only [Except.ok.injEq]
    unfold arr
    rw [List.map_map, List.zipWith_map_left, List.zipWith_map_right, List.zipWith_self]
    rfl
  · rintro ⟨q, hq, hd⟩
    obtain ⟨above, below, e, ha, hb⟩ := s2 ⟨trueK m q, List.mem_map_of_mem hq, hd⟩
    rw [e] at c1
    subst c1
    refine ⟨above, below, rfl, ?_, ?_⟩
    · rw [ha]; simp
    · rw [hb]; simp

theorem addNum_map (l : List (ℝ × ℝ)) (f g : ℝ × ℝ → ℝ) :
    addNum (l.map fun q => some (f q)) (l.map fun q => some (g q)) = l.map fun q => some (f q + g q) := by
  unfold addNum
  rw [List.zipWith_map_left, List.zipWith_map_right, List.zipWith_self]
  rfl

theorem loop_spec (m : Model) (lo hi : ℝ) (hg : Covers m lo hi) (l : List (ℝ × ℝ)) (n : ℕ) :
    ∀ (i : ℕ) (acc : ℝ × ℝ → ℝ) (c : Caches), CacheOK m c →
      CacheOK m (m.loop (arr l) n i (l.map fun q => some (acc q)) c).2 ∧
      ((∀ q ∈ l, lo ≤ trueK m q ∧ trueK m q ≤ hi) →
        (m.loop (arr l) n i (l.map fun q => some (acc q)) c).1 = .ok (l.map fun q => some (acc q + ∑ j ∈ Finset.range n, termAt m (i + j) q))) ∧
      (0 < n → (∃ q ∈ l, trueK m q < lo ∨ hi < trueK m q) → ∃ above below, (m.loop (arr l) n i (l.map fun q => some (acc q)) c).1 = .error (.domain above below) ∧
        (above = true ↔ ∃ q ∈ l, hi < trueK m q) ∧ (below = true ↔ ∃ q ∈ l, trueK m q < lo)) := by
  induction n with
  | zero =>
    intro i acc c hc
    refine ⟨hc, fun _ => by simp [Model.loop], fun h => absurd h (lt_irrefl 0)⟩
  | succ n ih =>
    intro i acc c hc
    obtain ⟨t1, t2, t3⟩ := term_spec m lo hi hg c hc i l
    obtain ⟨r, c', hr⟩ : ∃ r c', m.term c i (arr l) = (r, c') := ⟨_, _, rfl⟩
    rw [hr] at t1 t2 t3
    simp only at t1 t2 t3
    by_cases hin : ∀ q ∈ l, lo ≤ trueK m q ∧ trueK m q ≤ hi
    · have hr2 := t2 hin
      subst hr2
      obtain ⟨a1, a2, a3⟩ := ih (i + 1) (fun q => acc q + termAt m i q) c' t1
      have hl : m.loop (arr l) (n + 1) i (l.map fun q => some (acc q)) c =
          m.loop (arr l) n (i + 1) (l.map fun q => some (acc q + termAt m i q)) c' := by
        simp only [Model.loop, hr, addNum_map]
      rw [hl]
      refine ⟨a1, fun h => ?_, fun _ hex => ?_⟩
      · rw [a2 h]
        congr 1
        refine List.map_congr_left fun q _ => ?_
        rw [Finset.sum_range_succ']
        congr 1
        simp only [Nat.add_zero]
        rw [add_assoc, add_comm (termAt m i q)]
        congr 2
        refine Finset.sum_congr rfl fun j _ => ?_
        rw [Nat.add_assoc, Nat.add_comm 1 j]
      · exfalso
        obtain ⟨q, hq, hd⟩ := hex
        have := hin q hq
        rcases hd with hd | hd <;> linarith
    · have hex : ∃ q ∈ l, trueK m q < lo ∨ hi < trueK m q := by
        push Not at hin
        obtain ⟨q, hq, h⟩ := hin
        refine ⟨q, hq, ?_⟩
        by_cases hlo : lo ≤ trueK m q
        · exact .inr (h hlo)
        · exact .inl (not_le.1 hlo)
      obtain ⟨above, below, e, ha, hb⟩ := t3 hex
      subst e
      have hl : m.loop (arr l) (n + 1) i (l.map fun q => some (acc q)) c = (.error (.domain above below), c') := by
        simp only [Model.loop, hr]
      rw [hl]
      exact ⟨t1, fun h => absurd h hin, fun _ _ => ⟨above, below, rfl, ha, hb⟩⟩

theorem sum_rescale (al : Alphas) (n : ℕ) (g : ℕ → ℝ) : ∑ j ∈ Finset.range n, rescale al (g j) = al.drag ^ 3 / (al.perp ^ 2 * al.par) * ∑ j ∈ Finset.range n, g j := by
  rw [Finset.mul_sum]
  refine Finset.sum_congr rfl fun j _ => ?_
  unfold rescale
  ring

theorem power_spec (m : Model) (hmu : m.maxMu ≤ 6) (lo hi : ℝ) (hg : Covers m lo hi) (c : Caches) (hc : CacheOK m c) (l : List (ℝ × ℝ)) :
    CacheOK m (m.power c (arr l)).2 ∧
    ((∀ q ∈ l, lo ≤ trueK m q ∧ trueK m q ≤ hi) → (m.power c (arr l)).1 = .ok (l.map (observed m))) ∧
    ((∃ q ∈ l, trueK m q < lo ∨ hi < trueK m q) → ∃ above below, (m.power c (arr l)).1 = .error (.domain above below) ∧
      (above = true ↔ ∃ q ∈ l, hi < trueK m q) ∧ (below = true ↔ ∃ q ∈ l, trueK m q < lo)) := by
  obtain ⟨a1, a2, a3⟩ := loop_spec m lo hi hg l (m.maxMu / 2 + 1) 0 (fun _ => 0) c hc
  have hz : ((arr l).map fun _ => (some 0 : Num)) = l.map fun _ => some 0 := by
    unfold arr; rw [List.map_map]; rfl
  unfold Model.power
  rw [if_neg (not_lt.2 hmu), hz]
  obtain ⟨r, c', hr⟩ : ∃ r c', m.loop (arr l) (m.maxMu / 2 + 1) 0 (l.map fun _ => some 0) c = (r, c') := ⟨_, _, rfl⟩
  rw [hr] at a1 a2 a3 ⊢
  simp only at a1 a2 a3
  refine ⟨?_, ?_, ?_⟩
  · cases r <;> exact a1
  · intro h
    have := a2 h
    subst this
    simp only [Except.ok.injEq, List.map_map]
    refine List.map_congr_left fun q _ => ?_
    simp only [Function.comp, Option.getD_some, zero_add, observed, inner]
    unfold termAt
    exact sum_rescale _ _ _
  · intro h
    obtain ⟨above, below, e, ha, hb⟩ := a3 (Nat.succ_pos _) h
    subst e
    exact ⟨above, below, rfl, ha, hb⟩

/-! ### Histories -/

theorem loop_cache (m : Model) (kmu : List (Num × ℝ)) (n : ℕ) : ∀ (i : ℕ) (acc : List Num) (c : Caches), CacheOK m c → CacheOK m (m.loop kmu n i acc c).2 := by
  induction n with
  | zero => intro i acc c hc; exact hc
  | succ n ih =>
    intro i acc c hc
    have ht : CacheOK m (m.term c i kmu).2 := by
      have := (call_spec m c hc i false (kmu.map (apK m.al))).2
      unfold Model.term
      split
      next e c' h => rw [h] at this; exact this
      next v c' h => rw [h] at this; exact this
    simp only [Model.loop]
    split
    next e c' h => rw [h] at ht; exact ht
    next v c' h => rw [h] at ht; exact ih _ _ c' ht

theorem loopDk_cache (m : Model) (kmu : List (Num × ℝ)) (n : ℕ) : ∀ (i : ℕ) (acc : List Num) (c : Caches), CacheOK m c → CacheOK m (m.loopDk kmu n i acc c).2 := by
  induction n with
  | zero => intro i acc c hc; exact hc
  | succ n ih =>
    intro i acc c hc
    have ht := (call_spec m c hc i true (kmu.map Prod.fst)).2
    simp only [Model.loopDk]
    split
    next e c' h => rw [h] at ht; exact ht
    next v c' h => rw [h] at ht; exact ih _ _ c' ht

theorem runOps_cache (m : Model) (ops : List Op) : ∀ c, CacheOK m c → CacheOK m (runOps m ops c) := by
  induction ops with
  | nil => intro c h; exact h
  | cons o ops ih =>
    intro c h
    cases o with
    | power l =>
      refine ih _ ?_
      unfold Model.power
      split
      · exact h
      · have := loop_cache m l (m.maxMu / 2 + 1) 0 (l.map fun _ => some 0) c h
        split
        next e c' h' => rw [h'] at this; exact this
        next v c' h' => rw [h'] at this; exact this
    | derivK l =>
      refine ih _ ?_
      unfold Model.derivK
      have := loopDk_cache m (l.map fun q => (apK m.al q, muAP q.2 m.al.perp m.al.par)) (m.maxMu / 2 + 1) 0 (l.map fun _ => some 0) c h
      dsimp only
      split
      next e c' h' => rw [h'] at this; exact this
      next v c' h' => rw [h'] at this; exact this

/-- **C135.** After any evaluations, failed ones included, the spectrum at an array of numbers: if the true wavenumber of one of them is outside the wavenumbers of the model, a domain error, which says rightly whether some are above and some below; otherwise, for every one in order, the spectrum
at its true coordinates. Nothing is ever extrapolated, and what was evaluated before does not matter.
Missing: `nan` (`C135_nan_counterexample`); the derivative (`C135_derivative_counterexample`). -/
theorem C135_power_partial (m : Model) (hmu : m.maxMu ≤ 6) (lo hi : ℝ) (hg : Covers m lo hi) (ops : List Op) (l : List (ℝ × ℝ)) :
    ((∀ q ∈ l, lo ≤ trueK m q ∧ trueK m q ≤ hi) → (m.power (runOps m ops fun _ => none) (arr l)).1 = .ok (l.map (observed m))) ∧
    ((∃ q ∈ l, trueK m q < lo ∨ hi < trueK m q) → ∃ above below, (m.power (runOps m ops fun _ => none) (arr l)).1 = .error (.domain above below) ∧
      (above = true ↔ ∃ q ∈ l, hi < trueK m q) ∧ (below = true ↔ ∃ q ∈ l, trueK m q < lo)) :=
  (power_spec m hmu lo hi hg _ (runOps_cache m ops _ fun _ => .inl rfl) l).2

/-- Orders above 6 are refused, whatever the wavenumbers. -/
theorem C135_maxMu (m : Model) (hmu : 6 < m.maxMu) (c : Caches) (l : List (Num × ℝ)) : (m.power c l).1 = .error .maxMu := by
  unfold Model.power
  rw [if_pos hmu]

theorem interpolant_node (m : Model) (hI : Interpolates m.interp) (hs : m.grid.Pairwise (· < ·)) (i : ℕ) (k : ℝ) (hk : k ∈ m.grid) : interpolant m i k = m.P i k := by
  obtain ⟨j, hj⟩ := List.getElem?_of_mem hk
  exact hI.nodes m.grid (m.grid.map (m.P i)) hs (by simp) j k (m.P i k) hj (by rw [List.getElem?_map, hj]; rfl)

/-- **C135 (nodes).** If the interpolation goes through its points, the spectrum observed without dilation at wavenumbers of the model is the sum of the powers of `mu` times the functions themselves, not approximations. -/
theorem C135_nodes (m : Model) (hI : Interpolates m.interp) (hs : m.grid.Pairwise (· < ·)) (hmu : m.maxMu ≤ 6) (hal : m.al = ⟨1, 1, 1⟩) (ops : List Op) (l : List (ℝ × ℝ))
    (hl : ∀ q ∈ l, q.1 ∈ m.grid) :
    (m.power (runOps m ops fun _ => none) (arr l)).1 = .ok (l.map fun q => ∑ i ∈ Finset.range (m.maxMu / 2 + 1), q.2 ^ (2 * i) * m.P i q.1) := by
  have hk : ∀ q, trueK m q = q.1 := fun q => by unfold trueK; rw [hal]; exact (C60_identity _ _).1
  have hm : ∀ q, trueMu m q = q.2 := fun q => by unfold trueMu; rw [hal]; exact (C60_identity 1 _).2
  rcases hgr : m.grid with _ | ⟨lo, t⟩
  · have hnil : l = [] := by
      cases l with
      | nil => rfl
      | cons q l => exact absurd (hl q (by simp)) (by rw [hgr]; simp)
    subst hnil
    have hC := runOps_cache m ops (fun _ => none) fun _ => .inl rfl
    generalize runOps m ops (fun _ => none) = c at hC
    have hloop : ∀ (n i : ℕ) (c : Caches), CacheOK m c → (m.loop [] n i [] c).1 = .ok [] := by
      intro n
      induction n with
      | zero => intro i c _; rfl
      | succ n ih =>
        intro i c hc
        obtain ⟨c1, c2⟩ := call_spec m c hc i false []
        obtain ⟨r, c', hr⟩ : ∃ r c', m.call c i false [] = (r, c') := ⟨_, _, rfl⟩
        rw [hr] at c1 c2
        have e : r = .ok [] := by simpa [callInterp, Spl.call] using c1
        subst e
        have ht : m.term c i [] = (.ok [], c') := by simp [Model.term, hr]
        simp only [Model.loop, ht]
        exact ih (i + 1) c' c2
    unfold Model.power
    rw [if_neg (not_lt.2 hmu)]
    have h := hloop (m.maxMu / 2 + 1) 0 c hC
    simp only [arr, List.map_nil]
    obtain ⟨r, c', hr⟩ : ∃ r c', m.loop [] (m.maxMu / 2 + 1) 0 [] c = (r, c') := ⟨_, _, rfl⟩
    rw [hr] at h ⊢
    simp only at h
    subst h
    rfl
  · obtain ⟨hi, hhi⟩ : ∃ hi, (lo :: t).getLast? = some hi := ⟨_, List.getLast?_eq_some_getLast (by simp)⟩
    have hcov : Covers m lo hi := ⟨by rw [hgr]; rfl, by rw [hgr]; exact hhi⟩
    have hlo : ∀ k ∈ lo :: t, lo ≤ k := by
      intro k h
      rw [hgr] at hs
      rcases List.mem_cons.1 h with rfl | h
      · exact le_refl _
      · exact ((List.pairwise_cons.1 hs).1 k h).le
    have hup : ∀ k ∈ lo :: t, k ≤ hi := by
      intro k h
      rw [hgr] at hs
      obtain ⟨i, hi', rfl⟩ := List.getElem_of_mem h
      rw [List.getLast?_eq_getElem?] at hhi
      obtain ⟨hn, rfl⟩ := List.getElem?_eq_some_iff.1 hhi
      rcases Nat.lt_or_ge i ((lo :: t).length - 1) with hlt | hge
      · exact (List.pairwise_iff_getElem.1 hs _ _ hi' hn hlt).le
      · have : i = (lo :: t).length - 1 := by omega
        subst this
        exact le_refl _
    rw [(C135_power_partial m hmu lo hi hcov ops l).1 fun q hq => by
      rw [hk]
      have := hl q hq
      rw [hgr] at this
      exact ⟨hlo _ this, hup _ this⟩]
    congr 1
    refine List.map_congr_left fun q hq => ?_
    unfold observed inner
    rw [hk, hm, hal]
    norm_num
    refine Finset.sum_congr rfl fun i _ => ?_
    rw [interpolant_node m hI hs i q.1 (hl q hq)]

/-! ### Which observed wavenumbers can be evaluated -/

theorem kAP_sq (k mu aperp apar : ℝ) (h1 : -1 ≤ mu) (h2 : mu ≤ 1) (hp : 0 < aperp) (hr : 0 < apar) :
    kAP k mu aperp apar ^ 2 = k ^ 2 * mu ^ 2 / apar ^ 2 + k ^ 2 * (1 - mu ^ 2) / aperp ^ 2 := by
  obtain ⟨a, b, -⟩ := C60_geometric k mu aperp apar h1 h2 hp hr
  have h : kAP k mu aperp apar ^ 2 = (kAP k mu aperp apar * muAP mu aperp apar) ^ 2 + kAP k mu aperp apar ^ 2 * (1 - muAP mu aperp apar ^ 2) := by ring
  rw [h, a, b]
  ring

/-- **C135 (observed range).** Exactly the observed wavenumbers between `kmin * max(alpha_perp, alpha_par)` and `kmax * min(alpha_perp, alpha_par)` can be evaluated at every angle. -/
theorem C135_observed (m : Model) (lo hi : ℝ) (hlo : 0 < lo) (hhi : 0 < hi) (hp : 0 < m.al.perp) (hr : 0 < m.al.par) (k : ℝ) (hk : 0 < k) :
    (∀ mu, -1 ≤ mu → mu ≤ 1 → lo ≤ trueK m (k, mu) ∧ trueK m (k, mu) ≤ hi) ↔
    lo * max m.al.perp m.al.par ≤ k ∧ k ≤ hi * min m.al.perp m.al.par := by
  obtain ⟨p, hpd⟩ : ∃ p, p = m.al.perp := ⟨_, rfl⟩
  obtain ⟨r, hrd⟩ : ∃ r, r = m.al.par := ⟨_, rfl⟩
  unfold trueK
  rw [← hpd] at hp ⊢
  rw [← hrd] at hr ⊢
  have hpos : ∀ mu, -1 ≤ mu → mu ≤ 1 → 0 < kAP k mu p r := fun mu h1 h2 => (C60_geometric k mu p r h1 h2 hp hr).2.2.1 hk
  have h0 : kAP k 0 p r = k / p := by
    have := kAP_sq k 0 p r (by norm_num) (by norm_num) hp hr
    have h : kAP k 0 p r ^ 2 = (k / p) ^ 2 := by rw [this, div_pow]; ring
    exact (sq_eq_sq₀ (hpos 0 (by norm_num) (by norm_num)).le (by positivity)).1 h
  have h1 : kAP k 1 p r = k / r := by
    have := kAP_sq k 1 p r (by norm_num) (by norm_num) hp hr
    have h : kAP k 1 p r ^ 2 = (k / r) ^ 2 := by rw [this, div_pow]; ring
    exact (sq_eq_sq₀ (hpos 1 (by norm_num) (by norm_num)).le (by positivity)).1 h
  constructor
  · intro h
    have a := h 0 (by norm_num) (by norm_num)
    have b := h 1 (by norm_num) (by norm_num)
    simp only at a b
    rw [h0, le_div_iff₀ hp, div_le_iff₀ hp] at a
    rw [h1, le_div_iff₀ hr, div_le_iff₀ hr] at b
    constructor
    · rcases max_choice p r with e | e <;> rw [e]
      · exact a.1
      · exact b.1
    · rcases min_choice p r with e | e <;> rw [e]
      · exact a.2
      · exact b.2
  · rintro ⟨a, b⟩ mu m1 m2
    have ap : lo * p ≤ k := (mul_le_mul_of_nonneg_left (le_max_left _ _) hlo.le).trans a
    have ar : lo * r ≤ k := (mul_le_mul_of_nonneg_left (le_max_right _ _) hlo.le).trans a
    have bp : k ≤ hi * p := b.trans (mul_le_mul_of_nonneg_left (min_le_left _ _) hhi.le)
    have br : k ≤ hi * r := b.trans (mul_le_mul_of_nonneg_left (min_le_right _ _) hhi.le)
    have hq := kAP_sq k mu p r m1 m2 hp hr
    have hm2 : mu ^ 2 ≤ 1 := by nlinarith
    have e1 : k ^ 2 * mu ^ 2 / r ^ 2 = (k / r) ^ 2 * mu ^ 2 := by rw [div_pow]; ring
    have e2 : k ^ 2 * (1 - mu ^ 2) / p ^ 2 = (k / p) ^ 2 * (1 - mu ^ 2) := by rw [div_pow]; ring
    rw [e1, e2] at hq
    have lr : lo ≤ k / r := (le_div_iff₀ hr).2 ar
    have lp : lo ≤ k / p := (le_div_iff₀ hp).2 ap
    have ur : k / r ≤ hi := (div_le_iff₀ hr).2 br
    have up : k / p ≤ hi := (div_le_iff₀ hp).2 bp
    have s1 : lo ^ 2 ≤ (k / r) ^ 2 := pow_le_pow_left₀ hlo.le lr 2
    have s2 : lo ^ 2 ≤ (k / p) ^ 2 := pow_le_pow_left₀ hlo.le lp 2
    have s3 : (k / r) ^ 2 ≤ hi ^ 2 := pow_le_pow_left₀ (by positivity) ur 2
    have s4 : (k / p) ^ 2 ≤ hi ^ 2 := pow_le_pow_left₀ (by positivity) up 2
    have hmu0 : 0 ≤ mu ^ 2 := sq_nonneg mu
    have hkp := hpos mu m1 m2
    simp only
    constructor
    · refine (sq_le_sq₀ hlo.le hkp.le).1 ?_
      rw [hq]
      nlinarith [mul_le_mul_of_nonneg_right s1 hmu0, mul_le_mul_of_nonneg_right s2 (sub_nonneg.2 hm2)]
    · refine (sq_le_sq₀ hkp.le hhi.le).1 ?_
      rw [hq]
      nlinarith [mul_le_mul_of_nonneg_right s3 hmu0, mul_le_mul_of_nonneg_right s4 (sub_nonneg.2 hm2)]

/-! ### The derivative -/

theorem loopDk_spec (m : Model) (kmu : List (ℝ × ℝ)) (n : ℕ) : ∀ (i : ℕ) (acc : ℝ × ℝ → ℝ) (c : Caches), CacheOK m c →
    (m.loopDk (arr kmu) n i (kmu.map fun q => some (acc q)) c).1 =
      .ok (kmu.map fun q => some (acc q + ∑ j ∈ Finset.range n, q.2 ^ (2 * (i + j)) * interpolant' m (i + j) q.1)) := by
  induction n with
  | zero => intro i acc c hc; simp [Model.loopDk]
  | succ n ih =>
    intro i acc c hc
    obtain ⟨c1, c2⟩ := call_spec m c hc i true ((arr kmu).map Prod.fst)
    obtain ⟨r, c', hr⟩ : ∃ r c', m.call c i true ((arr kmu).map Prod.fst) = (r, c') := ⟨_, _, rfl⟩
    rw [hr] at c1 c2
    simp only [callInterp, if_true] at c1
    subst c1
    have hz : List.zipWith (fun (q : Num × ℝ) (v : Num) => v.map fun p => q.2 ^ (2 * i) * p) (arr kmu) (((arr kmu).map Prod.fst).map (Option.map (interpolant' m i))) =
        kmu.map fun q => some (q.2 ^ (2 * i) * interpolant' m i q.1) := by
      unfold arr
      rw [List.map_map, List.map_map, List.zipWith_map_left, List.zipWith_map_right, List.zipWith_self]
      rfl
    simp only [Model.loopDk, hr, hz, addNum_map]
    rw [ih (i + 1) _ c' c2]
    congr 1
    refine List.map_congr_left fun q _ => ?_
    rw [Finset.sum_range_succ']
    congr 1
    simp only [Nat.add_zero]
    rw [add_assoc, add_comm (q.2 ^ (2 * i) * _)]
    congr 2
    refine Finset.sum_congr rfl fun j _ => ?_
    rw [Nat.add_assoc, Nat.add_comm 1 j]

theorem derivK_val (m : Model) (c : Caches) (hc : CacheOK m c) (l : List (ℝ × ℝ)) : (m.derivK c (arr l)).1 =
    .ok (l.map fun q => some (m.al.drag ^ 3 / (m.al.perp ^ 2 * m.al.par) *
      ∑ i ∈ Finset.range (m.maxMu / 2 + 1), trueMu m q ^ (2 * i) * interpolant' m i (trueK m q))) := by
  have hk : ((arr l).map fun q => (apK m.al q, muAP q.2 m.al.perp m.al.par)) = arr (l.map fun q => (trueK m q, trueMu m q)) := by
    unfold arr; rw [List.map_map, List.map_map]; rfl
  have hz : ((arr l).map fun _ => (some 0 : Num)) = (l.map fun q => (trueK m q, trueMu m q)).map fun _ => some 0 := by
    unfold arr; rw [List.map_map, List.map_map]; rfl
  have h := loopDk_spec m (l.map fun q => (trueK m q, trueMu m q)) (m.maxMu / 2 + 1) 0 (fun _ => 0) c hc
  unfold Model.derivK
  dsimp only
  rw [hk, hz]
  obtain ⟨r, c', hr⟩ : ∃ r c', m.loopDk (arr (l.map fun q => (trueK m q, trueMu m q))) (m.maxMu / 2 + 1) 0 ((l.map fun q => (trueK m q, trueMu m q)).map fun _ => some 0) c = (r, c') := ⟨_, _, rfl⟩
  rw [hr] at h ⊢
  simp only at h
  subst h
  simp only [Except.ok.injEq, List.map_map]
  refine List.map_congr_left fun q _ => ?_
  simp only [Function.comp, Option.map_some, zero_add, Option.some.injEq]
  unfold rescale
  ring

/-- **C135 (derivative).** After any evaluations, `derivative_k` gives at every number in order the derivative, in the true wavenumber, of the spectrum that `power` interpolates, in observed volumes. It never raises a domain error. -/
theorem C135_derivative (m : Model) (hI : Interpolates m.interp) (hs : m.grid.Pairwise (· < ·)) (ops : List Op) (l : List (ℝ × ℝ)) :
    ∃ v : ℝ × ℝ → ℝ, (m.derivK (runOps m ops fun _ => none) (arr l)).1 = .ok (l.map fun q => some (v q)) ∧
      ∀ q, HasDerivAt (fun k => m.al.drag ^ 3 / (m.al.perp ^ 2 * m.al.par) * inner m k (trueMu m q)) (v q) (trueK m q) := by
  refine ⟨_, derivK_val m _ (runOps_cache m ops _ fun _ => .inl rfl) l, fun q => ?_⟩
  refine HasDerivAt.const_mul _ ?_
  unfold inner
  refine HasDerivAt.fun_sum fun i _ => ?_
  exact (hI.deriv m.grid _ hs (trueK m q)).const_mul _

/-! ### An instance, and what does not hold -/

/-- polynomial interpolation -/
def poly (x y : List ℝ) : Polynomial ℝ := Lagrange.interpolate (Finset.univ : Finset (Fin x.length)) (fun i => x[i]) (fun i => y.getD i 0)

/-- The contract can be met, with polynomials. -/
theorem poly_interpolates : Interpolates (fun x y => (fun t => (poly x y).eval t, fun t => (Polynomial.derivative (poly x y)).eval t)) where
  nodes := by
    intro x y hx hl i a b ha hb
    obtain ⟨hi, rfl⟩ := List.getElem?_eq_some_iff.1 ha
    have hinj : Set.InjOn (fun i : Fin x.length => x[i]) (Finset.univ : Finset (Fin x.length)) := by
      intro i _ j _ hij
      have hn : x.Nodup := hx.imp fun h => h.ne
      exact Fin.ext ((List.Nodup.getElem_inj_iff hn).1 hij)
    have := Lagrange.eval_interpolate_at_node (fun i : Fin x.length => y.getD i 0) hinj (Finset.mem_univ ⟨i, hi⟩)
    simp only at this
    simp only [poly]
    refine Eq.trans this ?_
    rw [List.getD_eq_getElem?_getD, hb]
    rfl
  deriv := fun x y _ t => (poly x y).hasDerivAt t

/-- a spectrum `P(k) = k` with wavenumbers `0.1, 0.2, 0.4` and the dilations `a` -/
def lineModel (a : ℝ) : Model where
  interp := fun _ _ => (fun t => t, fun _ => 1)
  P := fun _ k => k
  grid := [0.1, 0.2, 0.4]
  al := ⟨a, a, 1⟩
  maxMu := 0

/-- an instance of `C135_power_partial`: both kinds of arrays exist -/
example : Covers (lineModel 1) 0.1 0.4 ∧ (∀ q ∈ [((0.3 : ℝ), (0.5 : ℝ))], 0.1 ≤ trueK (lineModel 1) q ∧ trueK (lineModel 1) q ≤ 0.4) ∧
    (∃ q ∈ [((0.3 : ℝ), (0.5 : ℝ)), (0.5, 0)], trueK (lineModel 1) q < 0.1 ∨ 0.4 < trueK (lineModel 1) q) := by
  refine ⟨⟨rfl, rfl⟩, ?_, (0.5, 0), by simp, .inr ?_⟩
  · intro q hq
    simp only [List.mem_singleton] at hq
    subst hq
    simp only [trueK, lineModel, (C60_identity _ _).1]
    norm_num
  · simp only [trueK, lineModel, (C60_identity _ _).1]
    norm_num

/-- **C135, not so: the observed limits.** `kmin` and `kmax` are documented as the limits of the observed wavenumbers, and the wavenumbers of the model as following the dilations. They do not: with both dilations 0.9, the spectrum at `kmax` itself is an error. -/
theorem C135_observed_counterexample (c : Caches) (hc : CacheOK (lineModel 0.9) c) :
    ∃ above below, ((lineModel 0.9).power c (arr [(0.4, 0)])).1 = .error (.domain above below) ∧ above = true := by
  have hk : (0.4 : ℝ) < trueK (lineModel 0.9) (0.4, 0) := by
    simp only [trueK, lineModel]
    rw [(C60_isotropic 0.4 0 0.9 (by norm_num)).1]
    norm_num
  obtain ⟨above, below, h, ha, -⟩ := (power_spec (lineModel 0.9) (by simp [lineModel]) 0.1 0.4 ⟨rfl, rfl⟩ c hc [(0.4, 0)]).2.2 ⟨(0.4, 0), by simp, .inr hk⟩
  exact ⟨above, below, h, ha.2 ⟨(0.4, 0), by simp, hk⟩⟩

/-- **C135, not so: the derivative.** Where `power` is an error, `derivative_k` extrapolates. -/
theorem C135_derivative_counterexample (c : Caches) (hc : CacheOK (lineModel 1) c) :
    (∃ e, ((lineModel 1).power c (arr [(5, 0)])).1 = .error e) ∧ ((lineModel 1).derivK c (arr [(5, 0)])).1 = .ok [some 1] := by
  constructor
  · have hk : (0.4 : ℝ) < trueK (lineModel 1) (5, 0) := by
      simp only [trueK, lineModel, (C60_identity _ _).1]
      norm_num
    obtain ⟨above, below, h, -⟩ := (power_spec (lineModel 1) (by simp [lineModel]) 0.1 0.4 ⟨rfl, rfl⟩ c hc [(5, 0)]).2.2 ⟨(5, 0), by simp, .inr hk⟩
    exact ⟨_, h⟩
  · rw [derivK_val _ _ hc]
    simp [lineModel, interpolant']

/-- **C135, not so: `nan`.** The spectrum at a wavenumber that is not a number is zero, without an error. -/
theorem C135_nan_counterexample (m : Model) (hmu : m.maxMu ≤ 6) (mu : ℝ) : (m.power (fun _ => none) [(none, mu)]).1 = .ok [0] := by
  have hterm : ∀ (c : Caches) (i : ℕ), CacheOK m c → (m.term c i [(none, mu)]).1 = .ok [none] ∧ CacheOK m (m.term c i [(none, mu)]).2 := by
    intro c i hc
    obtain ⟨c1, c2⟩ := call_spec m c hc i false ([((none : Num), mu)].map (apK m.al))
    obtain ⟨r, c', hr⟩ : ∃ r c', m.call c i false ([((none : Num), mu)].map (apK m.al)) = (r, c') := ⟨_, _, rfl⟩
    rw [hr] at c1 c2
    have hcall : callInterp ⟨m.grid, interpolant m i, interpolant' m i⟩ false ([((none : Num), mu)].map (apK m.al)) = .ok [none] := by
      simp [callInterp, Spl.call, apK, numLt, numGt]
    rw [hcall] at c1
    simp only at c1
    subst c1
    unfold Model.term
    rw [hr]
    exact ⟨rfl, c2⟩
  have hloop : ∀ (n i : ℕ) (acc : Num) (c : Caches), CacheOK m c → (m.loop [(none, mu)] (n + 1) i [acc] c).1 = .ok [none] := by
    intro n
    induction n with
    | zero =>
      intro i acc c hc
      obtain ⟨h1, h2⟩ := hterm c i hc
      obtain ⟨r, c', hr⟩ : ∃ r c', m.term c i [(none, mu)] = (r, c') := ⟨_, _, rfl⟩
      rw [hr] at h1
      simp only at h1
      subst h1
      simp only [Model.loop, hr, addNum]
      cases acc <;> rfl
    | succ n ih =>
      intro i acc c hc
      obtain ⟨h1, h2⟩ := hterm c i hc
      obtain ⟨r, c', hr⟩ : ∃ r c', m.term c i [(none, mu)] = (r, c') := ⟨_, _, rfl⟩
      rw [hr] at h1 h2
      simp only at h1
      subst h1
      have : m.loop [(none, mu)] (n + 1 + 1) i [acc] c = m.loop [(none, mu)] (n + 1) (i + 1) [none] c' := by
        conv_lhs => unfold Model.loop
        simp only [hr, addNum]
        cases acc <;> rfl
      rw [this]
      exact ih (i + 1) none c' h2
  have h := hloop (m.maxMu / 2) 0 (some 0) (fun _ => none) (fun _ => .inl rfl)
  unfold Model.power
  rw [if_neg (not_lt.2 hmu)]
  simp only [List.map_cons, List.map_nil]
  obtain ⟨r, c', hr⟩ : ∃ r c', m.loop [((none : Num), mu)] (m.maxMu / 2 + 1) 0 [some 0] (fun _ => none) = (r, c') := ⟨_, _, rfl⟩
  rw [hr] at h ⊢
  simp only at h
  subst h
  rfl

/-- **C135 (`ignore_cache`).** With `ignore_cache` the function itself is evaluated, at any wavenumber, and the cache is left alone. -/
theorem C135_ignore_cache (mk : Mk) (a : Attr) (cache : Option Spl) (dv : Bool) (ks : List ℝ) :
    wrapped mk a cache true dv (ks.map some) = (.ok (ks.map fun k => some (a.f k)), cache) := by
  simp [wrapped]

/-- **C135, not so: the derivative with `ignore_cache`** is the function: `derivative=True` is dropped. -/
theorem C135_ignore_derivative_counterexample (mk : Mk) (cache : Option Spl) : (wrapped mk ⟨fun k => k ^ 2, []⟩ cache true true [some 3]).1 = .ok [some 9] := by
  simp [wrapped]
  norm_num

end

end Verif.InterpDomain
