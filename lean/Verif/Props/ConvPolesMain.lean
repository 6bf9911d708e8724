/-
C150: the theorems.
-/
import Verif.Props.ConvPoles
import Mathlib.LinearAlgebra.Lagrange

namespace Verif.ConvPoles

open Verif.Window Verif.Xi Verif.FFTLog

noncomputable section

variable {n : ℕ} {cs : (m : ℕ) → (ℕ → ℝ) → (ℕ → ℝ) → ℝ → ℝ} {Nk cols : ℕ} {k : ℕ → ℝ} {P Q : ℕ → ℕ → ℝ} {ells : List ℕ} {w : Win n} {spl : (Fin n → ℝ) → ℝ → ℝ}

/-! ### what is accepted -/

/-- **C150** (what is accepted): there must be a column for every multipole, the multipoles must be among 0, 2, 4, 6, there must be 4 wavenumbers; and, unless it is a dry run, the window must have `max_ell/2 + max_ellprime/2 + 1` multipoles, be made for the orders asked for,
and at least `max_ellprime/2 + 1` columns must be given -/
theorem C150_accepts (hn : 0 < n) (dry : Bool) :
    (∃ out, convolveMultipoles cs Nk cols k P ells w spl dry = .ok out) ↔
      ells.length = cols ∧ (∀ ell ∈ ells, ell = 0 ∨ ell = 2 ∨ ell = 4 ∨ ell = 6) ∧ 0 < Nk ∧ (ells ≠ [] → 4 ≤ Nk) ∧
        (dry = false → w.maxEll / 2 + w.maxEllprime / 2 < w.cols.length ∧ (∀ ell ∈ ells, ell ≤ w.maxEll) ∧ (ells ≠ [] → w.maxEllprime / 2 + 1 ≤ ells.length)) := by
  have hmem : (∀ ell ∈ ells, ell ∈ [0, 2, 4, 6]) ↔ ∀ ell ∈ ells, ell = 0 ∨ ell = 2 ∨ ell = 4 ∨ ell = 6 := by simp
  constructor
  · rintro ⟨out, h⟩
    obtain ⟨⟨h1, h2, h3, h4⟩, R, hR⟩ := call_inv cs Nk k h
    refine ⟨h1, hmem.1 h2, h3, h4, fun hd => ?_⟩
    subst hd
    have := (convRow_window cs Nk k P h2 w spl _ _).1 (hR ⟨0, hn⟩)
    have := (C51_accepts w spl ells _ _).1 ⟨_, this⟩
    simp only [List.length_map, List.length_range] at this
    exact ⟨this.1, fun e he => (this.2.1 e he).2, this.2.2⟩
  · rintro ⟨h1, h2, h3, h4, h5⟩
    have h2 := hmem.2 h2
    have hv : Valid Nk cols ells := ⟨h1, h2, h3, h4⟩
    cases dry with
    | true => exact ⟨_, call_eq cs Nk k hv (R := fun a => (List.range ells.length).map (xiAt cs Nk k P ells (w.s a))) fun a => convRow_dry cs Nk k P h2 w spl _⟩
    | false =>
      obtain ⟨h6, h7, h8⟩ := h5 rfl
      have : ∀ a, ∃ r, convolve w spl ells (w.s a) ((List.range ells.length).map (xiAt cs Nk k P ells (w.s a))) = .ok r := by
        intro a
        refine (C51_accepts w spl ells _ _).2 ⟨h6, fun e he => ⟨?_, h7 e he⟩, by simpa using h8⟩
        have := h2 e he
        simp only [List.mem_cons, List.not_mem_nil, or_false] at this
        rcases this with rfl | rfl | rfl | rfl <;> rfl
      obtain ⟨R, hR⟩ := Classical.skolem.1 this
      exact ⟨_, call_eq cs Nk k hv (R := R) fun a => (convRow_window cs Nk k P h2 w spl _ _).2 (hR a)⟩

/-! ### what is returned -/

theorem xiAt_eq (h2 : ∀ ell ∈ ells, ell ∈ [0, 2, 4, 6]) {i : ℕ} (hi : i < ells.length) {s : ℝ} (hq : ∀ j, j < fineN Nk → 1/10^4 ≤ |fineK Nk k j*s|) :
    xiAt cs Nk k P ells s i = toXi (ells.getD i 0) (fineN Nk) (fineK Nk k) (fineP cs Nk k P i) s := by
  refine forth_eq (h2 _ ?_) _ _ hq
  rw [List.getD_eq_getElem ells 0 hi]
  exact List.getElem_mem hi

/-- **C150** (the convolved multipoles): the wavenumbers returned are those given.  Row `j`, column `i` is the multipole of order `ells[i]` at the wavenumber `k[j]` of the correlation function whose multipole of that order is, at each separation of the window, the multipole of the product of
two functions of the direction: the one with the transforms of the given columns as even multipoles (the first `max_ellprime/2 + 1` of them), and the window -/
theorem C150_convolved (hw : Made w spl) {ks : List ℝ} {table : List (List ℝ)} (h : convolveMultipoles cs Nk cols k P ells w spl false = .ok (ks, table))
    (hq : ∀ j, j < fineN Nk → ∀ a, 1/10^4 ≤ |fineK Nk k j*w.s a|) (hk : ∀ j, j < Nk → ∀ a, 1/10^4 ≤ |w.s a*k j|) :
    ks = (List.range Nk).map k ∧ table = (List.range Nk).map fun j => (List.range ells.length).map fun i =>
      toPk (ells.getD i 0) n (arr w.s) (arr fun a => pole (ells.getD i 0) fun mu =>
        fromPoles (((List.range ells.length).map fun i' => toXi (ells.getD i' 0) (fineN Nk) (fineK Nk k) (fineP cs Nk k P i') (w.s a)).take (w.maxEllprime/2 + 1)) mu *
        fromPoles (w.cols.map fun c => c a) mu) (k j) := by
  obtain ⟨hv, R, hR⟩ := call_inv cs Nk k h
  rw [call_eq cs Nk k hv hR] at h
  have h := Except.ok.inj h
  have h1 := (Prod.mk.inj h).1
  have h2 := (Prod.mk.inj h).2
  refine ⟨h1.symm, h2.symm.trans ?_⟩
  obtain ⟨-, ho, -, -⟩ := hv
  refine List.map_congr_left fun j hj => List.map_congr_left fun i hi => ?_
  have hj := List.mem_range.1 hj
  have hi := List.mem_range.1 hi
  have hm : ells.getD i 0 ∈ [0, 2, 4, 6] := ho _ (by rw [List.getD_eq_getElem ells 0 hi]; exact List.getElem_mem hi)
  rw [back_eq hm w _ (hk j hj)]
  congr 2
  funext a
  have := C51_convolution w hw.lin ells (w.s a) _ (R a) (hw.bounds a) ((convRow_window cs Nk k P ho w spl _ _).1 (hR a))
  rw [this, List.getD_eq_getElem (n := i) _ _ (by simpa using hi), List.getElem_map]
  have e1 : (List.range ells.length).map (xiAt cs Nk k P ells (w.s a)) = (List.range ells.length).map fun i' => toXi (ells.getD i' 0) (fineN Nk) (fineK Nk k) (fineP cs Nk k P i') (w.s a) :=
    List.map_congr_left fun i' hi' => xiAt_eq ho (List.mem_range.1 hi') fun j hj => hq j hj a
  have e2 : winAt w spl (w.s a) = w.cols.map fun c => c a := List.map_congr_left fun c _ => hw.through c a
  rw [e1, e2, List.getD_eq_getElem ells 0 hi]

/-- **C150** (dry run): the multipoles are taken to the separations of the window and back; its values are not used -/
theorem C150_dry {ks : List ℝ} {table : List (List ℝ)} (h : convolveMultipoles cs Nk cols k P ells w spl true = .ok (ks, table))
    (hq : ∀ j, j < fineN Nk → ∀ a, 1/10^4 ≤ |fineK Nk k j*w.s a|) (hk : ∀ j, j < Nk → ∀ a, 1/10^4 ≤ |w.s a*k j|) :
    ks = (List.range Nk).map k ∧ table = (List.range Nk).map fun j => (List.range ells.length).map fun i =>
      toPk (ells.getD i 0) n (arr w.s) (arr fun a => toXi (ells.getD i 0) (fineN Nk) (fineK Nk k) (fineP cs Nk k P i) (w.s a)) (k j) := by
  obtain ⟨hv, R, hR⟩ := call_inv cs Nk k h
  rw [call_eq cs Nk k hv hR] at h
  have h := Except.ok.inj h
  have h1 := (Prod.mk.inj h).1
  have h2 := (Prod.mk.inj h).2
  refine ⟨h1.symm, h2.symm.trans ?_⟩
  obtain ⟨-, ho, -, -⟩ := hv
  refine List.map_congr_left fun j hj => List.map_congr_left fun i hi => ?_
  have hj := List.mem_range.1 hj
  have hi := List.mem_range.1 hi
  have hm : ells.getD i 0 ∈ [0, 2, 4, 6] := ho _ (by rw [List.getD_eq_getElem ells 0 hi]; exact List.getElem_mem hi)
  rw [back_eq hm w _ (hk j hj)]
  congr 2
  funext a
  have := hR a
  rw [convRow_dry cs Nk k P ho w spl] at this
  rw [← Except.ok.inj this, List.getD_eq_getElem (n := i) _ _ (by simpa using hi), List.getElem_map, List.getElem_range]
  exact xiAt_eq ho hi fun j hj => hq j hj a

/-! ### linearity -/

theorem fineP_lin (hcs : CubicThrough cs) (h4 : 4 ≤ Nk) (a b : ℝ) (i : ℕ) :
    fineP cs Nk k (fun j i => a*P j i + b*Q j i) i = fun j => a*fineP cs Nk k P i j + b*fineP cs Nk k Q i j := by
  funext j
  unfold fineP
  split
  · exact hcs.lin Nk k _ _ a b _ h4
  · rfl

/-- **C150** (linear): the multipoles of `a P + b Q` are convolved to `a` times the convolved `P` plus `b` times the convolved `Q` -/
theorem C150_linear (hcs : CubicThrough cs) (dry : Bool) (a b : ℝ) {ks : List ℝ} {tP tQ : List (List ℝ)}
    (hP : convolveMultipoles cs Nk cols k P ells w spl dry = .ok (ks, tP)) (hQ : convolveMultipoles cs Nk cols k Q ells w spl dry = .ok (ks, tQ)) :
    convolveMultipoles cs Nk cols k (fun j i => a*P j i + b*Q j i) ells w spl dry = .ok (ks, List.zipWith (List.zipWith fun u v => a*u + b*v) tP tQ) := by
  obtain ⟨hv, R, hR⟩ := call_inv cs Nk k hP
  obtain ⟨-, S, hS⟩ := call_inv cs Nk k hQ
  rw [call_eq cs Nk k hv hR] at hP
  rw [call_eq cs Nk k hv hS] at hQ
  obtain ⟨rfl, rfl⟩ := Prod.mk.inj (Except.ok.inj hP)
  obtain ⟨-, rfl⟩ := Prod.mk.inj (Except.ok.inj hQ)
  have ho := hv.2.1
  have hget : ∀ i, i < ells.length → ells.getD i 0 ∈ [0, 2, 4, 6] := fun i hi => ho _ (by rw [List.getD_eq_getElem ells 0 hi]; exact List.getElem_mem hi)
  have hx : ∀ s, (List.range ells.length).map (xiAt cs Nk k (fun j i => a*P j i + b*Q j i) ells s) = (List.range ells.length).map fun i => a*xiAt cs Nk k P ells s i + b*xiAt cs Nk k Q ells s i := by
    intro s
    refine List.map_congr_left fun i hi => ?_
    have hi := List.mem_range.1 hi
    have h4 := hv.2.2.2 (by rintro rfl; simp at hi)
    unfold xiAt
    rw [fineP_lin hcs h4, forth_lin (hget i hi)]
  have key : ∀ c, convRow cs Nk k (fun j i => a*P j i + b*Q j i) ells w spl dry (w.s c) = .ok (List.zipWith (fun u v => a*u + b*v) (R c) (S c)) := by
    intro c
    cases dry with
    | true =>
      have h1 := hR c
      have h2 := hS c
      rw [convRow_dry cs Nk k _ ho w spl] at h1 h2 ⊢
      rw [← Except.ok.inj h1, ← Except.ok.inj h2, hx, List.zipWith_map, List.zipWith_self]
    | false =>
      have h1 := (convRow_window cs Nk k _ ho w spl _ _).1 (hR c)
      have h2 := (convRow_window cs Nk k _ ho w spl _ _).1 (hS c)
      refine (convRow_window cs Nk k _ ho w spl _ _).2 ?_
      rw [hx]
      exact C51_linear w spl ells (w.s c) a b ells.length _ _ _ _ h1 h2
  have hl : ∀ c, (R c).length = ells.length ∧ (S c).length = ells.length := by
    intro c
    cases dry with
    | true =>
      have h1 := hR c
      have h2 := hS c
      rw [convRow_dry cs Nk k _ ho w spl] at h1 h2
      rw [← Except.ok.inj h1, ← Except.ok.inj h2]
      simp
    | false =>
      have h1 := (convRow_window cs Nk k _ ho w spl _ _).1 (hR c)
      have h2 := (convRow_window cs Nk k _ ho w spl _ _).1 (hS c)
      rw [(convolve_eq w spl ells _ _ _ h1).2.2.2, (convolve_eq w spl ells _ _ _ h2).2.2.2]
      simp
  rw [call_eq cs Nk k hv key, List.zipWith_map, List.zipWith_self]
  congr 2
  refine List.map_congr_left fun j _ => ?_
  rw [List.zipWith_map, List.zipWith_self]
  refine List.map_congr_left fun i hi => ?_
  have hi := List.mem_range.1 hi
  rw [← back_lin (hget i hi)]
  congr 1
  funext c
  rw [List.getD_eq_getElem (n := i) _ _ (by simp [hl c, hi]), List.getElem_zipWith, List.getD_eq_getElem (n := i) _ _ (by simp [hl c, hi]), List.getD_eq_getElem (n := i) _ _ (by simp [hl c, hi])]

/-! ### without a window -/

theorem spl_zero (hw : Made w spl) (a : Fin n) : spl (fun _ => 0) (w.s a) = 0 := hw.through _ a

/-- **C150** (no window): if the window is 1 (its monopole is 1, the others vanish) and the multipoles are given in the order 0, 2, 4, ..., as many as `max_ellprime` says, the result is that of the dry run -/
theorem C150_no_window (hw : Made w spl) (hone : ∀ r, spl (fun _ => 1) r = 1) {m : ℕ} (hc : w.cols = (fun _ => 1) :: List.replicate m (fun _ => 0)) (hm : w.maxEll / 2 + w.maxEllprime / 2 ≤ m)
    (hl : w.maxEllprime ≤ w.maxEll) (he : ells = evens w.maxEllprime) :
    convolveMultipoles cs Nk cols k P ells w spl false = convolveMultipoles cs Nk cols k P ells w spl true := by
  by_cases hv : Valid Nk cols ells
  · have hR : ∀ a, convRow cs Nk k P ells w spl true (w.s a) = .ok ((List.range ells.length).map (xiAt cs Nk k P ells (w.s a))) := fun a => convRow_dry cs Nk k P hv.2.1 w spl _
    rw [call_eq cs Nk k hv hR, call_eq cs Nk k hv (R := fun a => (List.range ells.length).map (xiAt cs Nk k P ells (w.s a))) fun a => (convRow_window cs Nk k P hv.2.1 w spl _ _).2 ?_]
    have := C50_partial w hw.lin hone (w.s a) ((List.range ells.length).map (xiAt cs Nk k P ells (w.s a))) (by rw [he]; simp [evens]) hl (by rw [hc]; simp; omega) (Or.inr ⟨m, hc⟩)
    rwa [← he] at this
  · have key : ∀ dry, ¬ Valid Nk cols ells → ∀ dry', convolveMultipoles cs Nk cols k P ells w spl dry = convolveMultipoles cs Nk cols k P ells w spl dry' := by
      intro dry hv dry'
      unfold convolveMultipoles
      by_cases h1 : ells.length = cols
      · by_cases h2 : ∀ ell ∈ ells, ell ∈ [0, 2, 4, 6]
        · rw [if_neg (not_not.2 h1), if_neg (not_not.2 h2), if_neg (not_not.2 h1), if_neg (not_not.2 h2)]
          have h3 : Nk = 0 ∨ (ells ≠ [] ∧ Nk < 4) := by
            by_contra h3
            push Not at h3
            exact hv ⟨h1, h2, Nat.pos_of_ne_zero h3.1, fun he => h3.2 he⟩
          rw [if_pos h3, if_pos h3]
        · rw [if_neg (not_not.2 h1), if_pos h2, if_neg (not_not.2 h1), if_pos h2]
      · rw [if_pos h1, if_pos h1]
    exact key _ hv _

/-- **C150** (no window) is false in general: a multipole above `max_ellprime` that the convolver takes without complaint comes back as 0, whatever it was -/
theorem C150_high_counterexample (hw : Made w spl) (hone : ∀ r, spl (fun _ => 1) r = 1) {m : ℕ} (hc : w.cols = (fun _ => 1) :: List.replicate m (fun _ => 0)) {ks : List ℝ} {table : List (List ℝ)}
    (h : convolveMultipoles cs Nk cols k P ells w spl false = .ok (ks, table)) {i : ℕ} (hi : i < ells.length) (hl : w.maxEllprime < ells.getD i 0) {j : ℕ} (hj : j < Nk) :
    (table.getD j []).getD i 1 = 0 := by
  obtain ⟨hv, R, hR⟩ := call_inv cs Nk k h
  rw [call_eq cs Nk k hv hR] at h
  obtain ⟨-, rfl⟩ := Prod.mk.inj (Except.ok.inj h)
  rw [List.getD_eq_getElem (n := j) _ _ (by simpa using hj), List.getElem_map, List.getD_eq_getElem (n := i) _ _ (by simpa using hi), List.getElem_map, List.getElem_range, List.getElem_range]
  have hm : ells.getD i 0 ∈ [0, 2, 4, 6] := hv.2.1 _ (by rw [List.getD_eq_getElem ells 0 hi]; exact List.getElem_mem hi)
  have e : (fun a => (R a).getD i 0) = fun a => (0:ℝ)*0 + 0*0 := by
    funext a
    have := C50_identity w hw.lin hone ells (w.s a) _ (R a) (Or.inr ⟨m, hc⟩) ((convRow_window cs Nk k P hv.2.1 w spl _ _).1 (hR a))
    rw [this, List.getD_eq_getElem (n := i) _ _ (by simpa using hi), List.getElem_map, ← List.getD_eq_getElem ells 0 hi, if_neg (by omega)]
    ring
  rw [e, back_lin hm w (fun _ => 0) (fun _ => 0) 0 0]
  ring

/-- **C150** (no window) is false for another order of the multipoles: with a window that is 1 and `ells = [2, 0]`, the column of the quadrupole is the transform back, as a quadrupole, of what was given as the monopole, and the other way round -/
theorem C150_order_counterexample (hw : Made w spl) (hone : ∀ r, spl (fun _ => 1) r = 1) {m : ℕ} (hc : w.cols = (fun _ => 1) :: List.replicate m (fun _ => 0)) (h2 : w.maxEllprime = 2) {ks : List ℝ} {table : List (List ℝ)}
    (h : convolveMultipoles cs Nk cols k P [2, 0] w spl false = .ok (ks, table)) :
    table = (List.range Nk).map fun j => [back 2 w (fun a => forth 0 (fineN Nk) (fineK Nk k) (fineP cs Nk k P 1) (w.s a)) (k j), back 0 w (fun a => forth 2 (fineN Nk) (fineK Nk k) (fineP cs Nk k P 0) (w.s a)) (k j)] := by
  obtain ⟨hv, R, hR⟩ := call_inv cs Nk k h
  rw [call_eq cs Nk k hv hR] at h
  obtain ⟨-, rfl⟩ := Prod.mk.inj (Except.ok.inj h)
  have e : ∀ a, R a = [forth 0 (fineN Nk) (fineK Nk k) (fineP cs Nk k P 1) (w.s a), forth 2 (fineN Nk) (fineK Nk k) (fineP cs Nk k P 0) (w.s a)] := by
    intro a
    have := C50_identity w hw.lin hone [2, 0] (w.s a) _ (R a) (Or.inr ⟨m, hc⟩) ((convRow_window cs Nk k P hv.2.1 w spl _ _).1 (hR a))
    rw [this, h2]
    simp [List.range_succ, xiAt]
  simp [List.range_succ, e]

/-! ### the wavenumbers of the transform -/

theorem fold_pick (g : ℝ → ℝ → ℝ) (hg : ∀ x y, g x y = x ∨ g x y = y) (k : ℕ → ℝ) (l : List ℕ) (x : ℝ) : l.foldl (fun a i => g a (k i)) x = x ∨ ∃ i ∈ l, l.foldl (fun a i => g a (k i)) x = k i := by
  induction l generalizing x with
  | nil => exact Or.inl rfl
  | cons i l ih =>
    rw [List.foldl_cons]
    rcases ih (g x (k i)) with e | ⟨j, hj, e⟩
    · rw [e]
      rcases hg x (k i) with e | e
      · exact Or.inl e
      · exact Or.inr ⟨i, List.mem_cons_self, e⟩
    · exact Or.inr ⟨j, List.mem_cons_of_mem _ hj, e⟩

theorem fold_min (k : ℕ → ℝ) (l : List ℕ) (x : ℝ) : l.foldl (fun a i => min a (k i)) x ≤ x ∧ ∀ i ∈ l, l.foldl (fun a i => min a (k i)) x ≤ k i := by
  induction l generalizing x with
  | nil => exact ⟨le_refl _, fun i hi => by cases hi⟩
  | cons j l ih =>
    rw [List.foldl_cons]
    obtain ⟨h1, h2⟩ := ih (min x (k j))
    refine ⟨h1.trans (min_le_left _ _), fun i hi => ?_⟩
    rcases List.mem_cons.1 hi with rfl | hi
    · exact h1.trans (min_le_right _ _)
    · exact h2 i hi

theorem fold_max (k : ℕ → ℝ) (l : List ℕ) (x : ℝ) : x ≤ l.foldl (fun a i => max a (k i)) x ∧ ∀ i ∈ l, k i ≤ l.foldl (fun a i => max a (k i)) x := by
  induction l generalizing x with
  | nil => exact ⟨le_refl _, fun i hi => by cases hi⟩
  | cons j l ih =>
    rw [List.foldl_cons]
    obtain ⟨h1, h2⟩ := ih (max x (k j))
    refine ⟨(le_max_left _ _).trans h1, fun i hi => ?_⟩
    rcases List.mem_cons.1 hi with rfl | hi
    · exact (le_max_right _ _).trans h1
    · exact h2 i hi

/-- **C150** (the wavenumbers of the transform): 500 and more are taken as they are, with the multipoles given.  Fewer are replaced by 500, equally spaced in the logarithm: the first is the smallest of those given and the last the largest -/
theorem C150_grid (h : ∀ j, j < Nk → 0 < k j) (h0 : 0 < Nk) :
    (500 ≤ Nk → fineN Nk = Nk ∧ fineK Nk k = k ∧ ∀ i, fineP cs Nk k P i = fun j => P j i) ∧
    (Nk < 500 → fineN Nk = 500 ∧ (∃ i, i < Nk ∧ fineK Nk k 0 = k i) ∧ (∃ i, i < Nk ∧ fineK Nk k 499 = k i) ∧ (∀ i, i < Nk → fineK Nk k 0 ≤ k i ∧ k i ≤ fineK Nk k 499) ∧
      (∀ j, fineK Nk k (j+1) = fineK Nk k j*(fineK Nk k 499/fineK Nk k 0)^((1:ℝ)/499)) ∧ ∀ i j, fineP cs Nk k P i j = cs Nk k (fun a => P a i) (fineK Nk k j)) := by
  have cmin : ∃ i, i < Nk ∧ amin Nk k = k i := by
    rcases fold_pick min min_choice k (List.range Nk) (k 0) with e | ⟨i, hi, e⟩
    · exact ⟨0, h0, e⟩
    · exact ⟨i, List.mem_range.1 hi, e⟩
  have cmax : ∃ i, i < Nk ∧ amax Nk k = k i := by
    rcases fold_pick max max_choice k (List.range Nk) (k 0) with e | ⟨i, hi, e⟩
    · exact ⟨0, h0, e⟩
    · exact ⟨i, List.mem_range.1 hi, e⟩
  have hmin : 0 < amin Nk k := by obtain ⟨i, hi, e⟩ := cmin; rw [e]; exact h i hi
  have hmax : 0 < amax Nk k := by obtain ⟨i, hi, e⟩ := cmax; rw [e]; exact h i hi
  have pw : ∀ x : ℝ, 0 < x → (10:ℝ)^(log10 x) = x := fun x hx => Real.rpow_logb (by norm_num) (by norm_num) hx
  refine ⟨fun hN => ?_, fun hN => ?_⟩
  · have : ¬ Nk < 500 := by omega
    refine ⟨by unfold fineN; rw [if_neg this], by funext j; unfold fineK; rw [if_neg this], fun i => by funext j; unfold fineP; rw [if_neg this]⟩
  · have hK : ∀ j, fineK Nk k j = hires Nk k j := fun j => by unfold fineK; rw [if_pos hN]
    have first : fineK Nk k 0 = amin Nk k := by rw [hK, hires, Nat.cast_zero, zero_mul, add_zero, pw _ hmin]
    have last : fineK Nk k 499 = amax Nk k := by
      rw [hK, hires, show log10 (amin Nk k) + ((499:ℕ):ℝ)*((log10 (amax Nk k) - log10 (amin Nk k))/499) = log10 (amax Nk k) from by push_cast; ring, pw _ hmax]
    rw [first, last]
    refine ⟨by unfold fineN; rw [if_pos hN], cmin, cmax, fun i hi => ⟨(fold_min k _ _).2 i (List.mem_range.2 hi), (fold_max k _ _).2 i (List.mem_range.2 hi)⟩, fun j => ?_, fun i j => by rw [hK]; unfold fineP; rw [if_pos hN]⟩
    rw [hK, hK, hires, hires]
    have e : (amax Nk k/amin Nk k)^((1:ℝ)/499) = (10:ℝ)^((log10 (amax Nk k) - log10 (amin Nk k))/499) := by
      conv_lhs => rw [← pw _ hmax, ← pw _ hmin]
      rw [← Real.rpow_sub (by norm_num), ← Real.rpow_mul (by norm_num)]
      congr 1
      ring
    rw [e, ← Real.rpow_add (by norm_num)]
    congr 1
    push_cast
    ring

/-! ### cases -/

/-- polynomials through the data: `CubicThrough` can be met -/
def lag (m : ℕ) (x y : ℕ → ℝ) (t : ℝ) : ℝ := (Lagrange.interpolate (Finset.range m) x y).eval t

theorem lag_through : CubicThrough lag where
  lin m x y z a b t _ := by
    have : (fun j => a*y j + b*z j) = a • y + b • z := rfl
    unfold lag
    rw [this, map_add, map_smul, map_smul, Polynomial.eval_add, Polynomial.eval_smul, Polynomial.eval_smul, smul_eq_mul, smul_eq_mul]
  through m x y j _ hx hj := by
    refine Lagrange.eval_interpolate_at_node y (s := Finset.range m) ?_ (Finset.mem_range.2 hj)
    have mono : ∀ d i, i + d < m → x i ≤ x (i+d) := by
      intro d
      induction d with
      | zero => intro i _; exact le_refl _
      | succ d ih => intro i hd; exact (ih i (by omega)).trans (hx (i+d) (by omega)).le
    have strict : ∀ i j, i < j → j < m → x i < x j := by
      intro i j hij hj
      have := mono (j-(i+1)) (i+1) (by omega)
      rw [show i+1+(j-(i+1)) = j by omega] at this
      exact (hx i (by omega)).trans_le this
    intro i hi j hj he
    have hi := Finset.mem_range.1 (Finset.mem_coe.1 hi)
    have hj := Finset.mem_range.1 (Finset.mem_coe.1 hj)
    rcases lt_trichotomy i j with h | h | h
    · exact absurd he (strict i j h hj).ne
    · exact h
    · exact absurd he (strict j i h hi).ne'

/-- a window with two separations -/
def exampleWin (cols : List (Fin 2 → ℝ)) : Win 2 := { s := ![0, 1], smin := 0, smax := 1, cols, maxEllprime := 2, maxEll := 2 }

theorem exampleWin_made (cols : List (Fin 2 → ℝ)) : Made (exampleWin cols) line where
  bounds a := by fin_cases a <;> simp [exampleWin]
  lin := line_linear
  through f a := by fin_cases a <;> simp [exampleWin, line]

/-- a case of `C150_accepts`, with a window that is not 1; `C150_linear` applies to it -/
example : ∃ out, convolveMultipoles lag 5 2 (fun j => (j:ℝ) + 1) (fun j i => (j:ℝ) + i) [0, 2] (exampleWin (List.replicate 3 ![3, 4])) line false = .ok out :=
  (C150_accepts (by norm_num) false).2 ⟨rfl, by simp, by norm_num, fun _ => by norm_num, fun _ => by simp [exampleWin]⟩

/-- a case of `C150_convolved`: the hypotheses on the arguments of the Bessel functions are met too -/
example : ∃ table, convolveMultipoles lag 500 2 (fun j : ℕ => (j:ℝ) + 1) (fun j i : ℕ => (j:ℝ) + i) [0, 2] { exampleWin (List.replicate 3 ![3, 4]) with s := ![1, 2], smin := 1, smax := 2 } (fun f r => line f (r-1)) false =
      .ok ((List.range 500).map fun j : ℕ => (j:ℝ) + 1, table) ∧
    (∀ j, j < fineN 500 → ∀ a : Fin 2, 1/10^4 ≤ |fineK 500 (fun j : ℕ => (j:ℝ) + 1) j*(![1, 2] : Fin 2 → ℝ) a|) ∧
    Made { exampleWin (List.replicate 3 ![3, 4]) with s := ![1, 2], smin := 1, smax := 2 } (fun f r => line f (r-1)) := by
  have big : ∀ (j : ℕ) (a : Fin 2), 1/10^4 ≤ |((j:ℝ) + 1)*(![1, 2] : Fin 2 → ℝ) a| := by
    intro j a
    have : (0:ℝ) ≤ j := Nat.cast_nonneg j
    fin_cases a
    · simp only [Fin.zero_eta, Matrix.cons_val_zero]
      rw [abs_of_pos (by positivity)]
      norm_num
      linarith
    · simp only [Fin.mk_one, Matrix.cons_val_one, Matrix.cons_val_zero]
      rw [abs_of_pos (by positivity)]
      norm_num
      linarith
  have made : Made { exampleWin (List.replicate 3 ![3, 4]) with s := ![1, 2], smin := 1, smax := 2 } (fun f r => line f (r-1)) := by
    refine ⟨fun a => ?_, ⟨fun f g r => line_linear.add f g (r-1), fun f c r => line_linear.smul f c (r-1)⟩, fun f a => ?_⟩
    · fin_cases a <;> simp
    · fin_cases a <;> simp [line]; norm_num
  have hK : fineK 500 (fun j : ℕ => (j:ℝ) + 1) = fun j : ℕ => (j:ℝ) + 1 := by
    funext j
    unfold fineK
    rw [if_neg (by norm_num)]
  obtain ⟨⟨ks, table⟩, h⟩ := (C150_accepts (cs := lag) (Nk := 500) (cols := 2) (k := fun j : ℕ => (j:ℝ) + 1) (P := fun j i : ℕ => (j:ℝ) + i) (ells := [0, 2]) (w := { exampleWin (List.replicate 3 ![3, 4]) with s := ![1, 2], smin := 1, smax := 2 })
    (spl := fun f r => line f (r-1)) (by norm_num) false).2 ⟨rfl, by simp, by norm_num, fun _ => by norm_num, fun _ => by simp [exampleWin]⟩
  have hks := (C150_convolved made h (fun j _ a => by rw [hK]; exact big j a) (fun j _ a => by rw [mul_comm]; exact big j a)).1
  rw [hks] at h
  exact ⟨table, h, fun j _ a => by rw [hK]; exact big j a, made⟩

/-- a case of `C150_no_window` -/
example : convolveMultipoles lag 5 2 (fun j : ℕ => (j:ℝ) + 1) (fun j i : ℕ => (j:ℝ) + i) [0, 2] (exampleWin ((fun _ => 1) :: List.replicate 2 (fun _ => 0))) line false =
    convolveMultipoles lag 5 2 (fun j : ℕ => (j:ℝ) + 1) (fun j i : ℕ => (j:ℝ) + i) [0, 2] (exampleWin ((fun _ => 1) :: List.replicate 2 (fun _ => 0))) line true :=
  C150_no_window (exampleWin_made _) line_const rfl (by simp [exampleWin]) (le_refl _) rfl

end

end Verif.ConvPoles
