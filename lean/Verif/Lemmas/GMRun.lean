/-
The program of the n-dimensional quadrature cuts the worst box, again and again.
-/
import Verif.Spec.GMQuad
import Verif.Lemmas.GMHeap
import Mathlib.Tactic.Ring
import Mathlib.Tactic.FieldSimp

namespace Verif.GM

open Verif.GK (Mem wr)

variable {n : ℕ}

/-- The value and the error estimate of a box, and the fourth difference along an axis -/
noncomputable def boxVal (f : (Fin n → ℝ) → ℝ) (B : Box n) : ℝ := (rule f B.mid B.half).1
noncomputable def boxErr (f : (Fin n → ℝ) → ℝ) (B : Box n) : ℝ := (rule f B.mid B.half).2.1
noncomputable def boxDif (f : (Fin n → ℝ) → ℝ) (B : Box n) (j : Fin n) : ℝ := dif f B.mid B.half j

/-- The stored region of a box -/
noncomputable def reg (f : (Fin n → ℝ) → ℝ) (B : Box n) : Region n := region f B.mid B.half

theorem boxErr_nonneg (f : (Fin n → ℝ) → ℝ) (B : Box n) : 0 ≤ boxErr f B := abs_nonneg _

theorem perBox_eq (n : ℕ) : rulcls n = perBox n := by
  unfold rulcls perBox
  have h : ∀ n : ℕ, 2 * n * n + 2 * n = 4 * n + 4 * n.choose 2 := by
    intro n
    induction n with
    | zero => rfl
    | succ n ih =>
      rw [Nat.choose_succ_succ' n 1, Nat.choose_one_right]
      nlinarith
  have := h n
  omega

theorem axisLoop_spec (f : (Fin n → ℝ) → ℝ) (c w : Fin n → ℝ) : ∀ (js : List (Fin n)) (m : ℝ) (a : Option (Fin n)), (a = none → m = 0 ∧ js ≠ []) → (∀ j, a = some j → dif f c w j = m) →
    ∃ j, axisLoop f c w js m a = some j ∧ m ≤ dif f c w j ∧ ∀ i ∈ js, dif f c w i ≤ dif f c w j := by
  intro js
  induction js with
  | nil =>
    intro m a h1 h2
    cases a with
    | none => exact absurd rfl (h1 rfl).2
    | some j => exact ⟨j, rfl, (h2 j rfl).ge, by simp⟩
  | cons j js ih =>
    intro m a h1 h2
    by_cases hd : dif f c w j ≥ m
    · obtain ⟨k, e1, e2, e3⟩ := ih (dif f c w j) (some j) (by simp) (by simp)
      refine ⟨k, by simp [axisLoop, hd, e1], le_trans hd e2, ?_⟩
      intro i hi
      rcases List.mem_cons.1 hi with rfl | hi
      · exact e2
      · exact e3 i hi
    · have hm : 0 ≤ dif f c w j := abs_nonneg _
      have ha : a ≠ none := fun h => hd (by rw [(h1 h).1]; exact hm)
      obtain ⟨k, e1, e2, e3⟩ := ih m a (fun h => absurd h ha) h2
      refine ⟨k, by simp [axisLoop, hd, e1], e2, ?_⟩
      intro i hi
      rcases List.mem_cons.1 hi with rfl | hi
      · exact le_trans (not_le.1 hd).le e2
      · exact e3 i hi

theorem reg_axis (hn : 1 ≤ n) (f : (Fin n → ℝ) → ℝ) (B : Box n) : ∃ j, (reg f B).axis = some j ∧ ∀ i, boxDif f B i ≤ boxDif f B j := by
  obtain ⟨j, e1, _, e3⟩ := axisLoop_spec f B.mid B.half (List.finRange n) 0 none (fun _ => ⟨rfl, by
    intro h
    have := congrArg List.length h
    simp at this
    omega⟩) (by simp)
  exact ⟨j, e1, fun i => e3 i (List.mem_finRange i)⟩

theorem Heap.hole {h : Mem (Region n)} {g : ℕ → Region n} {sb : ℕ} (H : Heap h g sb) (hs : 1 ≤ sb) : Hole h g sb 1 :=
  ⟨le_refl _, hs, fun i h1 h2 _ => H.mem i h1 h2, fun i h1 h2 _ _ => H.prop i h1 h2, fun _ _ _ _ h => by omega⟩

theorem Heap.grow {h : Mem (Region n)} {g : ℕ → Region n} {sb : ℕ} (H : Heap h g sb) : Hole h g (sb + 1) (sb + 1) :=
  ⟨by omega, le_refl _, fun i h1 h2 h3 => H.mem i h1 (by omega), fun i h1 h2 h3 _ => H.prop i h1 (by omega), fun i _ _ _ _ => by omega⟩

theorem bag_grow (g : ℕ → Region n) (sb : ℕ) : bag g (sb + 1) (sb + 1) = all g sb := by
  unfold bag all
  congr 2
  ext i
  simp only [Finset.mem_erase, Finset.mem_Icc]
  omega

theorem capacity_ge (n : ℕ) (hn : 1 ≤ n) : 9000000 ≤ capacity n := by
  unfold capacity maxPts
  rw [Nat.le_div_iff_mul_le (by omega)]
  omega

theorem rulcls_ge (hn : 1 ≤ n) : 5 ≤ rulcls n := by
  unfold rulcls
  have : 0 < 2 ^ n := by positivity
  have : 1 ≤ n * n := Nat.mul_le_mul hn hn
  nlinarith

/-- What holds between two rounds -/
structure Inv (f : (Fin n → ℝ) → ℝ) (s : St n) (S : Multiset (Box n)) (i : ℕ) : Prop where
  sb : s.sbrgns = i + 1
  heap : ∃ g, Heap s.heap g s.sbrgns ∧ all g s.sbrgns = S.map (reg f)
  val : s.finest = total (boxVal f) S
  err : s.abserr = total (boxErr f) S
  calls : s.funcls = calls n i

theorem total_cut (v : Box n → ℝ) {S : Multiset (Box n)} {B : Box n} (h : B ∈ S) (j : Fin n) : total v (cut S B j) = total v S - v B + v (B.lower j) + v (B.upper j) := by
  classical
  unfold total cut
  have e : (S.map v).sum = v B + ((S.erase B).map v).sum := by
    rw [← Multiset.sum_cons, ← Multiset.map_cons, Multiset.cons_erase h]
  rw [e]
  simp only [Multiset.insert_eq_cons, Multiset.map_add, Multiset.map_cons, Multiset.map_singleton, Multiset.sum_add, Multiset.sum_cons, Multiset.sum_singleton]
  ring

theorem lower_mid (B : Box n) (j : Fin n) : Function.update B.mid j (B.mid j - Function.update B.half j (B.half j * 0.5) j) = (B.lower j).mid := by
  funext i
  by_cases h : i = j
  · subst h
    simp only [Function.update_self, Box.lower, Box.mid, Box.half]
    ring
  · simp only [Function.update_of_ne h, Box.lower, Box.mid]

theorem lower_half (B : Box n) (j : Fin n) : Function.update B.half j (B.half j * 0.5) = (B.lower j).half := by
  funext i
  by_cases h : i = j
  · subst h
    simp only [Function.update_self, Box.lower, Box.mid, Box.half]
    ring
  · simp only [Function.update_of_ne h, Box.lower, Box.half]

theorem upper_half (B : Box n) (j : Fin n) : (B.lower j).half = (B.upper j).half := by
  funext i
  by_cases h : i = j
  · subst h
    simp only [Function.update_self, Box.lower, Box.upper, Box.mid, Box.half]
    ring
  · simp only [Function.update_of_ne h, Box.lower, Box.upper, Box.half]

theorem upper_mid (B : Box n) (j : Fin n) : Function.update (B.lower j).mid j ((B.lower j).mid j + 2 * (B.lower j).half j) = (B.upper j).mid := by
  funext i
  by_cases h : i = j
  · subst h
    simp only [Function.update_self, Box.lower, Box.upper, Box.mid, Box.half]
    ring
  · simp only [Function.update_of_ne h, Box.lower, Box.upper, Box.mid]

theorem first_spec (cap : ℕ) (hc : 2 ≤ cap) (f : (Fin n → ℝ) → ℝ) (a b : Fin n → ℝ) (h : Mem (Region n)) : ∃ s, first cap f a b h = some s ∧ Inv f s {(a, b)} 0 := by
  have e1 : (fun j => 0.5 * (a j + b j)) = Box.mid (a, b) := by
    funext j
    simp only [Box.mid]
    ring
  have e2 : (fun j => 0.5 * (b j - a j)) = Box.half (a, b) := by
    funext j
    simp only [Box.half]
    ring
  refine ⟨⟨Function.update h 1 (some (reg f (a, b))), 1, boxVal f (a, b), boxErr f (a, b), rulcls n⟩, ?_, rfl, ⟨fun _ => reg f (a, b), ⟨?_, ?_⟩, ?_⟩, ?_, ?_, ?_⟩
  · unfold first
    simp only
    rw [e1, e2]
    have hs : ∀ x, siftUp cap x 1 1 h = some (1, h) := fun x => by simp [siftUp]
    rw [hs]
    simp only [Option.bind_some]
    rw [wr_eq (by omega)]
    simp only [Option.bind_some, reg, boxVal, boxErr, region]
  · intro i h1 h2
    have : i = 1 := by simp only at h2; omega
    subst this
    simp
  · intro i h1 h2
    simp only at h2
    omega
  · simp [all]
  · simp [total]
  · simp [total]
  · simp [calls, perBox_eq]

/-- A round cuts the worst box -/
theorem round_spec (cap : ℕ) (hn : 1 ≤ n) (f : (Fin n → ℝ) → ℝ) (s : St n) (S : Multiset (Box n)) (i : ℕ) (hI : Inv f s S i) (hi : i + 2 < cap) :
    ∃ s' B j, round cap f s = some s' ∧ Worst (boxErr f) S B ∧ (∀ k, boxDif f B k ≤ boxDif f B j) ∧ Inv f s' (cut S B j) (i + 1) := by
  classical
  obtain ⟨hsb, ⟨g, H, hall⟩, hval, herr, hcalls⟩ := hI
  have hmem : g 1 ∈ S.map (reg f) := by
    rw [← hall, all_eq g _ 1 (le_refl _) (by omega)]
    exact Multiset.mem_cons_self _ _
  obtain ⟨B, hBS, hB⟩ := Multiset.mem_map.1 hmem
  obtain ⟨j, hj, hjmax⟩ := reg_axis hn f B
  have hbag : bag g s.sbrgns 1 = (S.erase B).map (reg f) := by
    have h1 := all_eq g s.sbrgns 1 (le_refl _) (by omega)
    rw [hall, ← hB, ← Multiset.cons_erase hBS, Multiset.map_cons] at h1
    rw [← (Multiset.cons_inj_right _).1 h1]
  have hworst : Worst (boxErr f) S B := by
    refine ⟨hBS, fun C hC => ?_⟩
    have : reg f C ∈ all g s.sbrgns := by
      rw [hall]
      exact Multiset.mem_map_of_mem _ hC
    obtain ⟨k, hk, hkC⟩ := Multiset.mem_map.1 this
    have hk' := Finset.mem_Icc.1 (show k ∈ Finset.Icc 1 s.sbrgns from hk)
    have := H.top k hk'.1 hk'.2
    rw [hkC, ← hB] at this
    exact this
  obtain ⟨p1, h1, g1, e1, H1, hb1, hx1, hy1⟩ := siftDown_spec cap s.sbrgns (by omega) (reg f (B.lower j)).err s.sbrgns 1 s.heap g (H.hole (by omega)) (by omega) (by omega)
  obtain ⟨F1, A1⟩ := H1.fill (reg f (B.lower j)) hy1 hx1
  obtain ⟨p2, h2, g2, e2, H2, hb2, hx2, hy2⟩ := siftUp_spec cap (s.sbrgns + 1) (by omega) (reg f (B.upper j)).err (s.sbrgns + 1) (s.sbrgns + 1) _ _ F1.grow
    (fun i _ _ _ => by omega) (le_refl _)
  obtain ⟨F2, A2⟩ := H2.fill (reg f (B.upper j)) hy2 hx2
  rw [hb2, bag_grow, A1, hb1, hbag] at A2
  have hp1 := H1.le
  have hp2 := H2.le
  refine ⟨⟨Function.update h2 p2 (some (reg f (B.upper j))), s.sbrgns + 1, s.finest - boxVal f B + boxVal f (B.lower j) + boxVal f (B.upper j),
    s.abserr - boxErr f B + boxErr f (B.lower j) + boxErr f (B.upper j), s.funcls + rulcls n + rulcls n⟩, B, j, ?_, hworst, hjmax, ?_, ⟨_, F2, ?_⟩, ?_, ?_, ?_⟩
  · unfold round
    rw [H.mem 1 (le_refl _) (by omega), ← hB]
    simp only [Option.bind_some]
    rw [hj]
    simp only [Option.bind_some]
    have t1 : (reg f B).width = B.half := rfl
    have t2 : (reg f B).center = B.mid := rfl
    rw [t1, t2, lower_mid, lower_half, upper_mid, upper_half]
    have r1 : region f (B.lower j).mid (B.upper j).half = reg f (B.lower j) := by rw [← upper_half]; rfl
    have r2 : region f (B.upper j).mid (B.upper j).half = reg f (B.upper j) := rfl
    rw [r1, r2, e1]
    simp only [Option.bind_some]
    rw [wr_eq (by omega)]
    simp only [Option.bind_some]
    rw [e2]
    simp only [Option.bind_some]
    rw [wr_eq (by omega)]
    simp only [Option.bind_some, reg, boxVal, boxErr, region]
  · simp only [hsb]
  · rw [A2]
    unfold cut
    simp only [Multiset.insert_eq_cons, Multiset.map_add, Multiset.map_cons, Multiset.map_singleton]
    rw [add_comm ((S.erase B).map (reg f))]
    simp only [Multiset.cons_add, Multiset.singleton_add]
    exact Multiset.cons_swap _ _ _
  · simp only
    rw [total_cut _ hBS, hval]
  · simp only
    rw [total_cut _ hBS, herr]
  · simp only [hcalls, calls, perBox_eq]
    ring

theorem Inv.err_nonneg {f : (Fin n → ℝ) → ℝ} {s : St n} {S : Multiset (Box n)} {i : ℕ} (hI : Inv f s S i) : 0 ≤ s.abserr := by
  rw [hI.err]
  unfold total
  refine Multiset.sum_nonneg ?_
  intro x hx
  obtain ⟨B, _, rfl⟩ := Multiset.mem_map.1 hx
  exact boxErr_nonneg f B

theorem ifail_spec {f : (Fin n → ℝ) → ℝ} {s : St n} {S : Multiset (Box n)} {i : ℕ} (hI : Inv f s S i) (epsrel epsabs : ℝ) :
    (Converged (boxVal f) (boxErr f) epsrel epsabs S ∧ 1000 ≤ calls n i ∧ ifail n epsrel epsabs s = 0) ∨
    (¬ (Converged (boxVal f) (boxErr f) epsrel epsabs S ∧ 1000 ≤ calls n i) ∧ 10000000 < calls n (i + 1) ∧ ifail n epsrel epsabs s = 1) ∨
    (¬ (Converged (boxVal f) (boxErr f) epsrel epsabs S ∧ 1000 ≤ calls n i) ∧ calls n (i + 1) ≤ 10000000 ∧ ifail n epsrel epsabs s = 3) := by
  have h0 := hI.err_nonneg
  have hconv : ((s.finest ≠ 0 ∧ s.abserr / |s.finest| < epsrel) ∨ s.abserr < epsabs) ↔ Converged (boxVal f) (boxErr f) epsrel epsabs S := by
    unfold Converged
    rw [← hI.val, ← hI.err]
    refine or_congr ?_ Iff.rfl
    by_cases hz : s.finest = 0
    · simp only [hz, ne_eq, not_true_eq_false, false_and, abs_zero, mul_zero, false_iff, not_lt]
      exact h0
    · rw [div_lt_iff₀ (abs_pos.2 hz)]
      exact and_iff_right hz
  have hcalls : s.funcls + 2 * rulcls n = calls n (i + 1) := by
    rw [hI.calls]
    simp only [calls, perBox_eq]
    ring
  classical
  have hif : ifail n epsrel epsabs s = if Converged (boxVal f) (boxErr f) epsrel epsabs S ∧ calls n i ≥ 1000 then 0 else if calls n (i + 1) > 10000000 then 1 else
      if s.sbrgns + 1 > maxRgns n then 2 else 3 := by
    unfold ifail minPts maxPts
    rw [← hcalls, ← hI.calls]
    exact if_congr (and_congr_left' hconv) rfl rfl
  rw [hif]
  by_cases hC : Converged (boxVal f) (boxErr f) epsrel epsabs S ∧ calls n i ≥ 1000
  · exact Or.inl ⟨hC.1, hC.2, by rw [if_pos hC]⟩
  · rw [if_neg hC]
    by_cases hm : calls n (i + 1) > 10000000
    · exact Or.inr (Or.inl ⟨hC, hm, by rw [if_pos hm]⟩)
    · refine Or.inr (Or.inr ⟨hC, by omega, ?_⟩)
      rw [if_neg hm]
      have hr : 0 < rulcls n := by unfold rulcls; positivity
      have : 2 * (i + 1) + 1 ≤ 10000000 / rulcls n := by
        rw [Nat.le_div_iff_mul_le hr]
        have : calls n (i + 1) = (2 * (i + 1) + 1) * rulcls n := by
          simp only [calls, perBox_eq]
          ring
        omega
      have : ¬ s.sbrgns + 1 > maxRgns n := by
        rw [hI.sb]
        unfold maxRgns maxPts
        omega
      rw [if_neg this]

theorem loop_spec (cap : ℕ) (hc : 3000000 ≤ cap) (hn : 1 ≤ n) (f : (Fin n → ℝ) → ℝ) (epsrel epsabs : ℝ) : ∀ (fuel : ℕ) (s : St n) (S0 : Multiset (Box n)) (i : ℕ), Inv f s S0 i → i < 2000000 → 2000000 ≤ fuel + i →
    ∃ (s' : St n) (x m : ℕ) (S : ℕ → Multiset (Box n)) (B : ℕ → Box n) (ax : ℕ → Fin n), loop cap f epsrel epsabs fuel s = some (s', x) ∧ S 0 = S0 ∧ Inv f s' (S m) (i + m) ∧
      (∀ k, k < m → Worst (boxErr f) (S k) (B k) ∧ (∀ j, boxDif f (B k) j ≤ boxDif f (B k) (ax k)) ∧ S (k + 1) = cut (S k) (B k) (ax k)) ∧
      (∀ k, k < m → ¬ (Converged (boxVal f) (boxErr f) epsrel epsabs (S k) ∧ 1000 ≤ calls n (i + k)) ∧ calls n (i + k + 1) ≤ 10000000) ∧
      ((Converged (boxVal f) (boxErr f) epsrel epsabs (S m) ∧ 1000 ≤ calls n (i + m) ∧ x = 0) ∨
       (¬ (Converged (boxVal f) (boxErr f) epsrel epsabs (S m) ∧ 1000 ≤ calls n (i + m)) ∧ 10000000 < calls n (i + m + 1) ∧ x = 1)) := by
  intro fuel
  induction fuel with
  | zero => intro s S0 i _ h1 h2; omega
  | succ fuel ih =>
    intro s S0 i hI h1 h2
    have : Nonempty (Fin n) := ⟨⟨0, hn⟩⟩
    rcases ifail_spec hI epsrel epsabs with ⟨c1, c2, c3⟩ | ⟨c1, c2, c3⟩ | ⟨c1, c2, c3⟩
    · exact ⟨s, 0, 0, fun _ => S0, fun _ => default, fun _ => Classical.choice this, by simp [loop, c3], rfl, hI, by omega, by omega, Or.inl ⟨c1, c2, rfl⟩⟩
    · exact ⟨s, 1, 0, fun _ => S0, fun _ => default, fun _ => Classical.choice this, by simp [loop, c3], rfl, hI, by omega, by omega, Or.inr ⟨c1, c2, rfl⟩⟩
    · have hi : i + 1 < 2000000 := by
        have hr := rulcls_ge hn
        unfold calls at c2
        rw [← perBox_eq] at c2
        nlinarith
      obtain ⟨s1, B0, j0, r1, r2, r3, r4⟩ := round_spec cap hn f s S0 i hI (by omega)
      obtain ⟨s', x, m, S, B, ax, l1, l2, l3, l4, l5, l6⟩ := ih s1 _ (i + 1) r4 hi (by omega)
      have ea : ∀ k, i + 1 + k = i + (k + 1) := fun k => by omega
      refine ⟨s', x, m + 1, fun k => if k = 0 then S0 else S (k - 1), fun k => if k = 0 then B0 else B (k - 1), fun k => if k = 0 then j0 else ax (k - 1), ?_, by simp, ?_, ?_, ?_, ?_⟩
      · simp [loop, c3, r1, l1]
      · simpa [ea] using l3
      · intro k hk
        cases k with
        | zero => exact ⟨by simpa using r2, by simpa using r3, by simpa using l2⟩
        | succ k => simpa using l4 k (by omega)
      · intro k hk
        cases k with
        | zero =>
          simp only [if_pos]
          exact ⟨c1, c2⟩
        | succ k => simpa [ea] using l5 k (by omega)
      · simpa [ea] using l6

/-- What the program computes -/
theorem integrate_spec (hn : 1 ≤ n) (f : (Fin n → ℝ) → ℝ) (a b : Fin n → ℝ) (epsrel epsabs : ℝ) (h : Mem (Region n)) :
    ∃ (out : Out) (m : ℕ) (S : ℕ → Multiset (Box n)) (B : ℕ → Box n) (ax : ℕ → Fin n), integrate f a b epsrel epsabs h = some out ∧ S 0 = {(a, b)} ∧ Run (boxVal f) (boxErr f) (boxDif f) epsrel epsabs m S B ax ∧
      out.value = total (boxVal f) (S m) ∧ out.abserr = total (boxErr f) (S m) ∧ out.neval = calls n m ∧
      ((Converged (boxVal f) (boxErr f) epsrel epsabs (S m) ∧ 1000 ≤ calls n m ∧ out.ifail = 0) ∨
       (¬ (Converged (boxVal f) (boxErr f) epsrel epsabs (S m) ∧ 1000 ≤ calls n m) ∧ 10000000 < calls n (m + 1) ∧ out.ifail = 1)) := by
  obtain ⟨s, e1, hI⟩ := first_spec (capacity n) (by have := capacity_ge n hn; omega) f a b h
  obtain ⟨s', x, m, S, B, ax, l1, l2, l3, l4, l5, l6⟩ := loop_spec (capacity n) (by have := capacity_ge n hn; omega) hn f epsrel epsabs maxPts s _ 0 hI (by norm_num) (by norm_num [maxPts])
  simp only [Nat.zero_add] at l3 l5 l6
  refine ⟨⟨s'.finest, s'.abserr, s'.funcls, x⟩, m, S, B, ax, ?_, l2, ⟨l4, l5⟩, l3.val, l3.err, l3.calls, l6⟩
  unfold integrate
  rw [e1]
  simp only [Option.bind_some]
  rw [l1]
  rfl

end Verif.GM
