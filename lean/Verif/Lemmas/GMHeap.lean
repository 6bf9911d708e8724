/-
The regions of the n-dimensional quadrature are a heap: lemmas about the two loops that place a region.
-/
import Verif.Model.GMQuad
import Mathlib.Data.Finset.Interval
import Mathlib.Order.Interval.Finset.Nat
import Mathlib.Data.Multiset.AddSub
import Mathlib.Tactic.Linarith

namespace Verif.GM

open Verif.GK (Mem wr)

variable {n : ℕ}

/-- A heap of `sb` regions with a hole at `p` -/
structure Hole (h : Mem (Region n)) (g : ℕ → Region n) (sb p : ℕ) : Prop where
  one : 1 ≤ p
  le : p ≤ sb
  mem : ∀ i, 1 ≤ i → i ≤ sb → i ≠ p → h i = some (g i)
  prop : ∀ i, 2 ≤ i → i ≤ sb → i ≠ p → i / 2 ≠ p → (g i).err ≤ (g (i / 2)).err
  skip : ∀ i, 2 ≤ i → i ≤ sb → i / 2 = p → 2 ≤ p → (g i).err ≤ (g (p / 2)).err

/-- The regions other than that in the hole -/
def bag (g : ℕ → Region n) (sb p : ℕ) : Multiset (Region n) := ((Finset.Icc 1 sb).erase p).val.map g

/-- A heap -/
structure Heap (h : Mem (Region n)) (g : ℕ → Region n) (sb : ℕ) : Prop where
  mem : ∀ i, 1 ≤ i → i ≤ sb → h i = some (g i)
  prop : ∀ i, 2 ≤ i → i ≤ sb → (g i).err ≤ (g (i / 2)).err

/-- The regions of a heap -/
def all (g : ℕ → Region n) (sb : ℕ) : Multiset (Region n) := (Finset.Icc 1 sb).val.map g

theorem wr_eq {α : Type} {cap : ℕ} {m : Mem α} {i : ℕ} {v : α} (h : i < cap) : wr cap m i v = some (Function.update m i (some v)) := by
  simp [wr, h]

theorem all_eq (g : ℕ → Region n) (sb p : ℕ) (h1 : 1 ≤ p) (h2 : p ≤ sb) : all g sb = g p ::ₘ bag g sb p := by
  unfold all bag
  have hm : p ∈ Finset.Icc 1 sb := Finset.mem_Icc.2 ⟨h1, h2⟩
  rw [Finset.erase_val, ← Multiset.map_cons, Multiset.cons_erase (by exact hm)]

theorem bag_update (g : ℕ → Region n) (sb p : ℕ) (x : Region n) : bag (Function.update g p x) sb p = bag g sb p := by
  unfold bag
  refine Multiset.map_congr rfl ?_
  intro i hi
  have : i ≠ p := (Finset.mem_erase.1 (show i ∈ (Finset.Icc 1 sb).erase p from hi)).1
  rw [Function.update_of_ne this]

/-- Moving a region into the hole moves the hole -/
theorem bag_move (g : ℕ → Region n) (sb p t : ℕ) (hp1 : 1 ≤ p) (hp2 : p ≤ sb) (ht1 : 1 ≤ t) (ht2 : t ≤ sb) (hne : t ≠ p) : bag (Function.update g p (g t)) sb t = bag g sb p := by
  have h1 := all_eq (Function.update g p (g t)) sb p hp1 hp2
  have h2 := all_eq (Function.update g p (g t)) sb t ht1 ht2
  rw [bag_update, Function.update_self] at h1
  rw [Function.update_of_ne hne] at h2
  rw [h1] at h2
  exact ((Multiset.cons_inj_right _).1 h2).symm

theorem mem_move {h : Mem (Region n)} {g : ℕ → Region n} {sb p t : ℕ} (H : Hole h g sb p) (i : ℕ) (h1 : 1 ≤ i) (h2 : i ≤ sb) :
    Function.update h p (some (g t)) i = some (Function.update g p (g t) i) := by
  by_cases hi : i = p
  · subst hi
    simp
  · rw [Function.update_of_ne hi, Function.update_of_ne hi, H.mem i h1 h2 hi]

theorem Hole.down {h : Mem (Region n)} {g : ℕ → Region n} {sb p t : ℕ} (H : Hole h g sb p) (ht : t / 2 = p) (htb : t ≤ sb) (hmax : ∀ i, 2 ≤ i → i ≤ sb → i / 2 = p → (g i).err ≤ (g t).err) :
    Hole (Function.update h p (some (g t))) (Function.update g p (g t)) sb t := by
  have hp := H.one
  have htp : t ≠ p := by omega
  refine ⟨by omega, htb, fun i h1 h2 _ => mem_move H i h1 h2, ?_, ?_⟩
  · intro i h1 h2 hit hi2
    by_cases hip : i = p
    · subst hip
      rw [Function.update_self, Function.update_of_ne (by omega)]
      exact H.skip t (by omega) htb ht h1
    · rw [Function.update_of_ne hip]
      by_cases hi2p : i / 2 = p
      · rw [hi2p, Function.update_self]
        exact hmax i h1 h2 hi2p
      · rw [Function.update_of_ne hi2p]
        exact H.prop i h1 h2 hip hi2p
  · intro i h1 h2 hi2 _
    have hip : i ≠ p := by omega
    rw [Function.update_of_ne hip, ht, Function.update_self]
    have := H.prop i h1 h2 hip (by omega)
    rwa [hi2] at this

theorem Hole.up {h : Mem (Region n)} {g : ℕ → Region n} {sb p : ℕ} (H : Hole h g sb p) (hp : 2 ≤ p) : Hole (Function.update h p (some (g (p / 2)))) (Function.update g p (g (p / 2))) sb (p / 2) := by
  have hle := H.le
  refine ⟨by omega, by omega, fun i h1 h2 _ => mem_move H i h1 h2, ?_, ?_⟩
  · intro i h1 h2 hit hi2
    have hip : i ≠ p := by
      rintro rfl
      exact hi2 rfl
    rw [Function.update_of_ne hip]
    by_cases hi2p : i / 2 = p
    · rw [hi2p, Function.update_self]
      exact H.skip i h1 h2 hi2p hp
    · rw [Function.update_of_ne hi2p]
      exact H.prop i h1 h2 hip hi2p
  · intro i h1 h2 hi2 ht
    have hne : p / 2 / 2 ≠ p := by omega
    have hpar := H.prop (p / 2) ht (by omega) (by omega) hne
    rw [Function.update_of_ne hne]
    by_cases hip : i = p
    · rw [hip, Function.update_self]
      exact hpar
    · rw [Function.update_of_ne hip]
      have := H.prop i h1 h2 hip (by omega)
      rw [hi2] at this
      linarith

theorem Hole.fill {h : Mem (Region n)} {g : ℕ → Region n} {sb p : ℕ} (H : Hole h g sb p) (x : Region n) (hch : ∀ i, 2 ≤ i → i ≤ sb → i / 2 = p → (g i).err ≤ x.err)
    (hpar : 2 ≤ p → x.err ≤ (g (p / 2)).err) : Heap (Function.update h p (some x)) (Function.update g p x) sb ∧ all (Function.update g p x) sb = x ::ₘ bag g sb p := by
  refine ⟨⟨?_, ?_⟩, ?_⟩
  · intro i h1 h2
    by_cases hi : i = p
    · subst hi
      simp
    · rw [Function.update_of_ne hi, Function.update_of_ne hi, H.mem i h1 h2 hi]
  · intro i h1 h2
    by_cases hi : i = p
    · subst hi
      rw [Function.update_self, Function.update_of_ne (by omega)]
      exact hpar h1
    · rw [Function.update_of_ne hi]
      by_cases hi2 : i / 2 = p
      · rw [hi2, Function.update_self]
        exact hch i h1 h2 hi2
      · rw [Function.update_of_ne hi2]
        exact H.prop i h1 h2 hi hi2
  · rw [all_eq _ sb p H.one H.le, Function.update_self, bag_update]

theorem siftDown_spec (cap sb : ℕ) (hcap : sb < cap) (x : ℝ) : ∀ (fuel p : ℕ) (h : Mem (Region n)) (g : ℕ → Region n), Hole h g sb p → (2 ≤ p → x ≤ (g (p / 2)).err) → sb + 1 ≤ fuel + p →
    ∃ p' h' g', siftDown cap sb x fuel p h = some (p', h') ∧ Hole h' g' sb p' ∧ bag g' sb p' = bag g sb p ∧ (2 ≤ p' → x ≤ (g' (p' / 2)).err) ∧
      ∀ i, 2 ≤ i → i ≤ sb → i / 2 = p' → (g' i).err ≤ x := by
  intro fuel
  induction fuel with
  | zero =>
    intro p h g H _ hf
    have := H.le
    omega
  | succ fuel ih =>
    intro p h g H hx hf
    have hp1 := H.one
    have hple := H.le
    by_cases hleaf : 2 * p > sb
    · refine ⟨p, h, g, by simp [siftDown, hleaf], H, rfl, hx, ?_⟩
      intro i h1 h2 h3
      omega
    obtain ⟨t, htsel, ht2, htb, htmax⟩ : ∃ t, (if 2 * p < sb then (h (2 * p)).bind fun r => (h (2 * p + 1)).bind fun r' => some (if r.err < r'.err then 2 * p + 1 else 2 * p) else some (2 * p)) = some t ∧
        t / 2 = p ∧ t ≤ sb ∧ ∀ i, 2 ≤ i → i ≤ sb → i / 2 = p → (g i).err ≤ (g t).err := by
      by_cases h2 : 2 * p < sb
      · have e1 : h (2 * p) = some (g (2 * p)) := H.mem _ (by omega) (by omega) (by omega)
        have e2 : h (2 * p + 1) = some (g (2 * p + 1)) := H.mem _ (by omega) (by omega) (by omega)
        by_cases hlt : (g (2 * p)).err < (g (2 * p + 1)).err
        · refine ⟨2 * p + 1, by simp [h2, e1, e2, hlt], by omega, by omega, ?_⟩
          intro i _ _ hi
          have : i = 2 * p ∨ i = 2 * p + 1 := by omega
          rcases this with rfl | rfl
          · exact hlt.le
          · exact le_refl _
        · refine ⟨2 * p, by simp [h2, e1, e2, hlt], by omega, by omega, ?_⟩
          intro i _ _ hi
          have : i = 2 * p ∨ i = 2 * p + 1 := by omega
          rcases this with rfl | rfl
          · exact le_refl _
          · exact not_lt.1 hlt
      · refine ⟨2 * p, by simp [h2], by omega, by omega, ?_⟩
        intro i _ _ hi
        have : i = 2 * p := by omega
        rw [this]
    have hmt : h t = some (g t) := H.mem t (by omega) htb (by omega)
    by_cases hstop : x ≥ (g t).err
    · refine ⟨p, h, g, ?_, H, rfl, hx, ?_⟩
      · simp only [siftDown, hleaf, if_false]
        rw [htsel]
        simp [hmt, hstop]
      · intro i h1 h2 h3
        exact le_trans (htmax i h1 h2 h3) hstop
    · have H' := H.down ht2 htb htmax
      obtain ⟨p', h', g', e1, e2, e3, e4, e5⟩ := ih t _ _ H' (by
        intro _
        rw [ht2, Function.update_self]
        exact (not_le.1 hstop).le) (by omega)
      refine ⟨p', h', g', ?_, e2, ?_, e4, e5⟩
      · simp only [siftDown, hleaf, if_false]
        rw [htsel]
        simp only [Option.bind_some, hmt, hstop, if_false]
        rw [wr_eq (by omega)]
        exact e1
      · rw [e3, bag_move g sb p t hp1 hple (by omega) htb (by omega)]

theorem siftUp_spec (cap sb : ℕ) (hcap : sb < cap) (x : ℝ) : ∀ (fuel p : ℕ) (h : Mem (Region n)) (g : ℕ → Region n), Hole h g sb p → (∀ i, 2 ≤ i → i ≤ sb → i / 2 = p → (g i).err ≤ x) → p ≤ fuel →
    ∃ p' h' g', siftUp cap x fuel p h = some (p', h') ∧ Hole h' g' sb p' ∧ bag g' sb p' = bag g sb p ∧ (2 ≤ p' → x ≤ (g' (p' / 2)).err) ∧
      ∀ i, 2 ≤ i → i ≤ sb → i / 2 = p' → (g' i).err ≤ x := by
  intro fuel
  induction fuel with
  | zero =>
    intro p h g H _ hf
    have := H.one
    omega
  | succ fuel ih =>
    intro p h g H hx hf
    have hp1 := H.one
    have hple := H.le
    by_cases htop : p / 2 = 0
    · exact ⟨p, h, g, by simp [siftUp, htop], H, rfl, fun h2 => by omega, hx⟩
    have hm : h (p / 2) = some (g (p / 2)) := H.mem _ (by omega) (by omega) (by omega)
    by_cases hstop : x < (g (p / 2)).err
    · exact ⟨p, h, g, by simp [siftUp, htop, hm, hstop], H, rfl, fun _ => hstop.le, hx⟩
    · have H' := H.up (by omega)
      obtain ⟨p', h', g', e1, e2, e3, e4, e5⟩ := ih (p / 2) _ _ H' (by
        intro i h1 h2 h3
        have hx2 := not_lt.1 hstop
        by_cases hip : i = p
        · rw [hip, Function.update_self]
          exact hx2
        · rw [Function.update_of_ne hip]
          have := H.prop i h1 h2 hip (by omega)
          rw [h3] at this
          linarith) (by omega)
      refine ⟨p', h', g', ?_, e2, ?_, e4, e5⟩
      · simp only [siftUp, htop, if_false, hm, Option.bind_some, hstop]
        rw [wr_eq (by omega)]
        exact e1
      · rw [e3, bag_move g sb p (p / 2) hp1 hple (by omega) (by omega) (by omega)]

/-- The top of the heap has the largest error -/
theorem Heap.top {h : Mem (Region n)} {g : ℕ → Region n} {sb : ℕ} (H : Heap h g sb) : ∀ i, 1 ≤ i → i ≤ sb → (g i).err ≤ (g 1).err := by
  intro i
  induction i using Nat.strong_induction_on with
  | _ i ih =>
    intro h1 h2
    rcases Nat.lt_or_ge i 2 with hi | hi
    · have : i = 1 := by omega
      rw [this]
    · exact le_trans (H.prop i hi h2) (ih (i / 2) (by omega) (by omega) (by omega))

end Verif.GM
