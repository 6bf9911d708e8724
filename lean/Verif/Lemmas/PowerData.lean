import Verif.Props.Cov
import Verif.Model.PowerData
namespace Verif.Cov

theorem eq_of_pairwise {α : Type} {r : α → α → Prop} (as : ∀ a b, r a b → ¬ r b a) : ∀ {l l' : List α}, l.Pairwise r →
    l'.Pairwise r → (∀ x, x ∈ l ↔ x ∈ l') → l = l'
  | [], [], _, _, _ => rfl
  | [], b :: l', _, _, h => by have := (h b).2 (by simp); cases this
  | a :: l, [], _, _, h => by have := (h a).1 (by simp); cases this
  | a :: l, b :: l', h1, h2, h => by
    have h1' := List.pairwise_cons.1 h1
    have h2' := List.pairwise_cons.1 h2
    have hab : a = b := by
      rcases List.mem_cons.1 ((h a).1 (by simp)) with e | ha
      · exact e
      · rcases List.mem_cons.1 ((h b).2 (by simp)) with e | hb
        · exact e.symm
        · exact absurd (h1'.1 b hb) (as _ _ (h2'.1 a ha))
    subst hab
    congr 1
    apply eq_of_pairwise as h1'.2 h2'.2
    intro x
    constructor
    · intro hx
      rcases List.mem_cons.1 ((h x).1 (List.mem_cons_of_mem _ hx)) with e | hx'
      · subst e; exact absurd (h1'.1 _ hx) (as _ _ (h1'.1 _ hx))
      · exact hx'
    · intro hx
      rcases List.mem_cons.1 ((h x).2 (List.mem_cons_of_mem _ hx)) with e | hx'
      · subst e; exact absurd (h2'.1 _ hx) (as _ _ (h2'.1 _ hx))
      · exact hx'

theorem coordLe_trans {a b c : Coord} (h1 : coordLe a b = true) (h2 : coordLe b c = true) : coordLe a c = true := by
  unfold coordLe at *
  simp at *
  grind

theorem lexsorted_iff : ∀ {l : List Coord}, lexsorted l = true ↔ l.Pairwise (fun a b => coordLe a b = true)
  | [] => by simp [lexsorted]
  | [a] => by simp [lexsorted]
  | a :: b :: l => by
    simp only [lexsorted, Bool.and_eq_true]
    rw [lexsorted_iff (l := b :: l), List.pairwise_cons (a := a)]
    constructor
    · rintro ⟨h1, h2⟩
      refine ⟨?_, h2⟩
      intro x hx
      rcases List.mem_cons.1 hx with rfl | hx
      · exact h1
      · exact coordLe_trans h1 ((List.pairwise_cons.1 h2).1 x hx)
    · rintro ⟨h1, h2⟩
      exact ⟨h1 b (by simp), h2⟩

/-- A list of elements at the kept positions of a filter is the filtered list. -/
theorem filter_range {α : Type} (cs : List α) (p : α → Bool) :
    ((List.range cs.length).filter fun i => (cs[i]?).any p).map (fun i => cs[i]?) =
      (cs.filter p).map some := by
  have h : cs.map some = (List.range cs.length).map fun i => cs[i]? := by
    apply List.ext_getElem
    · simp
    · intro i h1 h2
      have : i < cs.length := by simpa using h1
      simp [List.getElem?_eq_getElem this]
  have h2 : (cs.filter p).map some = (cs.map some).filter fun o => o.any p := by
    rw [List.filter_map]; rfl
  rw [h2, h, List.filter_map]
  rfl

theorem broadcast_trim (c : Cov) (lo hi : Rat → Option Rat) {l1 l2 : List (Option Rat)}
    (h1 : broadcast c.stats.length l1 = .ok (c.stats.map lo)) (h2 : broadcast c.stats.length l2 = .ok (c.stats.map hi)) :
    c.trimK l1 l2 = c.trimK (c.stats.map lo) (c.stats.map hi) := by
  have hb : ∀ f : Rat → Option Rat, broadcast c.stats.length (c.stats.map f) = .ok (c.stats.map f) := by
    intro f
    unfold broadcast
    split
    · rename_i x hx
      have hl : c.stats.length = 1 := by
        have := congrArg List.length hx
        simpa using this
      rw [hl, hx]; rfl
    · simp
  unfold Cov.trimK
  rw [h1, h2, hb lo, hb hi]

/-- Everything about a successful trim, with the coordinates as a filter. -/
theorem trimK_ok (c : Cov) (hwf : c.WF) (hco : c.coords1 = c.coords2) (hlex : lexsorted c.coords1 = true) (hN : c.N ≠ 0)
    (lo hi : Rat → Option Rat) {c' : Cov} (h : c.trimK (c.stats.map lo) (c.stats.map hi) = .ok c') :
    c'.WF ∧ c'.coords1 = c.coords1.filter (fun x => inside (lo x.1) (hi x.1) x.2) ∧ c'.coords1 = c'.coords2 ∧
    (∀ x ∈ c.coords1, ∃ y ∈ c.coords1, y.1 = x.1 ∧ inside (lo x.1) (hi x.1) y.2 = true) ∧
    c'.resc = 1 ∧
    ∃ kept : List Nat, kept.Pairwise (· < ·) ∧ c'.N = kept.length ∧ (∀ i ∈ kept, i < c.N) ∧
      (∀ a : Nat, c'.coords1[a]? = (kept[a]?).bind fun i => c.coords1[i]?) ∧
      (∀ (a b : Nat) (ha : a < kept.length) (hb : b < kept.length),
        elem c'.N c'.data a b = elem c.N c.data (kept[a] : Nat) (kept[b] : Nat)) := by
  have hne : ∀ x ∈ c.coords1, ∃ y ∈ c.coords1, y.1 = x.1 ∧ inside (lo x.1) (hi x.1) y.2 = true := by
    intro x hx
    apply Classical.byContradiction
    intro hcon
    obtain ⟨e, he⟩ := C12_empty_statistic_fails c hco hlex lo hi x hx (by
      intro y hy hyx
      cases hin : inside (lo x.1) (hi x.1) y.2 with
      | false => rfl
      | true => exact absurd ⟨y, hy, hyx, hin⟩ hcon)
    rw [he] at h; cases h
  obtain ⟨c'', kept, h1, h2, h3, h4, h5, h6, h7⟩ := trim_inside c hwf hco hlex lo hi ⟨hN, hne⟩
  rw [h] at h1
  cases h1
  have hk : kept = (List.range c.coords1.length).filter fun i => (c.coords1[i]?).any fun x => inside (lo x.1) (hi x.1) x.2 := by
    apply eq_of_pairwise_lt h2 (List.Pairwise.filter _ List.pairwise_lt_range)
    intro i
    rw [h3, List.mem_filter, List.mem_range]
    constructor
    · rintro ⟨x, hx, h⟩
      obtain ⟨hi, -⟩ := List.getElem?_eq_some_iff.1 hx
      exact ⟨hi, by rw [hx]; exact h⟩
    · rintro ⟨hi, h⟩
      rw [List.getElem?_eq_getElem hi] at h ⊢
      exact ⟨_, rfl, h⟩
  have hc1 : ∀ a : Nat, c'.coords1[a]? = (kept[a]?).bind fun i => c.coords1[i]? := by
    intro a
    by_cases ha : a < kept.length
    · rw [(h6 a ha).1, List.getElem?_eq_getElem ha]; rfl
    · rw [List.getElem?_eq_none (by rw [h4.coords1, h5]; omega), List.getElem?_eq_none (by omega)]; rfl
  have hc2 : c'.coords1 = c'.coords2 := by
    apply List.ext_getElem?
    intro a
    by_cases ha : a < kept.length
    · rw [(h6 a ha).1, (h6 a ha).2, hco]
    · rw [List.getElem?_eq_none (by rw [h4.coords1, h5]; omega), List.getElem?_eq_none (by rw [h4.coords2, h5]; omega)]
  refine ⟨h4, ?_, hc2, hne, ?_, kept, h2, h5, ?_, hc1, h7⟩
  · have := filter_range c.coords1 (fun x => inside (lo x.1) (hi x.1) x.2)
    rw [← hk] at this
    have h8 : c'.coords1.map some = (c.coords1.filter (fun x => inside (lo x.1) (hi x.1) x.2)).map some := by
      rw [← this]
      apply List.ext_getElem?
      intro a
      rw [List.getElem?_map, List.getElem?_map, hc1]
      by_cases ha : a < kept.length
      · rw [List.getElem?_eq_getElem ha]
        have hl : kept[a] < c.coords1.length := by
          obtain ⟨x, hx, -⟩ := (h3 _).1 (List.getElem_mem ha)
          exact (List.getElem?_eq_some_iff.1 hx).1
        simp [List.getElem?_eq_getElem hl]
      · rw [List.getElem?_eq_none (by omega)]; rfl
    exact (List.map_inj_right (fun a b h => by cases h; rfl)).1 h8
  · unfold Cov.trimK at h
    revert h
    split
    · simp
    · simp
    · split
      · simp
      · split
        · simp
        · intro h
          revert h
          simp only
          split
          · simp
          · split
            · simp
            · intro h; cases h; rfl
  · intro i hi
    obtain ⟨x, hx, -⟩ := (h3 _).1 hi
    rw [← hwf.coords1]
    exact (List.getElem?_eq_some_iff.1 hx).1

end Verif.Cov
