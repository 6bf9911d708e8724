import Verif.Lemmas.Packed
import Verif.Model.Cov
namespace Verif.Cov

theorem mapM_ok {α β : Type} {f : α → Except Err β} {g : α → β} : ∀ {l : List α}, (∀ x ∈ l, f x = .ok (g x)) →
    l.mapM f = .ok (l.map g)
  | [], _ => rfl
  | a :: l, h => by
    rw [List.mapM_cons, h a (by simp), mapM_ok (fun x hx => h x (List.mem_cons_of_mem _ hx))]; rfl

theorem mapM_error {α β : Type} {f : α → Except Err β} {e : Err} : ∀ {l : List α},
    (∀ x ∈ l, f x = .error e ∨ ∃ v, f x = .ok v) → (∃ x ∈ l, f x = .error e) → l.mapM f = .error e
  | [], _, h => by obtain ⟨_, h, _⟩ := h; cases h
  | a :: l, h, hx => by
    rw [List.mapM_cons]
    rcases h a (by simp) with h1 | ⟨v, h1⟩
    · rw [h1]; rfl
    · obtain ⟨x, hx, hxe⟩ := hx
      rw [h1]
      rcases List.mem_cons.1 hx with rfl | hx
      · rw [h1] at hxe; cases hxe
      · have := mapM_error (f := f) (l := l) (fun y hy => h y (List.mem_cons_of_mem _ hy)) ⟨x, hx, hxe⟩
        show (do let bs ← List.mapM f l; pure (v :: bs) : Except Err _) = _
        rw [this]; rfl

/-- Any list of the right length is the image of a duplicate-free list. -/
theorem exists_map {α β : Type} [DecidableEq α] (b0 : β) : ∀ (l : List α) (d : List β), l.Nodup → d.length = l.length →
    ∃ f, d = l.map f
  | [], [], _, _ => ⟨fun _ => b0, rfl⟩
  | a :: l, b :: d, hn, h => by
    obtain ⟨f, hf⟩ := exists_map b0 l d (List.nodup_cons.1 hn).2 (by simpa using h)
    refine ⟨fun x => if x = a then b else f x, ?_⟩
    simp only [List.map_cons, if_true]
    rw [hf]
    congr 1
    apply List.map_congr_left
    intro x hx
    have : x ≠ a := fun e => (List.nodup_cons.1 hn).1 (e ▸ hx)
    simp [this]

/-- The object is well formed: storage and coordinates have the right sizes. -/
structure Cov.WF (c : Cov) : Prop where
  data : c.data.length = (triu c.N).length
  coords1 : c.coords1.length = c.N
  coords2 : c.coords2.length = c.N

theorem exists_pack (N : Nat) (d : List Rat) (h : d.length = (triu N).length) :
    ∃ m : Nat → Nat → Rat, d = pack N m ∧ ∀ i j, m i j = m j i := by
  obtain ⟨f, hf⟩ := exists_map 0 (triu N) d (triu_nodup N) h
  refine ⟨fun i j => if i ≤ j then f (i, j) else f (j, i), ?_, ?_⟩
  · rw [hf]
    unfold pack
    apply List.map_congr_left
    rintro ⟨i, j⟩ hp
    simp [(mem_triu.1 hp).1]
  · intro i j
    by_cases h : i ≤ j <;> by_cases h' : j ≤ i
    · have : i = j := by omega
      subst this; rfl
    all_goals simp [h, h']
    omega

theorem values_pack {N : Nat} {m : Nat → Nat → Rat} {c1 c2 : List Coord} {r : Rat} {i j : Nat} (hi : i < N) (hj : j < N) :
    (Cov.mk N (pack N m) c1 c2 r).values i j = if i ≤ j then m i j else m j i := by
  obtain ⟨g, h1, h2⟩ := full_pack N m
  unfold Cov.values
  simp only [h1, h2 i j hi hj, Option.getD_some]

theorem elem_values {c : Cov} (h : c.WF) {i j : Nat} (hi : i < c.N) (hj : j < c.N) :
    elem c.N c.data i j = .ok (c.values i j) ∧ c.values i j = c.values j i := by
  obtain ⟨m, hm, hs⟩ := exists_pack c.N c.data h.data
  obtain ⟨N, d, c1, c2, r⟩ := c
  simp only at hm hi hj
  subst hm
  rw [values_pack hi hj, values_pack hj hi, elem_pack_nat m hi hj]
  refine ⟨rfl, ?_⟩
  by_cases h : i ≤ j <;> by_cases h' : j ≤ i <;> simp [h, h', hs i j]

theorem construct_wf {N : Nat} {m : Nat → Nat → Rat} {c1 c2 : List Coord} (h1 : c1.length = N) (h2 : c2.length = N) :
    (construct N m c1 c2).WF := ⟨by simp [construct, pack], h1, h2⟩

theorem sym_max {m : Nat → Nat → Rat} (hs : ∀ i j, m i j = m j i) (i j : Nat) : (if i ≤ j then m i j else m j i) = m i j := by
  split
  · rfl
  · exact hs j i

/-! ### sorted sets of indices -/

theorem mem_insertSorted {a x : Int} {l : List Int} : x ∈ insertSorted a l ↔ x = a ∨ x ∈ l := by
  induction l with
  | nil => simp [insertSorted]
  | cons b l ih =>
    unfold insertSorted
    split
    · simp
    · split
      · rename_i h; subst h; simp
      · simp [ih]; grind

theorem insertSorted_pairwise {a : Int} {l : List Int} (h : l.Pairwise (· < ·)) : (insertSorted a l).Pairwise (· < ·) := by
  induction l with
  | nil => simp [insertSorted]
  | cons b l ih =>
    unfold insertSorted
    have hb := List.pairwise_cons.1 h
    split
    · refine List.pairwise_cons.2 ⟨?_, h⟩
      intro x hx
      rcases List.mem_cons.1 hx with rfl | hx
      · assumption
      · have := hb.1 x hx; omega
    · split
      · exact h
      · refine List.pairwise_cons.2 ⟨?_, ih hb.2⟩
        intro x hx
        rcases mem_insertSorted.1 hx with rfl | hx
        · omega
        · exact hb.1 x hx

theorem sortedSet_pairwise (l : List Int) : (sortedSet l).Pairwise (· < ·) := by
  induction l with
  | nil => simp [sortedSet]
  | cons a l ih => exact insertSorted_pairwise ih

theorem mem_sortedSet {x : Int} {l : List Int} : x ∈ sortedSet l ↔ x ∈ l := by
  induction l with
  | nil => simp [sortedSet]
  | cons a l ih =>
    have : sortedSet (a :: l) = insertSorted a (sortedSet l) := rfl
    rw [this, mem_insertSorted, ih]; simp

/-! ### strictly increasing lists -/

theorem eq_of_pairwise_lt : ∀ {l l' : List Nat}, l.Pairwise (· < ·) → l'.Pairwise (· < ·) → (∀ x, x ∈ l ↔ x ∈ l') → l = l'
  | [], [], _, _, _ => rfl
  | [], b :: l', _, _, h => by have := (h b).2 (by simp); cases this
  | a :: l, [], _, _, h => by have := (h a).1 (by simp); cases this
  | a :: l, b :: l', h1, h2, h => by
    have h1' := List.pairwise_cons.1 h1
    have h2' := List.pairwise_cons.1 h2
    have hab : a = b := by
      rcases List.mem_cons.1 ((h a).1 (by simp)) with e | ha
      · exact e
      · rcases List.mem_cons.1 ((h b).2 (by simp)) with e | hb
        · exact e.symm
        · have := h1'.1 b hb; have := h2'.1 a ha; omega
    subst hab
    congr 1
    apply eq_of_pairwise_lt h1'.2 h2'.2
    intro x
    constructor
    · intro hx
      rcases List.mem_cons.1 ((h x).1 (List.mem_cons_of_mem _ hx)) with e | hx'
      · subst e; have := h1'.1 x hx; omega
      · exact hx'
    · intro hx
      rcases List.mem_cons.1 ((h x).2 (List.mem_cons_of_mem _ hx)) with e | hx'
      · subst e; have := h2'.1 x hx; omega
      · exact hx'

/-! ### unique labels of a sorted list -/

theorem mem_uniq {x : Rat} {l : List Rat} : x ∈ uniq l ↔ x ∈ l := by
  induction l with
  | nil => simp [uniq]
  | cons a l ih => simp [uniq, ih]; grind

theorem uniq_nodup (l : List Rat) : (uniq l).Nodup := by
  induction l with
  | nil => simp [uniq]
  | cons a l ih =>
    refine List.nodup_cons.2 ⟨by simp, ih.filter _⟩

theorem uniq_pairwise {l : List Rat} (h : l.Pairwise (· ≤ ·)) : (uniq l).Pairwise (· < ·) := by
  induction l with
  | nil => simp [uniq]
  | cons a l ih =>
    have h' := List.pairwise_cons.1 h
    refine List.pairwise_cons.2 ⟨?_, (ih h'.2).filter _⟩
    intro x hx
    simp only [List.mem_filter, decide_eq_true_eq, mem_uniq] at hx
    have := h'.1 x hx.1
    grind

theorem coordLe_fst {a b : Coord} (h : coordLe a b = true) : a.1 ≤ b.1 := by
  unfold coordLe at h
  simp at h
  rcases h with h | h
  · exact Rat.le_of_lt h
  · rw [h.1]; exact Rat.le_refl

theorem lexsorted_fst : ∀ {l : List Coord}, lexsorted l = true → (l.map (·.1)).Pairwise (· ≤ ·)
  | [], _ => by simp
  | [a], _ => by simp
  | a :: b :: l, h => by
    simp only [lexsorted, Bool.and_eq_true] at h
    have ih := lexsorted_fst (l := b :: l) h.2
    rw [List.map_cons, List.pairwise_cons]
    refine ⟨?_, ih⟩
    intro x hx
    have hab := coordLe_fst h.1
    rw [List.map_cons, List.mem_cons] at hx
    rcases hx with rfl | hx
    · exact hab
    · rw [List.map_cons, List.pairwise_cons] at ih
      exact Rat.le_trans hab (ih.1 x hx)

theorem mem_locs {cs : List Coord} {s : Rat} {lo hi : Option Rat} {i : Nat} :
    i ∈ locs cs s lo hi ↔ ∃ x, cs[i]? = some x ∧ x.1 = s ∧ inside lo hi x.2 = true := by
  unfold locs
  rw [List.mem_filter, List.mem_range]
  constructor
  · rintro ⟨hi, h⟩
    rw [List.getElem?_eq_getElem hi] at h ⊢
    simp at h
    exact ⟨_, rfl, h⟩
  · rintro ⟨x, hx, h1, h2⟩
    obtain ⟨hi, -⟩ := List.getElem?_eq_some_iff.1 hx
    refine ⟨hi, ?_⟩
    rw [hx]; simp [h1, h2]

/-- The positions kept, statistic by statistic, are the kept positions in the original order. -/
theorem locs_concat {cs : List Coord} (hl : lexsorted cs = true) (lo hi : Rat → Option Rat) :
    ((uniq (cs.map (·.1))).map fun s => locs cs s (lo s) (hi s)).flatten =
      (List.range cs.length).filter fun i => match cs[i]? with
        | some x => inside (lo x.1) (hi x.1) x.2
        | none => false := by
  have hs := lexsorted_fst hl
  apply eq_of_pairwise_lt
  · rw [← List.flatMap_def, List.pairwise_flatMap]
    constructor
    · intro s _
      exact List.Pairwise.filter _ List.pairwise_lt_range
    · refine (uniq_pairwise hs).imp ?_
      intro s t hst i hi j hj
      obtain ⟨x, hx, hx1, -⟩ := mem_locs.1 hi
      obtain ⟨y, hy, hy1, -⟩ := mem_locs.1 hj
      subst hx1 hy1
      obtain ⟨hil, rfl⟩ := List.getElem?_eq_some_iff.1 hx
      obtain ⟨hjl, rfl⟩ := List.getElem?_eq_some_iff.1 hy
      rcases Nat.lt_trichotomy i j with h | h | h
      · exact h
      · subst h; exact absurd hst (by grind)
      · exfalso
        have := List.pairwise_iff_getElem.1 hs j i (by simpa using hjl) (by simpa using hil) h
        simp at this
        grind
  · exact List.Pairwise.filter _ List.pairwise_lt_range
  · intro i
    rw [← List.flatMap_def, List.mem_flatMap, List.mem_filter, List.mem_range]
    constructor
    · rintro ⟨s, -, hi⟩
      obtain ⟨x, hx, rfl, h⟩ := mem_locs.1 hi
      obtain ⟨hil, -⟩ := List.getElem?_eq_some_iff.1 hx
      exact ⟨hil, by rw [hx]; exact h⟩
    · rintro ⟨hi, h⟩
      rw [List.getElem?_eq_getElem hi] at h
      refine ⟨cs[i].1, ?_, ?_⟩
      · rw [mem_uniq]; exact List.mem_map.2 ⟨_, List.getElem_mem hi, rfl⟩
      · exact mem_locs.2 ⟨cs[i], List.getElem?_eq_getElem hi, rfl, h⟩

theorem take_elem {c : Cov} (h : c.WF) (i1 : List Nat) (h1 : ∀ i ∈ i1, i < c.N) (c1 c2 : List Coord) {a b : Nat}
    (ha : a < i1.length) (hb : b < i1.length) :
    let c' := construct i1.length (fun a b => c.values (i1.getD a 0) (i1.getD b 0)) c1 c2
    elem c'.N c'.data a b = elem c.N c.data (i1[a] : Nat) (i1[b] : Nat) := by
  have h2a : i1[a] < c.N := h1 _ (List.getElem_mem ha)
  have h2b : i1[b] < c.N := h1 _ (List.getElem_mem hb)
  simp only [construct]
  rw [elem_pack_nat _ ha hb, (elem_values h h2a h2b).1]
  simp only [List.getD_eq_getElem?_getD, List.getElem?_eq_getElem ha, List.getElem?_eq_getElem hb, Option.getD_some]
  congr 1
  split
  · rfl
  · exact (elem_values h h2b h2a).2

end Verif.Cov
