/-
C132: selection by label, blocks and correlation matrices.
-/
import Verif.Lemmas.Labels
import Verif.Props.Cov
import Mathlib.Analysis.Real.Sqrt
import Mathlib.Tactic.Positivity

namespace Verif.Labels

open Verif.Cov

/-- C132: the nearest label is found, the larger one of two, exactly if the different labels are in increasing or decreasing order. -/
theorem C132_nearest (labels : List Rat) (hne : labels ≠ []) (v : Rat) :
    (Spec.Ordered (uniq labels) → ∃ i, nearestIdx (uniq labels) v = .ok i ∧ i < (uniq labels).length ∧ Spec.Nearest labels v ((uniq labels).getD i 0)) ∧
    (¬ Spec.Ordered (uniq labels) → nearestIdx (uniq labels) v = .error .valueError) := by
  have hu : uniq labels ≠ [] := by
    obtain ⟨x, hx⟩ := List.exists_mem_of_ne_nil _ hne
    intro h
    have := mem_uniq.2 hx
    rw [h] at this
    cases this
  have trans : ∀ x, Spec.Nearest (uniq labels) v x → Spec.Nearest labels v x := fun x hx =>
    ⟨mem_uniq.1 hx.1, fun y hy => hx.2 y (mem_uniq.2 hy)⟩
  constructor
  · intro ho
    unfold nearestIdx
    rw [if_neg hu]
    by_cases hi : inc (uniq labels) = true
    · rw [if_pos hi]
      obtain ⟨h1, h2⟩ := pick_inc (uniq labels) hu ((inc_iff _).1 hi) v
      exact ⟨_, rfl, h1, trans _ h2⟩
    · rw [if_neg hi]
      have hd : (uniq labels).Pairwise (· > ·) := by
        rcases ho with h | h
        · exact absurd ((inc_iff _).2 h) hi
        · exact h
      rw [if_pos ((dec_iff _).2 hd)]
      have h2 : 2 ≤ (uniq labels).length := by
        by_contra h
        apply hi
        match hm : uniq labels, h with
        | [], _ => rfl
        | [_], _ => rfl
        | _ :: _ :: _, h => simp at h
      obtain ⟨h1, h2⟩ := pick_dec (uniq labels) h2 hd v
      exact ⟨_, rfl, h1, trans _ h2⟩
  · intro ho
    unfold nearestIdx
    rw [if_neg hu, if_neg fun h => ho (Or.inl ((inc_iff _).1 h)), if_neg fun h => ho (Or.inr ((dec_iff _).1 h))]

/-- the labels that are asked for: all, those nearest to some value, or those in a closed interval -/
def Asked (labels : List Rat) : Option Label → Rat → Prop
  | none, _ => True
  | some (.near vs), x => ∃ v ∈ vs, Spec.Nearest labels v x
  | some (.slice lo hi), x => (∀ l, lo = some l → l ≤ x) ∧ ∀ h, hi = some h → x ≤ h

/-- values can be looked up -/
def Usable (labels : List Rat) (q : Option Label) : Prop := ∀ vs, q = some (.near vs) → Spec.Ordered (uniq labels)

theorem choose_ok (labels : List Rat) (hne : labels ≠ []) (q : Option Label) (h : Usable labels q) :
    ∃ ch, choose labels q = .ok ch ∧ ∀ x, ch.has x = true ↔ Asked labels q x := by
  match q, h with
  | none, _ => exact ⟨.all, rfl, fun x => by simp [Chosen.has, Asked]⟩
  | some (.slice lo hi), _ =>
    refine ⟨.slice lo hi, rfl, fun x => ?_⟩
    show inside lo hi x = true ↔ _
    unfold inside Asked
    cases lo <;> cases hi <;> simp
  | some (.near vs), h =>
    have ho := h vs rfl
    have hf : ∀ v, ∃ x, (match nearestIdx (uniq labels) v with | .error e => .error e | .ok i => .ok ((uniq labels).getD i 0) : Except Err Rat) = .ok x ∧ Spec.Nearest labels v x := by
      intro v
      obtain ⟨i, h1, _, h3⟩ := (C132_nearest labels hne v).1 ho
      exact ⟨_, by rw [h1], h3⟩
    obtain ⟨g, hg⟩ : ∃ g : Rat → Rat, ∀ v, (match nearestIdx (uniq labels) v with | .error e => .error e | .ok i => .ok ((uniq labels).getD i 0) : Except Err Rat) = .ok (g v) ∧
        Spec.Nearest labels v (g v) := ⟨fun v => (hf v).choose, fun v => (hf v).choose_spec⟩
    refine ⟨.these (vs.map g), ?_, fun x => ?_⟩
    · show (match getNearest labels vs with | .error e => .error e | .ok ls => .ok (.these ls) : Except Err Chosen) = _
      have : getNearest labels vs = .ok (vs.map g) := mapM_ok fun v _ => (hg v).1
      rw [this]
    · show (vs.map g).contains x = true ↔ ∃ v ∈ vs, Spec.Nearest labels v x
      rw [List.contains_iff_mem, List.mem_map]
      constructor
      · rintro ⟨v, hv, rfl⟩
        exact ⟨v, hv, (hg v).2⟩
      · rintro ⟨v, hv, hx⟩
        exact ⟨v, hv, nearest_unique labels v _ _ (hg v).2 hx⟩

/-- the rows of an axis that are asked for -/
def Row (cs : List Coord) (s k : Option Label) (i : Nat) : Prop :=
  ∃ h : i < cs.length, Asked (cs.map (·.1)) s cs[i].1 ∧ Asked (cs.map (·.2)) k cs[i].2

theorem locate_ok (cs : List Coord) (hne : cs ≠ []) (hlex : lexsorted cs = true) (s k : Option Label) (hs : Usable (cs.map (·.1)) s) (hk : Usable (cs.map (·.2)) k) :
    ∃ L : List Nat, locate cs s k = .ok L ∧ L.Pairwise (· < ·) ∧ ∀ i, i ∈ L ↔ Row cs s k i := by
  obtain ⟨a, ha, ha'⟩ := choose_ok (cs.map (·.1)) (by simpa using hne) s hs
  obtain ⟨b, hb, hb'⟩ := choose_ok (cs.map (·.2)) (by simpa using hne) k hk
  refine ⟨(List.range cs.length).filter fun i => a.has (cs.getD i (0, 0)).1 && b.has (cs.getD i (0, 0)).2, by unfold locate; rw [ha, hb]; simp only [hlex, if_true], List.Pairwise.filter _ List.pairwise_lt_range, fun i => ?_⟩
  rw [List.mem_filter, List.mem_range, Bool.and_eq_true]
  constructor
  · rintro ⟨h1, h2, h3⟩
    rw [List.getD_eq_getElem?_getD, List.getElem?_eq_getElem h1] at h2 h3
    exact ⟨h1, (ha' _).1 h2, (hb' _).1 h3⟩
  · rintro ⟨h1, h2, h3⟩
    rw [List.getD_eq_getElem?_getD, List.getElem?_eq_getElem h1]
    exact ⟨h1, (ha' _).2 h2, (hb' _).2 h3⟩

theorem sortedSet_self (l : List Nat) (h : l.Pairwise (· < ·)) : sortedSet (l.map Int.ofNat) = l.map Int.ofNat := by
  induction l with
  | nil => rfl
  | cons a l ih =>
    rw [List.pairwise_cons] at h
    show insertSorted (Int.ofNat a) (sortedSet (l.map Int.ofNat)) = _
    rw [ih h.2]
    cases l with
    | nil => rfl
    | cons b l =>
      rw [List.map_cons, insertSorted, if_pos]
      · rfl
      · exact Int.ofNat_lt.2 (h.1 b (by simp))

theorem axis_sorted (n : Nat) (l : List Nat) (h : l.Pairwise (· < ·)) (hne : l ≠ []) (hl : ∀ i ∈ l, i < n) :
    axisKey [l.map Int.ofNat] = .ok (l.map Int.ofNat) ∧ takeIdx n (l.map Int.ofNat) = .ok l := by
  constructor
  · unfold axisKey
    have : (List.filter (fun x => ([] : List (List Int)).all fun l => l.contains x) (l.map Int.ofNat)) = l.map Int.ofNat := by
      apply List.filter_eq_self.2; intros; rfl
    simp only [this]
    rw [if_neg (by simp), sortedSet_self l h]
  · unfold takeIdx
    rw [if_neg (by simpa using hne), mapM_ok (g := Int.toNat)]
    · rw [List.map_map]
      congr 1
      conv => rhs; rw [← List.map_id l]
      exact List.map_congr_left fun x _ => by simp
    · intro x hx
      obtain ⟨y, hy, rfl⟩ := List.mem_map.1 hx
      have := hl y hy
      simp only [Int.ofNat_eq_natCast]
      rw [if_pos (by omega), if_neg (by omega)]

theorem isel_sorted (c : Cov) (I J : List Nat) (hI : I.Pairwise (· < ·)) (hJ : J.Pairwise (· < ·)) (hI0 : I ≠ []) (hJ0 : J ≠ []) (hIl : ∀ i ∈ I, i < c.N) (hJl : ∀ i ∈ J, i < c.N) :
    c.isel (some [I.map Int.ofNat]) (some [J.map Int.ofNat]) =
      if I.length = J.length then .ok (.cov (construct I.length (fun a b => c.values (I.getD a 0) (J.getD b 0)) (takeCoords c.coords1 I) (takeCoords c.coords2 J)))
      else .ok (.array I.length J.length fun a b => c.values (I.getD a 0) (J.getD b 0)) := by
  obtain ⟨a1, a2⟩ := axis_sorted c.N I hI hI0 hIl
  obtain ⟨b1, b2⟩ := axis_sorted c.N J hJ hJ0 hJl
  simp only [Cov.isel, a1, a2, b1, b2]

theorem isel_empty (c : Cov) (J : List Nat) :
    c.isel (some [([] : List Nat).map Int.ofNat]) (some [J.map Int.ofNat]) = .error .typeError := by
  have h : axisKey [([] : List Nat).map Int.ofNat] = .ok [] := rfl
  have h2 : takeIdx c.N [] = .error .typeError := by unfold takeIdx; rw [if_pos rfl]
  simp only [Cov.isel, h, h2]

/-- C132: with the same question for both axes, the result is a covariance matrix of exactly the rows asked for, in their order, with their coordinates and elements; it is
an error (`TypeError`) if there are none. -/
theorem C132_select (c : Cov) (hwf : c.WF) (hco : c.coords1 = c.coords2) (hlex : lexsorted c.coords1 = true) (hne : c.coords1 ≠ []) (s k : Option Label)
    (hs : Usable (c.coords1.map (·.1)) s) (hk : Usable (c.coords1.map (·.2)) k) :
    ∃ I : List Nat, I.Pairwise (· < ·) ∧ (∀ i, i ∈ I ↔ Row c.coords1 s k i) ∧
      (I = [] → sel c s k s k = .error .typeError) ∧
      (I ≠ [] → ∃ r, sel c s k s k = .ok (.cov r) ∧ r.WF ∧ r.N = I.length ∧
        (∀ a (h : a < I.length), r.coords1[a]? = c.coords1[I[a]]? ∧ r.coords2[a]? = c.coords2[I[a]]?) ∧
        ∀ a b (ha : a < I.length) (hb : b < I.length), elem r.N r.data a b = elem c.N c.data (I[a] : Nat) (I[b] : Nat)) := by
  obtain ⟨I, h1, h2, h3⟩ := locate_ok c.coords1 hne hlex s k hs hk
  have hlt : ∀ i ∈ I, i < c.N := fun i hi => by
    obtain ⟨h, _⟩ := (h3 i).1 hi
    rw [← hwf.coords1]
    exact h
  have hsel : sel c s k s k = c.isel (some [I.map Int.ofNat]) (some [I.map Int.ofNat]) := by
    unfold sel
    rw [← hco, h1]
  refine ⟨I, h2, h3, fun h0 => ?_, fun h0 => ?_⟩
  · rw [hsel, h0]
    exact isel_empty c []
  · obtain ⟨I', J', p1, p2, p3, p4, _, p6⟩ := C14_select_partial c hwf I I h0 h0 hlt hlt
    have e1 : I' = I := eq_of_pairwise_lt p1 h2 p3
    have e2 : J' = I := eq_of_pairwise_lt p2 h2 p4
    subst e1
    rw [hsel]
    exact p6 e2.symm

/-- C132: different questions for the two axes.  If the numbers of rows and columns differ, the block itself is returned; if they are equal, a covariance object that
has the elements of the block on and above its diagonal and repeats them below it. -/
theorem C132_block_partial (c : Cov) (hwf : c.WF) (hl1 : lexsorted c.coords1 = true) (hl2 : lexsorted c.coords2 = true) (hne : c.N ≠ 0) (s1 k1 s2 k2 : Option Label)
    (hs1 : Usable (c.coords1.map (·.1)) s1) (hk1 : Usable (c.coords1.map (·.2)) k1) (hs2 : Usable (c.coords2.map (·.1)) s2) (hk2 : Usable (c.coords2.map (·.2)) k2)
    (h1 : ∃ i, Row c.coords1 s1 k1 i) (h2 : ∃ i, Row c.coords2 s2 k2 i) :
    ∃ I J : List Nat, I.Pairwise (· < ·) ∧ J.Pairwise (· < ·) ∧ (∀ i, i ∈ I ↔ Row c.coords1 s1 k1 i) ∧ (∀ j, j ∈ J ↔ Row c.coords2 s2 k2 j) ∧
      (I.length ≠ J.length → ∃ m, sel c s1 k1 s2 k2 = .ok (.array I.length J.length m) ∧
        ∀ a b (ha : a < I.length) (hb : b < J.length), elem c.N c.data (I[a] : Nat) (J[b] : Nat) = .ok (m a b)) ∧
      (I.length = J.length → ∃ r, sel c s1 k1 s2 k2 = .ok (.cov r) ∧ r.N = I.length ∧
        (∀ a b (ha : a < I.length) (hb : b < J.length), a ≤ b → elem r.N r.data a b = elem c.N c.data (I[a] : Nat) (J[b] : Nat) ∧ elem r.N r.data b a = elem r.N r.data a b) ∧
        ((∀ a b (ha : a < I.length) (hb : b < J.length), elem r.N r.data a b = elem c.N c.data (I[a] : Nat) (J[b] : Nat)) ↔
          ∀ a b (ha : a < I.length) (hb : b < I.length) (ha' : a < J.length) (hb' : b < J.length),
            elem c.N c.data (I[a] : Nat) (J[b] : Nat) = elem c.N c.data (I[b] : Nat) (J[a] : Nat))) := by
  have ne1 : c.coords1 ≠ [] := fun h => hne (by rw [← hwf.coords1, h]; rfl)
  have ne2 : c.coords2 ≠ [] := fun h => hne (by rw [← hwf.coords2, h]; rfl)
  obtain ⟨I, i1, i2, i3⟩ := locate_ok c.coords1 ne1 hl1 s1 k1 hs1 hk1
  obtain ⟨J, j1, j2, j3⟩ := locate_ok c.coords2 ne2 hl2 s2 k2 hs2 hk2
  have hIl : ∀ i ∈ I, i < c.N := fun i hi => by
    obtain ⟨h, _⟩ := (i3 i).1 hi
    rw [← hwf.coords1]
    exact h
  have hJl : ∀ i ∈ J, i < c.N := fun i hi => by
    obtain ⟨h, _⟩ := (j3 i).1 hi
    rw [← hwf.coords2]
    exact h
  have hI0 : I ≠ [] := by
    obtain ⟨i, hi⟩ := h1
    intro h
    have := (i3 i).2 hi
    rw [h] at this
    cases this
  have hJ0 : J ≠ [] := by
    obtain ⟨i, hi⟩ := h2
    intro h
    have := (j3 i).2 hi
    rw [h] at this
    cases this
  have hsel : sel c s1 k1 s2 k2 = c.isel (some [I.map Int.ofNat]) (some [J.map Int.ofNat]) := by
    unfold sel
    rw [i1, j1]
  rw [isel_sorted c I J i2 j2 hI0 hJ0 hIl hJl] at hsel
  have hval : ∀ a b (ha : a < I.length) (hb : b < J.length), elem c.N c.data (I[a] : Nat) (J[b] : Nat) = .ok (c.values (I.getD a 0) (J.getD b 0)) := by
    intro a b ha hb
    rw [(elem_values hwf (hIl _ (List.getElem_mem ha)) (hJl _ (List.getElem_mem hb))).1]
    simp [List.getD_eq_getElem?_getD, List.getElem?_eq_getElem ha, List.getElem?_eq_getElem hb]
  refine ⟨I, J, i2, j2, i3, j3, fun hlen => ?_, fun hlen => ?_⟩
  · rw [if_neg hlen] at hsel
    exact ⟨_, hsel, hval⟩
  · rw [if_pos hlen] at hsel
    refine ⟨_, hsel, rfl, ?_, ?_⟩
    · intro a b ha hb hab
      rw [hval a b ha hb]
      simp only [construct]
      rw [elem_pack_nat _ ha (hlen ▸ hb), elem_pack_nat _ (hlen ▸ hb) ha, if_pos hab]
      refine ⟨rfl, ?_⟩
      split_ifs with h
      · have : a = b := by omega
        rw [this]
      · rfl
    · simp only [construct]
      constructor
      · intro h a b ha hb ha' hb'
        have e1 := h a b ha hb'
        have e2 := h b a hb ha'
        rw [← e1, ← e2, elem_pack_nat _ ha hb, elem_pack_nat _ hb ha]
        congr 1
        split_ifs with g1 g2 g2
        · have : a = b := by omega
          rw [this]
        · rfl
        · rfl
        · omega
      · intro h a b ha hb
        have hb1 : b < I.length := hlen ▸ hb
        have ha1 : a < J.length := hlen ▸ ha
        rw [elem_pack_nat _ ha hb1]
        split_ifs with g
        · exact (hval a b ha hb).symm
        · rw [h a b ha hb1 ha1 hb]
          exact (hval b a hb1 ha1).symm

/-- C132: if the coordinates are not in lexicographic order (multipoles in the order 2, 0, say), nothing can be selected by label, and it is a `ValueError`. -/
theorem C132_order_counterexample (c : Cov) (hwf : c.WF) (hne : c.N ≠ 0) (hlex : lexsorted c.coords1 = false) (s1 k1 s2 k2 : Option Label) :
    sel c s1 k1 s2 k2 = .error .valueError := by
  have hl : c.coords1 ≠ [] := fun h => hne (by rw [← hwf.coords1, h]; rfl)
  have hc : ∀ labels : List Rat, labels ≠ [] → ∀ q, (∃ ch, choose labels q = .ok ch) ∨ choose labels q = .error .valueError := by
    intro labels hlab q
    by_cases hu : Usable labels q
    · obtain ⟨ch, h, _⟩ := choose_ok labels hlab q hu
      exact Or.inl ⟨ch, h⟩
    · unfold Usable at hu
      push Not at hu
      obtain ⟨vs, rfl, ho⟩ := hu
      have hv : ∀ v, nearestIdx (uniq labels) v = .error .valueError := fun v => (C132_nearest labels hlab v).2 ho
      cases vs with
      | nil => exact Or.inl ⟨.these [], rfl⟩
      | cons v vs =>
        right
        show (match getNearest labels (v :: vs) with | .error e => .error e | .ok ls => .ok (.these ls) : Except Err Chosen) = _
        have : getNearest labels (v :: vs) = .error .valueError := by
          unfold getNearest
          rw [List.mapM_cons, hv v]
          rfl
        rw [this]
  have h1 : locate c.coords1 s1 k1 = .error .valueError := by
    unfold locate
    rcases hc (c.coords1.map (·.1)) (by simpa using hl) s1 with ⟨x, hx⟩ | hx <;> rcases hc (c.coords1.map (·.2)) (by simpa using hl) k1 with ⟨y, hy⟩ | hy
    · rw [hx, hy]
      simp only [hlex]
      rfl
    · rw [hx, hy]
    · rw [hx, hy]
    · rw [hx, hy]
  unfold sel
  rw [h1]

theorem nearest_self (labels : List Rat) (a : Rat) (ha : a ∈ labels) (x : Rat) : Spec.Nearest labels a x ↔ x = a := by
  have h : Spec.Nearest labels a a := by
    refine ⟨ha, fun y _ => ?_⟩
    rw [sub_self, abs_zero]
    rcases eq_or_lt_of_le (abs_nonneg (y - a)) with h | h
    · right
      have : y - a = 0 := abs_eq_zero.1 h.symm
      exact ⟨h, by linarith⟩
    · exact Or.inl h
  exact ⟨fun hx => nearest_unique labels a x a hx h, fun hx => hx ▸ h⟩

/-- the rows asked for by one of the labels of the matrix are those that have it -/
theorem C132_label_rows (cs : List Coord) (a : Rat) (ha : a ∈ cs.map (·.1)) (i : Nat) :
    Row cs (some (.near [a])) none i ↔ ∃ h : i < cs.length, cs[i].1 = a := by
  unfold Row Asked
  constructor
  · rintro ⟨h, ⟨v, hv, hn⟩, _⟩
    rw [List.mem_singleton] at hv
    subst hv
    exact ⟨h, (nearest_self _ _ ha _).1 hn⟩
  · rintro ⟨h, hn⟩
    exact ⟨h, ⟨a, by simp, (nearest_self _ _ ha _).2 hn⟩, trivial⟩

theorem product_zipIdx {α β γ : Type} (f : α → β → γ) (e2 : List β) : ∀ (e1 : List α) (k : Nat),
    (e1.flatMap fun a => e2.map (f a)).zipIdx (k * e2.length) =
      (e1.zipIdx k).flatMap fun p => e2.zipIdx.map fun q => (f p.1 q.1, p.2 * e2.length + q.2) := by
  intro e1
  induction e1 with
  | nil => intro k; rfl
  | cons a e1 ih =>
    intro k
    rw [List.flatMap_cons, List.zipIdx_append, List.zipIdx_cons, List.flatMap_cons]
    congr 1
    · apply List.ext_getElem
      · simp
      · intro n h1 h2
        simp
    · rw [List.length_map]
      have := ih (k + 1)
      rw [Nat.add_mul, Nat.one_mul] at this
      exact this

theorem zipIdx_fst {α β : Type} (f : α → List β) : ∀ (l : List α) (k : Nat), ((l.zipIdx k).flatMap fun p => f p.1) = l.flatMap f := by
  intro l
  induction l with
  | nil => intro k; rfl
  | cons a l ih => intro k; rw [List.zipIdx_cons, List.flatMap_cons, List.flatMap_cons, ih]

theorem flatMap_congr' {α β : Type} {f g : α → List β} : ∀ {l : List α}, (∀ x ∈ l, f x = g x) → l.flatMap f = l.flatMap g := by
  intro l
  induction l with
  | nil => intro _; rfl
  | cons a l ih =>
    intro h
    rw [List.flatMap_cons, List.flatMap_cons, h a (by simp), ih fun x hx => h x (by simp [hx])]

/-- C132: enumerating gives every pair of the labels in increasing order, the first slowest, with the block that is selected by the pair; of the upper blocks, those pairs
`(a, b)` with `a ≤ b`. -/
theorem C132_enumerate (c : Cov) (hwf : c.WF) (hco : c.coords1 = c.coords2) (hlex : lexsorted c.coords1 = true) (hne : c.N ≠ 0) (upper : Bool) :
    ∃ (E : List Rat) (B : Rat → Rat → Selected), E.Pairwise (· < ·) ∧ (∀ a, a ∈ E ↔ ∃ k, (a, k) ∈ c.coords1) ∧
      (∀ a ∈ E, ∀ b ∈ E, sel c (some (.near [a])) none (some (.near [b])) none = .ok (B a b)) ∧
      enumerate c upper = .ok (E.flatMap fun a => (E.filter fun b => !upper || decide (a ≤ b)).map fun b => (a, b, B a b)) := by
  have hl : c.coords1 ≠ [] := fun h => hne (by rw [← hwf.coords1, h]; rfl)
  obtain ⟨E, hE⟩ : ∃ E, E = uniq (c.coords1.map (·.1)) := ⟨_, rfl⟩
  have hsort : E.Pairwise (· < ·) := by rw [hE]; exact uniq_pairwise (lexsorted_fst hlex)
  have hmem : ∀ a, a ∈ E ↔ a ∈ c.coords1.map (·.1) := fun a => by rw [hE]; exact mem_uniq
  have hus : ∀ a, Usable (c.coords1.map (·.1)) (some (.near [a])) := fun a vs _ => Or.inl (hE ▸ hsort)
  have hus0 : Usable (c.coords1.map (·.2)) none := fun vs h => by cases h
  have hex : ∀ a b, ∃ r, a ∈ E → b ∈ E → sel c (some (.near [a])) none (some (.near [b])) none = .ok r := by
    intro a b
    by_cases hab : a ∈ E ∧ b ∈ E
    · have hrow : ∀ a ∈ E, ∃ i, Row c.coords1 (some (.near [a])) none i := by
        intro a ha
        obtain ⟨i, hi, h⟩ := List.getElem_of_mem ((hmem a).1 ha)
        rw [List.getElem_map] at h
        exact ⟨i, (C132_label_rows c.coords1 a ((hmem a).1 ha) i).2 ⟨by simpa using hi, h⟩⟩
      obtain ⟨I, J, _, _, _, _, h1, h2⟩ := C132_block_partial c hwf hlex (hco ▸ hlex) hne (some (.near [a])) none (some (.near [b])) none (hus a) hus0 (hco ▸ hus b) (hco ▸ hus0)
        (hrow a hab.1) (hco ▸ hrow b hab.2)
      by_cases hlen : I.length = J.length
      · obtain ⟨r, hr, _⟩ := h2 hlen
        exact ⟨_, fun _ _ => hr⟩
      · obtain ⟨r, hr, _⟩ := h1 hlen
        exact ⟨_, fun _ _ => hr⟩
    · exact ⟨.array 0 0 fun _ _ => 0, fun ha hb => absurd ⟨ha, hb⟩ hab⟩
  obtain ⟨B, hB⟩ : ∃ B : Rat → Rat → Selected, ∀ a b, a ∈ E → b ∈ E → sel c (some (.near [a])) none (some (.near [b])) none = .ok (B a b) :=
    ⟨fun a b => (hex a b).choose, fun a b => (hex a b).choose_spec⟩
  refine ⟨E, B, hsort, fun a => ?_, fun a ha b hb => hB a b ha hb, ?_⟩
  · rw [hmem, List.mem_map]
    exact ⟨fun ⟨x, hx, h⟩ => ⟨x.2, h ▸ hx⟩, fun ⟨k, h⟩ => ⟨_, h, rfl⟩⟩
  · have hbl : blocks c = .ok (E.flatMap fun a => E.map fun b => B a b) := by
      unfold blocks
      rw [← hco, ← hE, mapM_ok (g := fun p => B p.1 p.2)]
      · rw [List.map_flatMap]
        simp only [List.map_map]
        rfl
      · intro p hp
        simp only [List.mem_flatMap, List.mem_map] at hp
        obtain ⟨a, ha, b, hb, rfl⟩ := hp
        exact hB a b ha hb
    unfold enumerate
    rw [hbl]
    dsimp only
    rw [← hco, ← hE]
    congr 1
    have hz := product_zipIdx (fun a b => B a b) E E 0
    rw [Nat.zero_mul] at hz
    rw [hz, List.filter_flatMap, List.map_flatMap]
    rw [← zipIdx_fst (fun a => (E.filter fun b => !upper || decide (a ≤ b)).map fun b => (a, b, B a b)) E 0]
    apply flatMap_congr'
    rintro ⟨a, i⟩ hp
    have hi : E[i]? = some a := List.mem_zipIdx_iff_getElem?.1 hp
    have hiE : i < E.length := (List.getElem?_eq_some_iff.1 hi).1
    rw [List.filter_map, List.map_map]
    have hE2 : (E.filter fun b => !upper || decide (a ≤ b)) = ((E.zipIdx.filter fun q => !upper || decide (a ≤ q.1)).map (·.1)) := by
      have h := List.filter_map (f := Prod.fst) (p := fun b => !upper || decide (a ≤ b)) (l := E.zipIdx)
      rw [List.zipIdx_map_fst] at h
      exact h
    dsimp only
    rw [hE2, List.map_map]
    have hlt : ∀ q ∈ E.zipIdx, (i * E.length + q.2) / E.length = i ∧ (i * E.length + q.2) % E.length = q.2 ∧ E[q.2]? = some q.1 := by
      rintro ⟨b, j⟩ hq
      have hj : E[j]? = some b := List.mem_zipIdx_iff_getElem?.1 hq
      have hjE : j < E.length := (List.getElem?_eq_some_iff.1 hj).1
      refine ⟨?_, ?_, hj⟩
      · rw [Nat.mul_comm, Nat.mul_add_div (by omega), Nat.div_eq_of_lt hjE]
        rfl
      · rw [Nat.mul_comm, Nat.mul_add_mod, Nat.mod_eq_of_lt hjE]
    have hcmp : ∀ q ∈ E.zipIdx, decide (i > q.2) = !decide (a ≤ q.1) := by
      intro q hq
      obtain ⟨_, _, h3⟩ := hlt q hq
      have hqE : q.2 < E.length := (List.getElem?_eq_some_iff.1 h3).1
      have ea : E.getD i 0 = a := by rw [List.getD_eq_getElem?_getD, hi]; rfl
      have eb : E.getD q.2 0 = q.1 := by rw [List.getD_eq_getElem?_getD, h3]; rfl
      by_cases hc : i ≤ q.2
      · have := inc_le E hsort i q.2 hc hqE
        rw [ea, eb] at this
        simp [hc, this]
      · have h1 := List.pairwise_iff_getElem.1 hsort q.2 i hqE hiE (by omega)
        have ea' : E[i] = a := (List.getElem?_eq_some_iff.1 hi).2
        have eb' : E[q.2] = q.1 := (List.getElem?_eq_some_iff.1 h3).2
        rw [ea', eb'] at h1
        rw [decide_eq_true (by omega), decide_eq_false (not_le.2 h1)]
        rfl
    have hfil : (E.zipIdx.filter ((fun b : Selected × Nat => !(upper && decide (b.2 / E.length > b.2 % E.length))) ∘ fun q => (B a q.1, i * E.length + q.2))) =
        E.zipIdx.filter fun q => !upper || decide (a ≤ q.1) := by
      apply List.filter_congr
      intro q hq
      obtain ⟨h1, h2, _⟩ := hlt q hq
      simp only [Function.comp, h1, h2, hcmp q hq]
      cases upper <;> simp
    rw [hfil]
    apply List.map_congr_left
    intro q hq
    obtain ⟨h1, h2, h3⟩ := hlt q (List.mem_filter.1 hq).1
    simp only [Function.comp, h1, h2, List.getD_eq_getElem?_getD, hi, h3, Option.getD_some]

end Verif.Labels
