import Verif.Model.Lru
import Verif.Spec.Lru
set_option linter.unusedSectionVars false
set_option linter.unusedSimpArgs false
namespace Verif.Lru
variable {K V : Type} [DecidableEq K]

theorem nem {α : Type} {x y : α} {l : List α} (hx : x ∈ l) (hy : y ∉ l) : x ≠ y := fun e => hy (e ▸ hx)

/-! ### heap segments -/

def Seg (h : Nat → Link K V) : Nat → List Nat → Nat → Prop
  | a, [], b => (h a).next = b ∧ (h b).prev = a
  | a, x :: xs, b => (h a).next = x ∧ (h x).prev = a ∧ Seg h x xs b

def lastOf : Nat → List Nat → Nat
  | a, [] => a
  | _, x :: xs => lastOf x xs

theorem lastOf_mem : ∀ (xs : List Nat) (a : Nat), lastOf a xs ∈ a :: xs := by
  intro xs
  induction xs with
  | nil => intro a; simp [lastOf]
  | cons x xs ih => intro a; simp only [lastOf]; exact List.mem_cons_of_mem _ (ih x)

theorem seg_prev {h : Nat → Link K V} : ∀ {xs : List Nat} {a b : Nat}, Seg h a xs b → (h b).prev = lastOf a xs := by
  intro xs
  induction xs with
  | nil => intro a b h; exact h.2
  | cons x xs ih => intro a b h; exact ih h.2.2

theorem seg_append {h : Nat → Link K V} : ∀ {xs : List Nat} {a c b : Nat} {ys : List Nat},
    Seg h a (xs ++ c :: ys) b ↔ Seg h a xs c ∧ Seg h c ys b := by
  intro xs
  induction xs with
  | nil => intro a c b ys; simp [Seg, and_assoc]
  | cons x xs ih => intro a c b ys; simp [Seg, ih, and_assoc]

theorem seg_retarget {h h' : Nat → Link K V} : ∀ {xs : List Nat} {a b c : Nat}, Seg h a xs b → (a :: xs).Nodup →
    (∀ x ∈ a :: xs, x ≠ lastOf a xs → (h' x).next = (h x).next) → (∀ x ∈ xs, (h' x).prev = (h x).prev) →
    (h' (lastOf a xs)).next = c → (h' c).prev = lastOf a xs → Seg h' a xs c := by
  intro xs
  induction xs with
  | nil => intro a b c _ _ _ _ h1 h2; exact ⟨h1, h2⟩
  | cons x xs ih =>
    intro a b c hs hn hnext hprev h1 h2
    obtain ⟨e1, e2, e3⟩ := hs
    rw [List.nodup_cons] at hn
    have hne : a ≠ lastOf x xs := fun e => hn.1 (e ▸ lastOf_mem xs x)
    refine ⟨?_, ?_, ih e3 hn.2 (fun y hy hyl => hnext y (List.mem_cons_of_mem _ hy) hyl)
      (fun y hy => hprev y (List.mem_cons_of_mem _ hy)) h1 h2⟩
    · rw [hnext a (by simp) hne]; exact e1
    · rw [hprev x (by simp)]; exact e2

theorem seg_frame {h h' : Nat → Link K V} {xs : List Nat} {a b : Nat} (hs : Seg h a xs b) (hn : (a :: xs).Nodup)
    (hnext : ∀ x ∈ a :: xs, (h' x).next = (h x).next) (hprev : ∀ x ∈ xs, (h' x).prev = (h x).prev)
    (hb : (h' b).prev = (h b).prev) : Seg h' a xs b := by
  have hl : ∀ {xs : List Nat} {a b : Nat}, Seg h a xs b → (h (lastOf a xs)).next = b := by
    intro xs
    induction xs with
    | nil => intro a b h; exact h.1
    | cons x xs ih => intro a b h; exact ih h.2.2
  refine seg_retarget hs hn (fun x hx _ => hnext x hx) hprev ?_ ?_
  · rw [hnext _ (lastOf_mem xs a)]; exact hl hs
  · rw [hb]; exact seg_prev hs

@[simp] theorem setNext_next (h : Nat → Link K V) (a b x : Nat) : (setNext h a b x).next = if x = a then b else (h x).next := by
  unfold setNext; split <;> rfl
@[simp] theorem setNext_prev (h : Nat → Link K V) (a b x : Nat) : (setNext h a b x).prev = (h x).prev := by
  unfold setNext; split <;> rfl
@[simp] theorem setNext_key (h : Nat → Link K V) (a b x : Nat) : (setNext h a b x).key = (h x).key := by
  unfold setNext; split <;> rfl
@[simp] theorem setNext_result (h : Nat → Link K V) (a b x : Nat) : (setNext h a b x).result = (h x).result := by
  unfold setNext; split <;> rfl
@[simp] theorem setPrev_next (h : Nat → Link K V) (a b x : Nat) : (setPrev h a b x).next = (h x).next := by
  unfold setPrev; split <;> rfl
@[simp] theorem setPrev_prev (h : Nat → Link K V) (a b x : Nat) : (setPrev h a b x).prev = if x = a then b else (h x).prev := by
  unfold setPrev; split <;> rfl
@[simp] theorem setPrev_key (h : Nat → Link K V) (a b x : Nat) : (setPrev h a b x).key = (h x).key := by
  unfold setPrev; split <;> rfl
@[simp] theorem setPrev_result (h : Nat → Link K V) (a b x : Nat) : (setPrev h a b x).result = (h x).result := by
  unfold setPrev; split <;> rfl
@[simp] theorem setKV_next (h : Nat → Link K V) (a x : Nat) (k v) : (setKV h a k v x).next = (h x).next := by
  unfold setKV; split <;> rfl
@[simp] theorem setKV_prev (h : Nat → Link K V) (a x : Nat) (k v) : (setKV h a k v x).prev = (h x).prev := by
  unfold setKV; split <;> rfl
@[simp] theorem setKV_key (h : Nat → Link K V) (a x : Nat) (k v) : (setKV h a k v x).key = if x = a then k else (h x).key := by
  unfold setKV; split <;> rfl
@[simp] theorem setKV_result (h : Nat → Link K V) (a x : Nat) (k v) :
    (setKV h a k v x).result = if x = a then v else (h x).result := by
  unfold setKV; split <;> rfl

/-! ### representation invariant -/

abbrev Cell (K V : Type) := Nat × K × V

structure Rep (m : Mem K V) (t : List (Cell K V)) : Prop where
  seg : Seg m.heap m.root (t.map (·.1)) m.root
  nodup : (m.root :: t.map (·.1)).Nodup
  lt : ∀ a ∈ m.root :: t.map (·.1), a < m.fresh
  cells : ∀ e ∈ t, (m.heap e.1).key = some e.2.1 ∧ (m.heap e.1).result = some e.2.2
  dict : m.cache.Perm (t.map (fun e => (e.2.1, e.1)))
  keys : (t.map (·.2.1)).Nodup

theorem rep_init : Rep (Mem.init : Mem K V) [] where
  seg := ⟨rfl, rfl⟩
  nodup := by simp
  lt := by simp [Mem.init]
  cells := by simp
  dict := List.Perm.nil
  keys := by simp

theorem mem_of_lookup {β : Type} : ∀ {d : List (K × β)} {k : K} {b : β}, d.lookup k = some b → (k, b) ∈ d := by
  intro d
  induction d with
  | nil => intro k b h; simp at h
  | cons e d ih =>
    intro k b h
    obtain ⟨k', b'⟩ := e
    rw [List.lookup_cons] at h
    split at h
    · rename_i hk; have : k = k' := by simpa using hk
      subst this; cases h; simp
    · simp [ih h]

theorem lookup_none {β : Type} : ∀ {d : List (K × β)} {k : K}, d.lookup k = none ↔ ∀ b, (k, b) ∉ d := by
  intro d
  induction d with
  | nil => intro k; simp
  | cons e d ih =>
    intro k
    obtain ⟨k', b'⟩ := e
    rw [List.lookup_cons]
    by_cases hk : k = k'
    · subst hk; simp only [beq_self_eq_true, reduceCtorEq, false_iff]; exact fun h => h b' (by simp)
    · have : (k == k') = false := by simpa using hk
      rw [this]
      simp [ih, hk]

theorem lookup_of_mem {β : Type} : ∀ {d : List (K × β)} {k : K} {b : β}, (d.map Prod.fst).Nodup → (k, b) ∈ d →
    d.lookup k = some b := by
  intro d
  induction d with
  | nil => intro k b _ h; simp at h
  | cons e d ih =>
    intro k b hn h
    obtain ⟨k', b'⟩ := e
    rw [List.map_cons, List.nodup_cons] at hn
    rw [List.lookup_cons]
    rcases List.mem_cons.1 h with h | h
    · cases h; simp
    · have hk : k ≠ k' := fun e => hn.1 (e ▸ List.mem_map.2 ⟨(k, b), h, rfl⟩)
      have : (k == k') = false := by simpa using hk
      rw [this]
      exact ih hn.2 h

/-- The abstract contents. -/
def contents (t : List (Cell K V)) : List (K × V) := t.map (·.2)

theorem rep_lookup_some {m : Mem K V} {t} (hr : Rep m t) {k a} (h : m.cache.lookup k = some a) :
    ∃ v, (a, k, v) ∈ t := by
  have h1 := mem_of_lookup h
  have h2 := hr.dict.mem_iff.1 h1
  obtain ⟨e, he, heq⟩ := List.mem_map.1 h2
  obtain ⟨a', k', v⟩ := e
  cases heq
  exact ⟨v, he⟩

theorem rep_lookup_none {m : Mem K V} {t} (hr : Rep m t) {k} (h : m.cache.lookup k = none) :
    ∀ e ∈ t, e.2.1 ≠ k := by
  intro e he hk
  refine lookup_none.1 h e.1 (hr.dict.mem_iff.2 (List.mem_map.2 ⟨e, he, ?_⟩))
  rw [hk]

theorem filter_ne_self {β : Type} (g : β → K) (k : K) : ∀ (l : List β), (∀ e ∈ l, g e ≠ k) →
    l.filter (fun e => decide (g e ≠ k)) = l := by
  intro l h
  exact List.filter_eq_self.2 (fun e he => by simpa using h e he)

theorem touch_split {t1 t2 : List (Cell K V)} {a : Nat} {k : K} {v : V}
    (hn : ((t1 ++ (a, k, v) :: t2).map (·.2.1)).Nodup) :
    contents (t1 ++ t2 ++ [(a, k, v)]) = touch (contents (t1 ++ (a, k, v) :: t2)) k v := by
  rw [List.map_append, List.map_cons, List.nodup_append] at hn
  obtain ⟨h1, h2, h3⟩ := hn
  rw [List.nodup_cons] at h2
  have e1 : ∀ e ∈ t1, e.2.1 ≠ k := by
    intro e he hk
    exact h3 k (List.mem_map.2 ⟨e, he, hk⟩) k (by simp) rfl
  have e2 : ∀ e ∈ t2, e.2.1 ≠ k := by
    intro e he hk
    exact h2.1 (List.mem_map.2 ⟨e, he, hk⟩)
  unfold touch contents
  rw [List.map_append, List.map_append, List.map_append, List.map_cons, List.filter_append,
    filter_ne_self Prod.fst k, List.map_cons, List.filter_cons]
  · simp only [ne_eq, not_true_eq_false, decide_false, Bool.false_eq_true, if_false]
    have e2' : ∀ e ∈ t2.map (·.2), e.1 ≠ k := by
      intro e he; obtain ⟨x, hx, rfl⟩ := List.mem_map.1 he; exact e2 x hx
    rw [filter_ne_self Prod.fst k _ e2']
    simp
  · intro e he; obtain ⟨x, hx, rfl⟩ := List.mem_map.1 he; exact e1 x hx

theorem look_rep {m : Mem K V} {t} (hr : Rep m t) (k : K) :
    (m.cache.lookup k = none ∧ look m k = (none, m)) ∨
    ∃ v m' t', look m k = (some (some v), m') ∧ Rep m' t' ∧ (k, v) ∈ contents t ∧
      contents t' = touch (contents t) k v ∧ m'.hits = m.hits + 1 ∧ m'.misses = m.misses := by
  cases hl : m.cache.lookup k with
  | none => left; exact ⟨rfl, by simp [look, hl]⟩
  | some a =>
    right
    obtain ⟨v, hmem⟩ := rep_lookup_some hr hl
    obtain ⟨t1, t2, rfl⟩ := List.append_of_mem hmem
    have hseg := hr.seg
    rw [List.map_append, List.map_cons, seg_append] at hseg
    obtain ⟨s1, s2⟩ := hseg
    simp only at s1 s2
    have hnd := hr.nodup
    rw [List.map_append, List.map_cons] at hnd
    simp only at hnd
    generalize hxs : t1.map (·.1) = xs at *
    generalize hys : t2.map (·.1) = ys at *
    have hp : (m.heap a).prev = lastOf m.root xs := seg_prev s1
    -- distinctness facts
    have hnd' : (m.root :: xs).Nodup ∧ a ∉ m.root :: xs ∧ (a :: ys).Nodup ∧
        (∀ x ∈ m.root :: xs, x ∉ ys) := by
      have : ((m.root :: xs) ++ (a :: ys)).Nodup := by simpa using hnd
      rw [List.nodup_append] at this
      refine ⟨this.1, fun h => this.2.2 a h a (by simp) rfl, this.2.1, fun x hx hy => ?_⟩
      exact this.2.2 x hx x (List.mem_cons_of_mem _ hy) rfl
    obtain ⟨n1, n2, n3, n4⟩ := hnd'
    have hra : m.root ≠ a := fun e => n2 (by simp [e])
    have hla : lastOf m.root xs ≠ a := fun e => n2 (e ▸ lastOf_mem xs m.root)
    have haxs : a ∉ xs := fun h => n2 (List.mem_cons_of_mem _ h)
    have hrxs : m.root ∉ xs := (List.nodup_cons.1 n1).1
    have hays : a ∉ ys := (List.nodup_cons.1 n3).1
    have hkeys := hr.keys
    have hcell := hr.cells (a, k, v) (by simp)
    -- the new memory
    generalize hm' : (look m k).2 = m'
    have hlook : look m k = (some (some v), m') := by
      rw [← hm']
      simp only [look, hl]
      rw [hcell.2]
    have hheap : ∀ x, (m'.heap x).key = (m.heap x).key ∧ (m'.heap x).result = (m.heap x).result := by
      intro x; rw [← hm']; simp [look, hl]
    have hroot : m'.root = m.root := by rw [← hm']; simp [look, hl]
    have hfresh : m'.fresh = m.fresh := by rw [← hm']; simp [look, hl]
    have hcache : m'.cache = m.cache := by rw [← hm']; simp [look, hl]
    have hhits : m'.hits = m.hits + 1 ∧ m'.misses = m.misses := by rw [← hm']; simp [look, hl]
    -- ring
    have hring : Seg m'.heap m'.root (xs ++ ys ++ [a]) m'.root := by
      rw [hroot]
      rw [show xs ++ ys ++ [a] = (xs ++ ys) ++ a :: [] from rfl, seg_append]
      cases ys with
      | nil =>
        obtain ⟨b1, b2⟩ := s2
        have hnx : ∀ x, (m'.heap x).next = if x = a then m.root else if x = lastOf m.root xs then a else
            (m.heap x).next := by
          intro x; rw [← hm']
          simp only [look, hl, setNext_next, setPrev_next, setNext_prev, setPrev_prev, b1, hp, if_true]
          split
          · rfl
          · split <;> rfl
        have hpv : ∀ x, (m'.heap x).prev = if x = a then lastOf m.root xs else if x = m.root then a else
            (m.heap x).prev := by
          intro x; rw [← hm']
          simp only [look, hl, setNext_next, setPrev_next, setNext_prev, setPrev_prev, b1, hp, if_true]
          split
          · rfl
          · split <;> rfl
        refine ⟨?_, ?_, ?_⟩
        · rw [List.append_nil]
          refine seg_retarget s1 n1 ?_ ?_ ?_ ?_
          · intro x hx hxl
            rw [hnx, if_neg (nem hx n2), if_neg hxl]
          · intro x hx
            rw [hpv, if_neg (nem hx haxs), if_neg (nem hx hrxs)]
          · rw [hnx, if_neg hla, if_pos rfl]
          · rw [hpv, if_pos rfl]
        · rw [hnx, if_pos rfl]
        · rw [hpv, if_neg hra, if_pos rfl]
      | cons y ys =>
        obtain ⟨b1, b2, s3⟩ := s2
        have hry : m.root ≠ y := fun e => n4 m.root (by simp) (by simp [e])
        have hly : (m.heap m.root).prev = lastOf y ys := seg_prev s3
        have hlpl : lastOf y ys ≠ lastOf m.root xs := fun e =>
          n4 _ (lastOf_mem xs m.root) (e ▸ lastOf_mem ys y)
        have hlast_a : lastOf y ys ≠ a := fun e => hays (e ▸ lastOf_mem ys y)
        have hya : y ≠ a := fun e => hays (by simp [e])
        have hndy : (y :: ys).Nodup := (List.nodup_cons.1 n3).2
        have hnx : ∀ x, (m'.heap x).next = if x = a then m.root else if x = lastOf y ys then a else
            if x = lastOf m.root xs then y else (m.heap x).next := by
          intro x; rw [← hm']
          simp only [look, hl, setNext_next, setPrev_next, setNext_prev, setPrev_prev, b1, hp, if_neg hry, hly]
        have hpv : ∀ x, (m'.heap x).prev = if x = a then lastOf y ys else if x = m.root then a else
            if x = y then lastOf m.root xs else (m.heap x).prev := by
          intro x; rw [← hm']
          simp only [look, hl, setNext_next, setPrev_next, setNext_prev, setPrev_prev, b1, hp, if_neg hry, hly]
        refine ⟨?_, ?_, ?_⟩
        · rw [seg_append]
          constructor
          · refine seg_retarget s1 n1 ?_ ?_ ?_ ?_
            · intro x hx hxl
              rw [hnx, if_neg (nem hx n2), if_neg (Ne.symm (nem (lastOf_mem ys y) (n4 x hx))), if_neg hxl]
            · intro x hx
              rw [hpv, if_neg (nem hx haxs), if_neg (nem hx hrxs),
                if_neg (Ne.symm (nem (l := y :: ys) (by simp) (n4 x (List.mem_cons_of_mem _ hx))))]
            · rw [hnx, if_neg hla, if_neg (Ne.symm hlpl), if_pos rfl]
            · rw [hpv, if_neg hya, if_neg (Ne.symm hry), if_pos rfl]
          · refine seg_retarget s3 hndy ?_ ?_ ?_ ?_
            · intro x hx hxl
              rw [hnx, if_neg (nem hx hays), if_neg hxl,
                if_neg (nem hx (n4 _ (lastOf_mem xs m.root)))]
            · intro x hx
              rw [hpv, if_neg (nem (List.mem_cons_of_mem _ hx) hays),
                if_neg (nem (List.mem_cons_of_mem _ hx) (n4 m.root (by simp))),
                if_neg (nem hx (List.nodup_cons.1 hndy).1)]
            · rw [hnx, if_neg hlast_a, if_pos rfl]
            · rw [hpv, if_pos rfl]
        · rw [hnx, if_pos rfl]
        · rw [hpv, if_neg hra, if_pos rfl]
    have hperm : (t1 ++ t2 ++ [(a, k, v)]).Perm (t1 ++ (a, k, v) :: t2) := by
      rw [List.append_assoc]
      refine List.Perm.append_left t1 ?_
      exact List.perm_append_comm
    refine ⟨v, m', t1 ++ t2 ++ [(a, k, v)], hlook, ?_, ?_, touch_split hkeys, hhits.1, hhits.2⟩
    · refine ⟨?_, ?_, ?_, ?_, ?_, ?_⟩
      · simp only [List.map_append, List.map_cons, List.map_nil, hxs, hys]; exact hring
      · rw [hroot]
        have : ((m.root :: (t1 ++ t2 ++ [(a, k, v)]).map (·.1))).Perm (m.root :: (t1 ++ (a, k, v) :: t2).map (·.1)) :=
          List.Perm.cons _ (hperm.map _)
        exact this.symm.nodup hr.nodup
      · intro x hx
        rw [hroot] at hx
        rw [hfresh]
        refine hr.lt x ?_
        exact (List.Perm.cons m.root (hperm.map (·.1))).mem_iff.1 hx
      · intro e he
        rw [(hheap _).1, (hheap _).2]
        exact hr.cells e (hperm.mem_iff.1 he)
      · rw [hcache]
        exact hr.dict.trans (hperm.map _).symm
      · exact (hperm.map (·.2.1)).symm.nodup hkeys
    · exact List.mem_map.2 ⟨(a, k, v), by simp, rfl⟩

theorem dictDel_perm {β : Type} {d : List (K × β)} {k : K} {b : β} {r : List (K × β)}
    (h : d.Perm ((k, b) :: r)) (hn : ∀ e ∈ r, e.1 ≠ k) : (dictDel d k).Perm r := by
  have h1 := h.filter (fun e => decide (e.1 ≠ k))
  rw [List.filter_cons] at h1
  simp only [ne_eq, not_true_eq_false, decide_false, Bool.false_eq_true, if_false] at h1
  have h2 := filter_ne_self Prod.fst k r hn
  rw [h2] at h1
  exact h1

theorem store_rep {n : Nat} (hn : 0 < n) {m : Mem K V} {t} (hr : Rep m t) (k : K) (v : V) :
    ∃ m' t', store n m k v = some m' ∧ Rep m' t' ∧ m'.hits = m.hits ∧ m'.misses = m.misses + 1 ∧
      contents t' = (if (contents t).lookup k = none then insertNew n (contents t) k v else contents t) := by
  have hlen : m.cache.length = t.length := by simpa using hr.dict.length_eq
  have hck : m.cache.lookup k = none ↔ (contents t).lookup k = none := by
    rw [lookup_none, lookup_none]
    constructor
    · intro h b hb
      obtain ⟨e, he, heq⟩ := List.mem_map.1 hb
      obtain ⟨a, k', v'⟩ := e
      cases heq
      exact h a (hr.dict.mem_iff.2 (List.mem_map.2 ⟨_, he, rfl⟩))
    · intro h b hb
      obtain ⟨e, he, heq⟩ := List.mem_map.1 (hr.dict.mem_iff.1 hb)
      obtain ⟨a, k', v'⟩ := e
      cases heq
      exact h v' (List.mem_map.2 ⟨_, he, rfl⟩)
  cases hl : m.cache.lookup k with
  | some a =>
    refine ⟨{ m with misses := m.misses + 1 }, t, by simp [store, hl], ⟨hr.seg, hr.nodup, hr.lt, hr.cells, hr.dict, hr.keys⟩,
      rfl, rfl, ?_⟩
    rw [if_neg]
    intro h
    rw [hck.2 h] at hl
    cases hl
  | none =>
    rw [if_pos (hck.1 hl)]
    have hknew : ∀ e ∈ t, e.2.1 ≠ k := rep_lookup_none hr hl
    by_cases hfull : n ≤ m.cache.length
    · cases t with
      | nil => simp only [List.length_nil] at hlen; omega
      | cons e0 t =>
        obtain ⟨a0, k0, v0⟩ := e0
        obtain ⟨s1, s2, s3⟩ := hr.seg
        simp only at s1 s2
        have hnd := hr.nodup
        simp only [List.map_cons] at hnd
        have hra : m.root ≠ a0 := fun e => (List.nodup_cons.1 hnd).1 (by simp [e])
        have hc0 := hr.cells (a0, k0, v0) (by simp)
        simp only at hc0
        have hkeys := hr.keys
        simp only [List.map_cons, List.nodup_cons] at hkeys
        have hdict := hr.dict
        simp only [List.map_cons] at hdict
        have hlk0 : ∃ b, m.cache.lookup k0 = some b := by
          cases h : m.cache.lookup k0 with
          | some b => exact ⟨b, rfl⟩
          | none => exact absurd (hdict.mem_iff.2 (by simp)) (lookup_none.1 h a0)
        obtain ⟨b0, hb0⟩ := hlk0
        have hnext : ((setKV m.heap m.root (some k) (some v)) m.root).next = a0 := by simp [s1]
        have hkey : ((setKV m.heap m.root (some k) (some v)) a0).key = some k0 := by
          simp [Ne.symm hra, hc0.1]
        refine ⟨{ m with heap := setKV (setKV m.heap m.root (some k) (some v)) a0 none none, root := a0,
                         cache := (k, m.root) :: dictDel m.cache k0, misses := m.misses + 1 },
          t ++ [(m.root, k, v)], ?_, ?_, rfl, rfl, ?_⟩
        · simp only [store, hl, if_pos hfull, hnext, hkey, hb0]
        · refine ⟨?_, ?_, ?_, ?_, ?_, ?_⟩
          · simp only [List.map_append, List.map_cons, List.map_nil]
            rw [seg_append]
            have hnd2 : (a0 :: t.map (·.1)).Nodup := (List.nodup_cons.1 hnd).2
            refine ⟨seg_frame s3 hnd2 ?_ ?_ ?_, ?_, ?_⟩
            · intro x _; simp
            · intro x _; simp
            · simp
            · simp [s1]
            · simp [s2]
          · simp only [List.map_append, List.map_cons, List.map_nil]
            have : (a0 :: (t.map (·.1) ++ [m.root])).Perm (m.root :: a0 :: t.map (·.1)) := by
              have h1 : (a0 :: (t.map (·.1) ++ [m.root])) = (a0 :: t.map (·.1)) ++ [m.root] := rfl
              rw [h1]
              exact List.perm_append_comm
            exact this.symm.nodup hnd
          · intro x hx
            refine hr.lt x ?_
            simp only [List.map_append, List.map_cons, List.map_nil, List.mem_cons, List.mem_append,
              List.not_mem_nil, or_false] at hx ⊢
            rcases hx with h | h | h
            · exact Or.inr (Or.inl h)
            · exact Or.inr (Or.inr h)
            · exact Or.inl h
          · intro e he
            rcases List.mem_append.1 he with he | he
            · have hne1 : e.1 ≠ m.root := fun h => (List.nodup_cons.1 hnd).1
                (List.mem_cons_of_mem _ (List.mem_map.2 ⟨e, he, h⟩))
              have hne2 : e.1 ≠ a0 := fun h => (List.nodup_cons.1 (List.nodup_cons.1 hnd).2).1
                (List.mem_map.2 ⟨e, he, h⟩)
              simpa [hne1, hne2] using hr.cells e (List.mem_cons_of_mem _ he)
            · simp only [List.mem_cons, List.not_mem_nil, or_false] at he
              subst he
              simp [hra]
          · simp only [List.map_append, List.map_cons, List.map_nil]
            have hd := dictDel_perm hdict (by
              intro e he
              obtain ⟨x, hx, rfl⟩ := List.mem_map.1 he
              intro hk
              exact hkeys.1 (List.mem_map.2 ⟨x, hx, hk⟩))
            exact (List.Perm.cons _ hd).trans (List.perm_append_comm (l₁ := [(k, m.root)]))
          · simp only [List.map_append, List.map_cons, List.map_nil]
            rw [List.nodup_append]
            refine ⟨hkeys.2, by simp, ?_⟩
            intro x hx y hy
            simp only [List.mem_cons, List.not_mem_nil, or_false] at hy
            subst hy
            obtain ⟨e, he, rfl⟩ := List.mem_map.1 hx
            exact hknew e (List.mem_cons_of_mem _ he)
        · unfold insertNew contents
          rw [if_pos (by simpa [hlen] using hfull)]
          simp
    · have hnd := hr.nodup
      have hfr : m.fresh ∉ m.root :: t.map (·.1) := fun h => Nat.lt_irrefl _ (hr.lt _ h)
      have hrf : m.root ≠ m.fresh := fun h => hfr (by simp [h])
      have hlast : (m.heap m.root).prev = lastOf m.root (t.map (·.1)) := seg_prev hr.seg
      have hlf : lastOf m.root (t.map (·.1)) ≠ m.fresh := fun h => hfr (h ▸ lastOf_mem _ _)
      have hfh : ∀ x, ((setPrev (setNext (setLink m.heap m.fresh ⟨(m.heap m.root).prev, m.root, some k, some v⟩)
            (m.heap m.root).prev m.fresh) m.root m.fresh) x).next =
          if x = lastOf m.root (t.map (·.1)) then m.fresh else if x = m.fresh then m.root else (m.heap x).next := by
        intro x
        simp only [setPrev_next, setNext_next, hlast]
        split
        · rfl
        · unfold setLink; split <;> rfl
      have hfp : ∀ x, ((setPrev (setNext (setLink m.heap m.fresh ⟨(m.heap m.root).prev, m.root, some k, some v⟩)
            (m.heap m.root).prev m.fresh) m.root m.fresh) x).prev =
          if x = m.root then m.fresh else if x = m.fresh then lastOf m.root (t.map (·.1)) else (m.heap x).prev := by
        intro x
        simp only [setPrev_prev, setNext_prev, hlast]
        split
        · rfl
        · unfold setLink; split <;> rfl
      refine ⟨⟨setPrev (setNext (setLink m.heap m.fresh ⟨(m.heap m.root).prev, m.root, some k, some v⟩)
            (m.heap m.root).prev m.fresh) m.root m.fresh, (k, m.fresh) :: m.cache, m.root, m.fresh + 1,
            m.hits, m.misses + 1⟩, t ++ [(m.fresh, k, v)], by simp only [store, hl, if_neg hfull], ?_, rfl, rfl, ?_⟩
      · refine ⟨?_, ?_, ?_, ?_, ?_, ?_⟩
        · simp only [List.map_append, List.map_cons, List.map_nil]
          rw [seg_append]
          refine ⟨seg_retarget hr.seg hnd ?_ ?_ ?_ ?_, ?_, ?_⟩
          · intro x hx hxl
            rw [hfh, if_neg hxl, if_neg (nem hx hfr)]
          · intro x hx
            rw [hfp, if_neg (nem hx (List.nodup_cons.1 hnd).1),
              if_neg (nem (List.mem_cons_of_mem _ hx) hfr)]
          · rw [hfh, if_pos rfl]
          · rw [hfp, if_neg (Ne.symm hrf), if_pos rfl]
          · rw [hfh, if_neg (Ne.symm hlf), if_pos rfl]
          · rw [hfp, if_pos rfl]
        · simp only [List.map_append, List.map_cons, List.map_nil]
          rw [← List.cons_append, List.nodup_append]
          refine ⟨hnd, by simp, ?_⟩
          intro x hx y hy
          simp only [List.mem_cons, List.not_mem_nil, or_false] at hy
          subst hy
          exact fun e => hfr (e ▸ hx)
        · intro x hx
          simp only [List.map_append, List.map_cons, List.map_nil] at hx
          rw [← List.cons_append] at hx
          show x < m.fresh + 1
          rcases List.mem_append.1 hx with hx | hx
          · have := hr.lt x hx; omega
          · simp only [List.mem_cons, List.not_mem_nil, or_false] at hx
            omega
        · intro e he
          rcases List.mem_append.1 he with he | he
          · have hne : e.1 ≠ m.fresh := fun h => hfr (List.mem_cons_of_mem _ (List.mem_map.2 ⟨e, he, h⟩))
            simpa [setLink, hne] using hr.cells e he
          · simp only [List.mem_cons, List.not_mem_nil, or_false] at he
            subst he
            simp [setLink]
        · simp only [List.map_append, List.map_cons, List.map_nil]
          exact (List.Perm.cons _ hr.dict).trans (List.perm_append_comm (l₁ := [(k, m.fresh)]))
        · simp only [List.map_append, List.map_cons, List.map_nil]
          rw [List.nodup_append]
          refine ⟨hr.keys, by simp, ?_⟩
          intro x hx y hy
          simp only [List.mem_cons, List.not_mem_nil, or_false] at hy
          subst hy
          obtain ⟨e, he, rfl⟩ := List.mem_map.1 hx
          exact hknew e he
      · unfold insertNew contents
        rw [if_neg (by simpa [hlen] using hfull)]
        simp

theorem clear_rep {m : Mem K V} {t} (hr : Rep m t) : Rep (clear m) [] where
  seg := by simp [clear, Seg, setLink]
  nodup := by simp
  lt := by
    intro a ha
    simp only [List.map_nil, List.mem_cons, List.not_mem_nil, or_false] at ha
    subst ha
    exact hr.lt m.root (by simp)
  cells := by simp
  dict := List.Perm.nil
  keys := by simp

end Verif.Lru
