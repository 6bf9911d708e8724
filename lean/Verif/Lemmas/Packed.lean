import Verif.Model.Packed
namespace Verif.Cov

theorem sum_range_le (i N : Nat) (h : i ≤ N) : (List.range i).sum ≤ i * N := by
  induction i with
  | zero => simp
  | succ i ih =>
    have := ih (by omega)
    rw [List.range_succ, List.sum_append, Nat.succ_mul]
    simp
    omega

theorem rows_length (N i : Nat) (h : i ≤ N) :
    ((List.range i).flatMap fun i => (List.range' i (N - i)).map fun j => (i, j)).length + (List.range i).sum = i * N := by
  induction i with
  | zero => simp
  | succ i ih =>
    have := ih (by omega)
    rw [List.range_succ, List.flatMap_append, List.length_append, List.sum_append, Nat.succ_mul]
    simp only [List.flatMap_cons, List.flatMap_nil, List.append_nil, List.length_map, List.length_range', List.sum_cons,
      List.sum_nil]
    omega

theorem triu_length (N : Nat) : (triu N).length + (List.range N).sum = N * N := rows_length N N (Nat.le_refl _)

theorem sum_range_two (N : Nat) : 2 * (List.range N).sum + N = N * N := by
  induction N with
  | zero => simp
  | succ n ih => rw [List.range_succ, List.sum_append]; simp; grind

theorem triu_length_eq (N : Nat) : 2 * (triu N).length = N * (N + 1) := by
  have h1 := triu_length N
  have h2 := sum_range_two N
  grind

theorem mem_triu {N i j : Nat} : (i, j) ∈ triu N ↔ i ≤ j ∧ j < N := by
  simp only [triu, List.mem_flatMap, List.mem_range, List.mem_map, List.mem_range'_1, Prod.mk.injEq]
  constructor
  · rintro ⟨a, ha, b, hb, rfl, rfl⟩; omega
  · rintro ⟨h1, h2⟩; exact ⟨i, by omega, j, by omega, rfl, rfl⟩

/-- Position of `(i, j)`, `i ≤ j < N`. -/
theorem triu_get {N i j : Nat} (hij : i ≤ j) (hj : j < N) :
    (triu N)[i * N - (List.range i).sum + (j - i)]? = some (i, j) := by
  have hsplit : List.range N = List.range i ++ List.range' i (N - i) := by
    have := @List.range'_append_1 0 i (N - i)
    rw [Nat.zero_add, Nat.add_sub_cancel' (by omega)] at this
    rw [List.range_eq_range', List.range_eq_range', this]
  have hlen := rows_length N i (by omega)
  unfold triu
  rw [hsplit, List.flatMap_append, List.getElem?_append_right (by omega)]
  have : i * N - (List.range i).sum + (j - i) -
      ((List.range i).flatMap fun i => (List.range' i (N - i)).map fun j => (i, j)).length = j - i := by omega
  rw [this]
  obtain ⟨n, hn⟩ : ∃ n, N - i = n + 1 := ⟨N - i - 1, by omega⟩
  rw [hn, List.range'_succ, List.flatMap_cons, List.getElem?_append_left (by simp; omega)]
  simp [show j - i < N - i by omega]
  omega

theorem triu_nodup (N : Nat) : (triu N).Nodup := by
  unfold triu List.Nodup
  rw [List.pairwise_flatMap]
  constructor
  · intro i _
    rw [List.pairwise_map]
    exact (List.nodup_range' (s := i) (n := N - i)).imp (fun h e => h (by simpa using e))
  · refine List.nodup_range.imp ?_
    intro a b hab x hx y hy
    simp only [List.mem_map] at hx hy
    obtain ⟨_, _, rfl⟩ := hx
    obtain ⟨_, _, rfl⟩ := hy
    intro e; exact hab (congrArg Prod.fst e)

/-- The wrapped index of Python: negative indices count from the end. -/
theorem contracted_ok {N i j : Nat} (hi : i < N) (hj : j < N) :
    contracted N i j = .ok (if i ≤ j then i * N - (List.range i).sum + (j - i) else j * N - (List.range j).sum + (i - j)) := by
  unfold contracted
  have h1 : ¬ ((i : Int) < 0) := by omega
  have h2 : ¬ ((j : Int) < 0) := by omega
  simp only [h1, h2, if_false]
  rw [if_neg (by simp; omega), if_neg (by simp; omega)]
  by_cases h : i ≤ j
  · have : ¬ ((i : Int) > j) := by omega
    simp only [this, if_false, h, if_true, Int.toNat_natCast]
    have := sum_range_le i N (by omega)
    congr 1
    rw [Int.mul_sub, Int.mul_one]
    have : ((i * N : Nat) : Int) = (i : Int) * N := by simp
    omega
  · have h' : (i : Int) > j := by omega
    simp only [h', if_true, h, if_false, Int.toNat_natCast]
    have := sum_range_le j N (by omega)
    congr 1
    rw [Int.mul_sub, Int.mul_one]
    have : ((j * N : Nat) : Int) = (j : Int) * N := by simp
    omega

theorem pack_get {α : Type} {N i j : Nat} (m : Nat → Nat → α) (hij : i ≤ j) (hj : j < N) :
    (pack N m)[i * N - (List.range i).sum + (j - i)]? = some (m i j) := by
  unfold pack
  rw [List.getElem?_map, triu_get hij hj]; rfl

theorem elem_pack_nat {α : Type} {N i j : Nat} (m : Nat → Nat → α) (hi : i < N) (hj : j < N) :
    elem N (pack N m) i j = .ok (if i ≤ j then m i j else m j i) := by
  unfold elem
  rw [contracted_ok hi hj]
  by_cases h : i ≤ j
  · simp only [h, if_true, pack_get m h hj]
  · simp only [h, if_false, pack_get m (show j ≤ i by omega) hi]

theorem elem_wrap {α : Type} (N : Nat) (d : List α) (i j : Int)
    (hi : -N ≤ i) (hj : -N ≤ j) :
    elem N d i j = elem N d (if i < 0 then i + N else i) (if j < 0 then j + N else j) := by
  unfold elem
  have : contracted N i j = contracted N (if i < 0 then i + N else i) (if j < 0 then j + N else j) := by
    unfold contracted
    simp only [show ¬ ((if i < 0 then i + ↑N else i) < 0) by omega,
      show ¬ ((if j < 0 then j + ↑N else j) < 0) by omega, if_false]
  rw [this]

theorem elem_out {α : Type} (N : Nat) (d : List α) (i j : Int)
    (h : i < -N ∨ (N : Int) ≤ i ∨ j < -N ∨ (N : Int) ≤ j) : elem N d i j = .error .indexError := by
  have : contracted N i j = .error .indexError := by
    unfold contracted
    simp only
    by_cases hi : 0 ≤ (if i < 0 then i + ↑N else i) ∧ (if i < 0 then i + ↑N else i) < (N : Int)
    · rw [if_neg (by simpa using hi), if_pos (by omega)]
    · rw [if_pos hi]
  unfold elem; rw [this]

/-- Folding writes over distinct positions. -/
theorem foldl_write {α : Type} (l : List ((Nat × Nat) × α)) (g : Nat → Nat → Option α)
    (hn : (l.map (·.1)).Nodup) (i j : Nat) :
    (l.foldl (fun g e => write g e.1 e.2) g) i j = match l.lookup (i, j) with
      | some v => some v
      | none => g i j := by
  induction l generalizing g with
  | nil => rfl
  | cons e l ih =>
    rw [List.foldl_cons, ih _ (by simp at hn; exact hn.2)]
    obtain ⟨p, v⟩ := e
    simp only [List.lookup_cons]
    by_cases hp : (i, j) = p
    · subst hp
      have : l.lookup (i, j) = none := by
        rw [List.lookup_eq_none_iff]
        intro q hq
        simp only [List.map_cons, List.nodup_cons, List.mem_map] at hn
        simp only [bne_iff_ne, ne_eq]
        exact fun he => hn.1 ⟨q, hq, he.symm⟩
      simp [this, write]
    · have : ((i, j) == p) = false := by simpa using hp
      simp [this, write, hp]

theorem lookup_zip_map {α β : Type} [BEq α] [LawfulBEq α] [DecidableEq α] (l : List α) (f : α → β) (a : α) :
    (l.zip (l.map f)).lookup a = if a ∈ l then some (f a) else none := by
  induction l with
  | nil => rfl
  | cons b l ih =>
    simp only [List.map_cons, List.zip_cons_cons, List.lookup_cons, ih, List.mem_cons]
    by_cases h : a = b
    · subst h; simp
    · have : (a == b) = false := by simpa using h
      simp [this, h]

theorem full_pack {α : Type} (N : Nat) (m : Nat → Nat → α) :
    ∃ g, condensedToFull (pack N m) N = .ok g ∧
      ∀ i j, i < N → j < N → g i j = some (if i ≤ j then m i j else m j i) := by
  unfold condensedToFull
  rw [if_pos (by simp [pack])]
  refine ⟨_, rfl, ?_⟩
  intro i j hi hj
  have hz : ∀ a b, (((triu N).zip (pack N m)).foldl (fun g e => write g e.1 e.2) (fun _ _ => none)) a b =
      if a ≤ b ∧ b < N then some (m a b) else none := by
    intro a b
    rw [foldl_write _ _ (by rw [List.map_fst_zip (by simp [pack])]; exact triu_nodup N)]
    unfold pack
    rw [lookup_zip_map]
    by_cases h : a ≤ b ∧ b < N
    · simp [mem_triu, h]
    · simp [mem_triu, h]
  simp only [hz]
  by_cases h : i ≤ j
  · by_cases h' : i = j
    · subst h'; simp [hi]
    · have : ¬ (j ≤ i) := by omega
      simp [this, h, hj]
  · have : j ≤ i := by omega
    simp [h, this, hi]

end Verif.Cov
