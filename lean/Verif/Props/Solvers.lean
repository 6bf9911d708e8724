/-
C72, C74, C75, C76: bookkeeping of the solvers.
-/
import Verif.Model.Solvers
import Mathlib.Data.List.Range
import Mathlib.Data.List.FinRange
import Mathlib.Data.Nat.Digits.Defs
import Mathlib.Tactic.Linarith
import Mathlib.Tactic.Ring

namespace Verif.Solvers

/-! ### C72 -/

/-- An admissible ensemble size (emcee's requirement). -/
def Admissible (w ndim : ℤ) : Prop := w % 2 = 0 ∧ 2 * ndim ≤ w

/-- C72: the number of walkers is admissible, it is the smallest admissible number that is at least the one requested, and it is the one requested
if that was admissible. -/
theorem C72_walkers (walkers ndim : ℤ) :
    Admissible (nWalkers walkers ndim) ndim ∧ walkers ≤ nWalkers walkers ndim ∧
    (∀ m, Admissible m ndim → walkers ≤ m → nWalkers walkers ndim ≤ m) ∧ (Admissible walkers ndim → nWalkers walkers ndim = walkers) := by
  unfold nWalkers Admissible
  simp only
  refine ⟨⟨?_, ?_⟩, ?_, fun m h1 h2 => ?_, fun h => ?_⟩ <;> split <;> split <;> omega

example : nWalkers 7 4 = 8 ∧ nWalkers 21 4 = 22 ∧ nWalkers 20 4 = 20 ∧ nWalkers 1 4 = 8 := by decide

/-! ### C75 -/

theorem slice_range (N s e : ℕ) (h : e ≤ N) : ((List.range N).take e).drop s = List.range' s (e - s) := by
  rw [List.take_range, List.range_eq_range', List.drop_range', Nat.min_eq_left h]
  simp

/-- The chunks as intervals, consecutive from `start`. -/
theorem splitLoop_eq (avg left rem start : ℕ) (h : rem ≤ left) :
    splitLoop avg left rem start (start + avg) =
      (List.range left).map fun i => (start + i * avg + min i rem, start + (i + 1) * avg + min (i + 1) rem) := by
  induction left generalizing rem start with
  | zero => rfl
  | succ left ih =>
    rw [splitLoop]
    by_cases hr : rem = 0
    · subst hr
      simp only [ne_eq, not_true_eq_false, if_false]
      rw [ih 0 (start + avg) (Nat.zero_le _), List.range_succ_eq_map, List.map_cons, List.map_map]
      congr 1
      · simp
      · refine List.map_congr_left fun i _ => ?_
        simp only [Function.comp, Nat.succ_eq_add_one, Nat.min_zero, add_zero, Prod.mk.injEq]
        constructor <;> ring
    · simp only [ne_eq, hr, not_false_eq_true, if_true]
      rw [ih (rem - 1) (start + avg + 1) (by omega), List.range_succ_eq_map, List.map_cons, List.map_map]
      congr 1
      · simp only [Prod.mk.injEq]
        constructor
        · simp
        · have : min (0 + 1) rem = 1 := by omega
          rw [this]; ring
      · refine List.map_congr_left fun i _ => ?_
        simp only [Function.comp, Nat.succ_eq_add_one, Prod.mk.injEq]
        have e1 : min (i + 1) rem = min i (rem - 1) + 1 := by omega
        have e2 : min (i + 1 + 1) rem = min (i + 1) (rem - 1) + 1 := by omega
        constructor
        · rw [e1]; ring
        · rw [e2]; ring

/-- Size of chunk `i`. -/
def chunkSize (N C i : ℕ) : ℕ := N / C + if i < N % C then 1 else 0

/-- First rank of chunk `i`. -/
def chunkStart (N C i : ℕ) : ℕ := i * (N / C) + min i (N % C)

theorem chunk_next (N C i : ℕ) : chunkStart N C (i + 1) = chunkStart N C i + chunkSize N C i := by
  unfold chunkStart chunkSize
  have : min (i + 1) (N % C) = min i (N % C) + if i < N % C then 1 else 0 := by split <;> omega
  rw [this]; ring

theorem chunkStart_mono (N C : ℕ) {i j : ℕ} (h : i ≤ j) : chunkStart N C i ≤ chunkStart N C j := by
  induction h with
  | refl => exact le_rfl
  | step _ ih => rw [chunk_next]; exact ih.trans (Nat.le_add_right _ _)

theorem chunkStart_end (N C : ℕ) (hC : 0 < C) : chunkStart N C C = N := by
  unfold chunkStart
  rw [Nat.min_eq_right (Nat.mod_lt _ hC).le]
  exact Nat.div_add_mod N C

theorem splitRanks_eq (N C : ℕ) (hC : 0 < C) :
    splitRanks N C = (List.range C).map fun i => List.range' (chunkStart N C i) (chunkSize N C i) := by
  unfold splitRanks
  have := splitLoop_eq (N / C) C (N % C) 0 (Nat.mod_lt _ hC).le
  rw [zero_add] at this
  rw [this, List.map_map]
  refine List.map_congr_left fun i hi => ?_
  have hi := List.mem_range.1 hi
  simp only [Function.comp, zero_add]
  have e1 : (i + 1) * (N / C) + min (i + 1) (N % C) = chunkStart N C (i + 1) := rfl
  have e0 : i * (N / C) + min i (N % C) = chunkStart N C i := rfl
  rw [e1, e0, slice_range _ _ _ ((chunkStart_mono N C (Nat.succ_le_of_lt hi)).trans_eq (chunkStart_end N C hC)), chunk_next,
    Nat.add_sub_cancel_left]

theorem flatten_chunks (N C m : ℕ) :
    ((List.range m).map fun i => List.range' (chunkStart N C i) (chunkSize N C i)).flatten = List.range (chunkStart N C m) := by
  induction m with
  | zero => simp [chunkStart]
  | succ m ih =>
    rw [List.range_succ, List.map_append, List.flatten_append, ih, chunk_next, List.range_eq_range', List.range_eq_range']
    simp only [List.map_cons, List.map_nil, List.flatten_cons, List.flatten_nil, List.append_nil]
    rw [show List.range' (chunkStart N C m) (chunkSize N C m) = List.range' (0 + 1 * chunkStart N C m) (chunkSize N C m) by simp,
      List.range'_append]

/-- C75: the ranks are split in `C` consecutive groups: put one after the other they are all the ranks in order, each once. -/
theorem C75_partition (N C : ℕ) (hC : 0 < C) : (splitRanks N C).length = C ∧ (splitRanks N C).flatten = List.range N := by
  rw [splitRanks_eq N C hC, flatten_chunks, chunkStart_end N C hC]
  simp

/-- C75: the sizes of any two groups differ by at most one. -/
theorem C75_balanced (N C : ℕ) (hC : 0 < C) (a b : List ℕ) (ha : a ∈ splitRanks N C) (hb : b ∈ splitRanks N C) : a.length ≤ b.length + 1 := by
  rw [splitRanks_eq N C hC] at ha hb
  obtain ⟨i, -, rfl⟩ := List.mem_map.1 ha
  obtain ⟨j, -, rfl⟩ := List.mem_map.1 hb
  simp only [List.length_range', chunkSize]
  split <;> split <;> omega

/-- C75: every group has a master (so `MPIManager` can be entered) iff there are at most as many groups as ranks; the masters are distinct and in
increasing order. -/
theorem C75_nonempty (N C : ℕ) (hC : 0 < C) :
    ((∀ r ∈ splitRanks N C, r ≠ []) ↔ C ≤ N) ∧ ((masters N C).isSome ↔ C ≤ N) ∧ (∀ m, masters N C = some m → m.length = C ∧ m.Pairwise (· < ·)) := by
  have key : (∀ i < C, chunkSize N C i ≠ 0) ↔ C ≤ N := by
    constructor
    · intro h
      by_contra hlt
      have hlt : N < C := by omega
      have := h (C - 1) (by omega)
      unfold chunkSize at this
      rw [Nat.div_eq_of_lt hlt, Nat.mod_eq_of_lt hlt, if_neg (by omega)] at this
      exact this rfl
    · intro h i _
      unfold chunkSize
      have : 1 ≤ N / C := (Nat.one_le_div_iff hC).2 h
      omega
  have h1 : (∀ r ∈ splitRanks N C, r ≠ []) ↔ C ≤ N := by
    rw [← key, splitRanks_eq N C hC]
    constructor
    · intro h i hi e
      apply h _ (List.mem_map.2 ⟨i, List.mem_range.2 hi, rfl⟩)
      rw [e]; rfl
    · intro h r hr
      obtain ⟨i, hi, rfl⟩ := List.mem_map.1 hr
      intro e
      apply h i (List.mem_range.1 hi)
      have := congrArg List.length e
      simpa using this
  have aux : ∀ l : List (List ℕ), ((l.mapM fun r : List ℕ => r.head?).isSome ↔ ∀ r ∈ l, r ≠ []) ∧
      ∀ m, (l.mapM fun r : List ℕ => r.head?) = some m → l.map (fun r => r.head?) = m.map some := by
    intro l
    induction l with
    | nil => simp
    | cons a t ih =>
      cases a with
      | nil => simp
      | cons x a =>
        rw [List.mapM_cons]
        simp only [List.head?_cons, Option.pure_def, Option.bind_eq_bind, Option.bind_some]
        cases ht : t.mapM fun r : List ℕ => r.head? with
        | none =>
          have := ih.1
          rw [ht] at this
          simp only [Option.isSome_none, Bool.false_eq_true, false_iff] at this
          simp [this]
        | some m =>
          have h1 := ih.1
          rw [ht] at h1
          simp only [Option.isSome_some, true_iff] at h1
          have h2 := ih.2 m ht
          refine ⟨by simpa using h1, fun m' hm => ?_⟩
          simp only [Option.bind_some, Option.some.injEq] at hm
          subst hm
          simp [h2]
  refine ⟨h1, ?_, fun m hm => ?_⟩
  · rw [masters, (aux _).1, h1]
  · have hm' := (aux _).2 m hm
    have hle : C ≤ N := h1.1 ((aux _).1.1 (by rw [masters] at hm; rw [hm]; rfl))
    have hs := key.2 hle
    rw [splitRanks_eq N C hC, List.map_map] at hm'
    have hm2 : m = (List.range C).map (chunkStart N C) := by
      have : m.map some = ((List.range C).map (chunkStart N C)).map some := by
        rw [← hm', List.map_map]
        refine List.map_congr_left fun i hi => ?_
        have := hs i (List.mem_range.1 hi)
        obtain ⟨k, hk⟩ := Nat.exists_eq_succ_of_ne_zero this
        simp [Function.comp, hk, List.range'_succ]
      exact (List.map_injective_iff.2 (Option.some_injective _)) this
    subst hm2
    refine ⟨by simp, ?_⟩
    rw [List.pairwise_map]
    refine List.Pairwise.imp_of_mem ?_ List.pairwise_lt_range
    intro i j hi hj hij
    have h2 := chunk_next N C i
    have h3 := chunkStart_mono N C (Nat.succ_le_of_lt hij)
    have h4 := hs i (List.mem_range.1 hi)
    simp only [Nat.succ_eq_add_one] at h3
    omega

example : splitRanks 7 3 = [[0, 1, 2], [3, 4], [5, 6]] ∧ masters 7 3 = some [0, 3, 5] ∧ masters 2 3 = none := by decide

/-! ### C76 -/

/-- Python's `int` reads back the digits written by `str`. -/
def IntReads (int : List Char → Option ℤ) : Prop := ∀ m : ℕ, int (Nat.toDigits 10 m) = some (m : ℤ)

theorem digit_chars (m : ℕ) : ∀ c ∈ Nat.toDigits 10 m, c ≠ '_' ∧ c ≠ '.' := by
  intro c hc
  have := Nat.isDigit_of_mem_toDigits (by norm_num : 0 < 10) (by norm_num : 10 ≤ 10) hc
  constructor <;> rintro rfl <;> revert this <;> decide

theorem lastField_noSep (cur t : List Char) (h : ∀ c ∈ t, c ≠ '_') : lastField cur t = cur ++ t := by
  induction t generalizing cur with
  | nil => simp [lastField]
  | cons a t ih =>
    cases t with
    | nil => rfl
    | cons b t =>
      rw [lastField, if_neg (fun hh => h a (by simp) hh.1), ih _ fun c hc => h c (by simp [hc])]
      simp

/-- The last field after a base that ends in exactly one separator. -/
theorem lastField_base (b t cur : List Char) (hb : b.getLast? ≠ some '_') : lastField cur (b ++ '_' :: '_' :: t) = lastField [] t := by
  match b, hb with
  | [], _ => simp [lastField]
  | [a], hb =>
    have ha : a ≠ '_' := by simpa using hb
    rw [List.singleton_append, lastField, if_neg (fun h => ha h.1), lastField, if_pos ⟨rfl, rfl⟩]
  | a :: c :: b, hb =>
    have hb' : (c :: b).getLast? ≠ some '_' := by simpa [List.getLast?_cons_cons] using hb
    rw [List.cons_append, List.cons_append, lastField]
    by_cases h : a = '_' ∧ c = '_'
    · rw [if_pos h]
      refine lastField_base b t [] ?_
      cases b with
      | nil => simp [h.2] at hb'
      | cons x b => simpa [List.getLast?_cons_cons] using hb'
    · rw [if_neg h]
      exact lastField_base (c :: b) t _ hb'
termination_by b.length

theorem number_fileName (int : List Char → Option ℤ) (hi : IntReads int) (b : List Char) (hb : b.getLast? ≠ some '_') (m : ℕ) :
    fileNumber int (fileName (b ++ "__".toList) m) = some (m : ℤ) := by
  unfold fileNumber fileName
  have e : (b ++ "__".toList) ++ Nat.toDigits 10 m ++ ".npz".toList = b ++ '_' :: '_' :: (Nat.toDigits 10 m ++ ".npz".toList) := by
    simp
  rw [e, lastField_base _ _ _ hb, lastField_noSep, List.nil_append]
  · unfold beforeDot
    have : (Nat.toDigits 10 m ++ ".npz".toList).takeWhile (fun c => decide (c ≠ '.')) = Nat.toDigits 10 m := by
      rw [List.takeWhile_append_of_pos fun c hc => by simpa using (digit_chars m c hc).2]
      simp
    rw [this]
    exact hi m
  · intro c hc
    rcases List.mem_append.1 hc with hc | hc
    · exact (digit_chars m c hc).1
    · have : ∀ c ∈ ".npz".toList, c ≠ '_' := by decide
      exact this c hc

theorem contains_prefix (t s : List Char) : contains t (t ++ s) = true := by
  cases h : t ++ s with
  | nil =>
    have : t = [] := (List.append_eq_nil_iff.1 h).1
    subst this; rfl
  | cons a u =>
    rw [contains, ← h]
    have : t.isPrefixOf (t ++ s) = true := by simp
    simp [this]

theorem maxSuffix_spec (int : List Char → Option ℤ) (base : List Char) (folder : List (List Char)) (s : ℤ) (r : ℤ)
    (h : maxSuffix int base folder s = some r) :
    s ≤ r ∧ (∀ f ∈ folder, contains base f = true → ∃ m, fileNumber int f = some m ∧ m ≤ r) ∧
    (r = s ∨ ∃ f ∈ folder, contains base f = true ∧ fileNumber int f = some r) := by
  induction folder generalizing s with
  | nil => simp only [maxSuffix, Option.some.injEq] at h; subst h; simp
  | cons f t ih =>
    rw [maxSuffix] at h
    by_cases hc : contains base f = true
    · rw [if_pos hc] at h
      cases hm : fileNumber int f with
      | none => rw [hm] at h; cases h
      | some m =>
        rw [hm] at h
        obtain ⟨i1, i2, i3⟩ := ih _ h
        refine ⟨?_, ?_, ?_⟩
        · split at i1 <;> omega
        · intro g hg hcg
          rcases List.mem_cons.1 hg with rfl | hg
          · exact ⟨m, hm, by split at i1 <;> omega⟩
          · exact i2 g hg hcg
        · rcases i3 with i3 | ⟨g, hg, h1, h2⟩
          · split at i3
            · right; exact ⟨f, by simp, hc, by rw [hm, i3]⟩
            · left; exact i3
          · right; exact ⟨g, by simp [hg], h1, h2⟩
    · rw [if_neg hc] at h
      obtain ⟨i1, i2, i3⟩ := ih _ h
      refine ⟨i1, ?_, ?_⟩
      · intro g hg hcg
        rcases List.mem_cons.1 hg with rfl | hg
        · exact absurd hcg hc
        · exact i2 g hg hcg
      · rcases i3 with i3 | ⟨g, hg, h1, h2⟩
        · left; exact i3
        · right; exact ⟨g, by simp [hg], h1, h2⟩

/-- C76: the file created did not exist, every other file is kept, and its number is larger than that of every matching file (exactly one larger
than the largest, or 1). -/
theorem C76_fresh (int : List Char → Option ℤ) (hi : IntReads int) (folder : List (List Char)) (b : List Char) (hb : b.getLast? ≠ some '_') (s : ℕ)
    (folder' : List (List Char)) (h : createFile int folder (b ++ "__".toList) = some (s, folder')) :
    fileName (b ++ "__".toList) s ∉ folder ∧ folder' = folder ++ [fileName (b ++ "__".toList) s] ∧
    (∀ f ∈ folder, contains (b ++ "__".toList) f = true → ∃ m : ℤ, fileNumber int f = some m ∧ m < s) ∧
    (s = 1 ∨ ∃ f ∈ folder, contains (b ++ "__".toList) f = true ∧ fileNumber int f = some ((s : ℤ) - 1)) := by
  unfold createFile at h
  cases hm : maxSuffix int (b ++ "__".toList) folder 0 with
  | none => rw [hm] at h; cases h
  | some r =>
    rw [hm] at h
    obtain ⟨h1, h2, h3⟩ := maxSuffix_spec _ _ _ _ _ hm
    have hfree : ∀ k : ℕ, r.toNat < k → fileName (b ++ "__".toList) k ∉ folder := by
      intro k hk hmem
      obtain ⟨m, e1, e2⟩ := h2 _ hmem (by unfold fileName; rw [List.append_assoc]; exact contains_prefix _ _)
      rw [number_fileName int hi b hb] at e1
      cases e1
      omega
    have hs : firstFree folder (b ++ "__".toList) (folder.length + 1) (r.toNat + 1) = r.toNat + 1 := by
      rw [firstFree, if_neg (hfree _ (by omega))]
    simp only [hs, Option.some.injEq, Prod.mk.injEq] at h
    obtain ⟨rfl, rfl⟩ := h
    refine ⟨hfree _ (by omega), rfl, fun f hf hc => ?_, ?_⟩
    · obtain ⟨m, e1, e2⟩ := h2 f hf hc
      exact ⟨m, e1, by push_cast; omega⟩
    · rcases h3 with h3 | ⟨f, hf, h4, h5⟩
      · left; omega
      · right; refine ⟨f, hf, h4, ?_⟩
        rw [h5]; congr 1; push_cast; omega

/-- A history of creations (base names without the final separator). -/
def creations (int : List Char → Option ℤ) : List (List Char) → List (List Char) → Option (List (List Char))
  | folder, [] => some folder
  | folder, b :: t => match createFile int folder (b ++ "__".toList) with
    | none => none
    | some (_, folder') => creations int folder' t

/-- C76: over any history of creations in a folder no file is ever overwritten: names stay distinct and every earlier file is still there. -/
theorem C76_history (int : List Char → Option ℤ) (hi : IntReads int) (folder : List (List Char)) (hn : folder.Nodup) (bs : List (List Char))
    (hb : ∀ b ∈ bs, b.getLast? ≠ some '_') (folder' : List (List Char)) (h : creations int folder bs = some folder') :
    folder'.Nodup ∧ folder'.length = folder.length + bs.length ∧ folder <+: folder' := by
  induction bs generalizing folder with
  | nil => simp only [creations, Option.some.injEq] at h; subst h; simp [hn]
  | cons b t ih =>
    rw [creations] at h
    cases hc : createFile int folder (b ++ "__".toList) with
    | none => rw [hc] at h; cases h
    | some p =>
      obtain ⟨s, f1⟩ := p
      rw [hc] at h
      obtain ⟨h1, rfl, -, -⟩ := C76_fresh int hi folder b (hb b (by simp)) s f1 hc
      obtain ⟨i1, i2, i3⟩ := ih _ (by
        rw [List.nodup_append]
        exact ⟨hn, List.nodup_singleton _, fun x hx y hy => by rw [List.mem_singleton.1 hy]; rintro rfl; exact h1 hx⟩)
        (fun c hc => hb c (by simp [hc])) h
      refine ⟨i1, ?_, (List.prefix_append _ _).trans i3⟩
      simp only [List.length_append, List.length_cons, List.length_nil] at i2 ⊢
      omega

/-- the name of a chain file; and a parser meeting `IntReads` exists (e.g. the one that inverts `toDigits` where possible) -/
example : fileName "2020-01-01_20x500_chain0__".toList 12 = "2020-01-01_20x500_chain0__12.npz".toList := by decide

theorem intReads_exists : ∃ int, IntReads int := by
  classical
  refine ⟨fun l => if h : ∃ m : ℕ, Nat.toDigits 10 m = l then some (Int.ofNat h.choose) else none, fun m => ?_⟩
  have h : ∃ m' : ℕ, Nat.toDigits 10 m' = Nat.toDigits 10 m := ⟨m, rfl⟩
  simp only [dif_pos h]
  have := h.choose_spec
  have hinj : h.choose = m := by
    have := congrArg (Nat.ofDigitChars 10 · 0) this
    simpa using this
  rw [hinj]
  rfl

/-- C76, concurrency: looking at the folder and creating the file are not atomic. Two processes that both list the folder before either creates its
file choose the same name, so the second opens the file of the first. -/
theorem C76_race_counterexample (int : List Char → Option ℤ) : ∃ (folder folder1 : List (List Char)) (base : List Char) (s1 s2 : ℕ) (f2 : List (List Char)),
    createFile int folder base = some (s1, folder1) ∧ createFile int folder base = some (s2, f2) ∧ fileName base s2 ∈ folder1 :=
  ⟨[], [fileName "run__".toList 1], "run__".toList, 1, 1, [fileName "run__".toList 1], rfl, rfl, by simp⟩

/-! ### C74 -/

variable {N : ℕ}

/-- Messages sent are those of the chains that left with an exception; messages that arrived were sent. -/
structure MsgInv (w : World N) : Prop where
  sent : ∀ s d t, w.sent s d = some t ↔ s ≠ d ∧ ∃ e, w.at_ s = .stopped (some e) ∧ t = tagOf e
  arrived : ∀ s d t, w.arrived s d = some t → w.sent s d = some t

theorem MsgInv.start : MsgInv (World.start N) := ⟨by simp [World.start], by simp [World.start]⟩

theorem MsgInv.leave {w : World N} (h : MsgInv w) (r : Fin N) (e : Exc) (hr : w.at_ r = .running ∨ w.at_ r = .waiting) : MsgInv (w.leave r e) := by
  have hns : ∀ d t, w.sent r d ≠ some t := by
    intro d t hs
    obtain ⟨-, e', he, -⟩ := (h.sent r d t).1 hs
    rcases hr with hr | hr <;> rw [hr] at he <;> cases he
  constructor
  · intro s d t
    simp only [World.leave]
    by_cases hs : s = r
    · subst hs
      rw [Function.update_self]
      by_cases hd : d = s
      · subst hd
        simp only [ne_eq, not_true_eq_false, and_false, if_false, false_and, iff_false]
        exact hns d t
      · rw [if_pos ⟨rfl, hd⟩]
        simp only [Option.some.injEq, Where.stopped.injEq]
        constructor
        · rintro rfl; exact ⟨fun h => hd h.symm, e, rfl, rfl⟩
        · rintro ⟨-, e', rfl, rfl⟩; rfl
    · rw [if_neg (fun hh => hs hh.1), Function.update_of_ne hs]
      exact h.sent s d t
  · intro s d t ha
    have := h.arrived s d t ha
    simp only [World.leave]
    by_cases hs : s = r
    · subst hs; exact absurd this (hns d t)
    · rw [if_neg (fun hh => hs hh.1)]; exact this

theorem MsgInv.quiet {w : World N} (h : MsgInv w) (at' : Fin N → Where) (hs : ∀ s e, at' s = .stopped (some e) ↔ w.at_ s = .stopped (some e)) :
    MsgInv { w with at_ := at' } :=
  ⟨fun s d t => by rw [h.sent s d t]; simp only [hs], fun s d t => h.arrived s d t⟩

theorem MsgInv.step {w : World N} (h : MsgInv w) (ev : Ev N) : MsgInv (w.step ev) := by
  cases ev with
  | check r =>
    simp only [World.step]
    split
    · split
      · exact h.leave r _ (Or.inl ‹_›)
      · exact h
    · exact h
  | raise_ r e =>
    simp only [World.step]
    split
    · exact h.leave r _ (Or.inl ‹_›)
    · exact h
  | finish r =>
    simp only [World.step]
    split
    · rename_i hr
      refine h.quiet _ fun s e => ?_
      by_cases hs : s = r
      · subst hs; rw [Function.update_self, hr]; simp
      · rw [Function.update_of_ne hs]
    · exact h
  | deliver s d =>
    refine ⟨h.sent, fun s' d' t => ?_⟩
    simp only [World.step]
    split
    · rename_i hh; obtain ⟨rfl, rfl⟩ := hh; exact id
    · exact h.arrived s' d' t
  | barrier r =>
    simp only [World.step]
    split
    · rename_i hr
      refine h.quiet _ fun s e => ?_
      by_cases hs : s = r
      · subst hs; rw [Function.update_self, hr]; simp
      · rw [Function.update_of_ne hs]
    · exact h
  | release c =>
    simp only [World.step]
    split
    · rename_i hw
      have h' : MsgInv { w with at_ := fun _ => .running } := h.quiet _ fun s e => by rw [hw s]; simp
      split
      · split
        · exact h'.leave _ _ (Or.inl rfl)
        · exact h'
      · exact h'
    · exact h

theorem MsgInv.run {w : World N} (h : MsgInv w) (evs : List (Ev N)) : MsgInv (w.run evs) := by
  induction evs generalizing w with
  | nil => exact h
  | cons ev t ih => exact ih (h.step ev)

/-- C74: after any execution, a chain that left because of an exception has sent to every other chain exactly one message, whose tag says why it
left; chains still in the loop, and those that finished all iterations, have sent nothing. -/
theorem C74_messages (evs : List (Ev N)) (s d : Fin N) (t : Tag) :
    ((World.start N).run evs).sent s d = some t ↔ s ≠ d ∧ ∃ e, ((World.start N).run evs).at_ s = .stopped (some e) ∧ t = tagOf e :=
  (MsgInv.start.run evs).sent s d t

/-- C74: what a chain does at its next check: an exit request wins over convergence, convergence over Ctrl-C, and without messages it goes on. -/
theorem C74_precedence (w : World N) (r : Fin N) (hr : w.at_ r = .running) :
    ((∃ s, w.arrived s r = some .EXIT) → (w.step (.check r)).at_ r = .stopped (some .exiting)) ∧
    ((∀ s, w.arrived s r ≠ some .EXIT) → (∃ s, w.arrived s r = some .CONVERGED) → (w.step (.check r)).at_ r = .stopped (some .converged)) ∧
    ((∀ s, w.arrived s r ≠ some .EXIT) → (∀ s, w.arrived s r ≠ some .CONVERGED) → (∃ s, w.arrived s r = some .CTRL_C) →
      (w.step (.check r)).at_ r = .stopped (some .keyboard)) ∧
    ((∀ s, w.arrived s r = none) → w.step (.check r) = w) := by
  refine ⟨fun h => ?_, fun h1 h2 => ?_, fun h1 h2 h3 => ?_, fun h => ?_⟩
  · simp only [World.step, if_pos hr, World.status, if_pos h, World.leave, Function.update_self]
  · simp only [World.step, if_pos hr, World.status, if_neg (not_exists.2 h1), if_pos h2, World.leave, Function.update_self]
  · simp only [World.step, if_pos hr, World.status, if_neg (not_exists.2 h1), if_neg (not_exists.2 h2), if_pos h3, World.leave, Function.update_self]
  · simp [World.step, hr, World.status, h]

theorem at_stays (w : World N) (ev : Ev N) (r : Fin N) (x : Option Exc) (h : w.at_ r = .stopped x) : (w.step ev).at_ r = .stopped x := by
  have hu : ∀ (q : Fin N) (v : Where), w.at_ q = .running → Function.update w.at_ q v r = .stopped x := by
    intro q v hq
    rw [Function.update_of_ne]
    · exact h
    · rintro rfl; rw [h] at hq; cases hq
  cases ev with
  | check q =>
    simp only [World.step]
    split
    · split
      · exact hu q _ ‹_›
      · exact h
    · exact h
  | raise_ q e => simp only [World.step]; split; exacts [hu q _ ‹_›, h]
  | finish q => simp only [World.step]; split; exacts [hu q _ ‹_›, h]
  | deliver _ _ => exact h
  | barrier q => simp only [World.step]; split; exacts [hu q _ ‹_›, h]
  | release c =>
    simp only [World.step]
    rw [if_neg]
    · exact h
    · intro hw; rw [hw r] at h; cases h

theorem at_stays_run (w : World N) (evs : List (Ev N)) (r : Fin N) (x : Option Exc) (h : w.at_ r = .stopped x) : (w.run evs).at_ r = .stopped x := by
  induction evs generalizing w with
  | nil => exact h
  | cons ev t ih => exact ih _ (at_stays w ev r x h)

/-- C74: once a chain has left with an exception, any other chain that is iterating leaves at the first check after the message has arrived. -/
theorem C74_stops (evs : List (Ev N)) (s r : Fin N) (hsr : s ≠ r) (e : Exc) (hs : ((World.start N).run evs).at_ s = .stopped (some e))
    (hr : ((World.start N).run evs).at_ r = .running) :
    ∃ e', ((((World.start N).run evs).step (.deliver s r)).step (.check r)).at_ r = .stopped (some e') ∧ e' ≠ .error := by
  set w := (World.start N).run evs with hw
  have hm : w.sent s r = some (tagOf e) := (C74_messages evs s r _).2 ⟨hsr, e, hs, rfl⟩
  have ha : (w.step (.deliver s r)).arrived s r = some (tagOf e) := by simp [World.step, hm]
  have hr' : (w.step (.deliver s r)).at_ r = .running := hr
  obtain ⟨p1, p2, p3, -⟩ := C74_precedence _ r hr'
  by_cases h1 : ∃ s', (w.step (.deliver s r)).arrived s' r = some .EXIT
  · exact ⟨_, p1 h1, by simp⟩
  by_cases h2 : ∃ s', (w.step (.deliver s r)).arrived s' r = some .CONVERGED
  · exact ⟨_, p2 (not_exists.1 h1) h2, by simp⟩
  · refine ⟨_, p3 (not_exists.1 h1) (not_exists.1 h2) ⟨s, ?_⟩, by simp⟩
    rw [ha]
    cases e with
    | keyboard => rfl
    | converged => exact absurd ⟨s, ha⟩ h2
    | exiting => exact absurd ⟨s, ha⟩ h1
    | error => exact absurd ⟨s, ha⟩ h1

/-- C74: and so all chains leave the loop: if no chain is waiting at the barrier, then delivering the messages of one stopped chain and letting each
chain check once stops every chain. -/
theorem C74_all_stop (evs : List (Ev N)) (s : Fin N) (e : Exc) (hs : ((World.start N).run evs).at_ s = .stopped (some e))
    (hw : ∀ r, ((World.start N).run evs).at_ r ≠ .waiting) (r : Fin N) :
    ∃ x, (((World.start N).run evs).run ((List.finRange N).flatMap fun q => [.deliver s q, .check q])).at_ r = .stopped x := by
  have key : ∀ (l : List (Fin N)) (evs : List (Ev N)), ((World.start N).run evs).at_ s = .stopped (some e) →
      (∀ r, ((World.start N).run evs).at_ r ≠ .waiting) →
      ∀ r ∈ l, ∃ x, (((World.start N).run evs).run (l.flatMap fun q => [.deliver s q, .check q])).at_ r = .stopped x := by
    intro l
    induction l with
    | nil => intro _ _ _ r hr; cases hr
    | cons q t ih =>
      intro evs hs hw r hr
      have e1 : ((World.start N).run evs).run ((q :: t).flatMap fun q => [.deliver s q, .check q]) =
          ((World.start N).run (evs ++ [.deliver s q, .check q])).run (t.flatMap fun q => [.deliver s q, .check q]) := by
        simp [World.run]
      rw [e1]
      have e2 : (World.start N).run (evs ++ [.deliver s q, .check q]) = (((World.start N).run evs).step (.deliver s q)).step (.check q) := by
        simp [World.run]
      have hs2 : ((World.start N).run (evs ++ [.deliver s q, .check q])).at_ s = .stopped (some e) := by
        rw [e2]; exact at_stays _ _ _ _ (at_stays _ _ _ _ hs)
      have hw2 : ∀ r, ((World.start N).run (evs ++ [.deliver s q, .check q])).at_ r ≠ .waiting := by
        intro r
        rw [e2]
        have h0 : (((World.start N).run evs).step (.deliver s q)).at_ r ≠ .waiting := hw r
        generalize ((World.start N).run evs).step (.deliver s q) = w at h0
        simp only [World.step]
        split
        · split
          · simp only [World.leave]
            by_cases hrq : r = q
            · subst hrq; rw [Function.update_self]; simp
            · rw [Function.update_of_ne hrq]; exact h0
          · exact h0
        · exact h0
      rcases List.mem_cons.1 hr with rfl | hr
      · have hstop : ∃ x, ((World.start N).run (evs ++ [.deliver s r, .check r])).at_ r = .stopped x := by
          cases hat : ((World.start N).run evs).at_ r with
          | waiting => exact absurd hat (hw r)
          | stopped x => exact ⟨x, by rw [e2]; exact at_stays _ _ _ _ (at_stays _ _ _ _ hat)⟩
          | running =>
            have hsr : s ≠ r := by rintro rfl; rw [hs] at hat; cases hat
            obtain ⟨e', h1, -⟩ := C74_stops evs s r hsr e hs hat
            exact ⟨some e', by rw [e2]; exact h1⟩
        obtain ⟨x, hx⟩ := hstop
        exact ⟨x, at_stays_run _ _ _ _ hx⟩
      · exact ih _ hs2 hw2 r hr
  exact key _ evs hs hw r (List.mem_finRange r)

/-- C74: user errors and Ctrl-C are reported to the caller, convergence and requested exits are not errors; and a chain reports an error only if it
was raised in that chain. -/
theorem C74_reported (evs : List (Ev N)) (r : Fin N) (e : Exc) (h : ((World.start N).run evs).at_ r = .stopped (some e)) :
    (reported e = true ↔ e = .keyboard ∨ e = .error) ∧ (e = .error → .raise_ r .error ∈ evs) := by
  refine ⟨by cases e <;> simp [reported], ?_⟩
  rintro rfl
  have key : ∀ (w : World N), w.at_ r ≠ .stopped (some .error) → (w.run evs).at_ r = .stopped (some .error) → .raise_ r .error ∈ evs := by
    clear h
    intro w hw hrun
    induction evs generalizing w with
    | nil => exact absurd hrun hw
    | cons ev t ih =>
      by_cases hs : (w.step ev).at_ r = .stopped (some .error)
      · refine List.mem_cons.2 (Or.inl ?_)
        have hl : ∀ q e', (w.leave q e').at_ r = .stopped (some .error) → q = r ∧ e' = .error := by
          intro q e' hq
          simp only [World.leave] at hq
          by_cases hrq : r = q
          · subst hrq; rw [Function.update_self] at hq; cases hq; exact ⟨rfl, rfl⟩
          · rw [Function.update_of_ne hrq] at hq; exact absurd hq hw
        cases ev with
        | check q =>
          exfalso
          simp only [World.step] at hs
          split at hs
          · split at hs
            · rename_i e' hst
              obtain ⟨-, rfl⟩ := hl _ _ hs
              unfold World.status at hst
              split at hst
              · cases hst
              · split at hst
                · cases hst
                · split at hst
                  · cases hst
                  · cases hst
            · exact hw hs
          · exact hw hs
        | raise_ q e' =>
          simp only [World.step] at hs
          split at hs
          · obtain ⟨rfl, rfl⟩ := hl _ _ hs; rfl
          · exact absurd hs hw
        | finish q =>
          exfalso
          simp only [World.step] at hs
          split at hs
          · by_cases hrq : r = q
            · subst hrq; simp at hs
            · simp only [Function.update_of_ne hrq] at hs; exact hw hs
          · exact hw hs
        | deliver s d => exact absurd hs hw
        | barrier q =>
          exfalso
          simp only [World.step] at hs
          split at hs
          · by_cases hrq : r = q
            · subst hrq; simp at hs
            · simp only [Function.update_of_ne hrq] at hs; exact hw hs
          · exact hw hs
        | release c =>
          exfalso
          simp only [World.step] at hs
          split at hs
          · split at hs
            · split at hs
              · simp only [World.leave] at hs
                by_cases hrq : r = ⟨0, ‹_›⟩
                · rw [hrq, Function.update_self] at hs; cases hs
                · rw [Function.update_of_ne hrq] at hs; cases hs
              · cases hs
            · cases hs
          · exact hw hs
      · exact List.mem_cons_of_mem _ (ih (w.step ev) hs hrun)
  exact key (World.start N) (by simp [World.start]) h

/-- C74: nobody stops without a reason: in an execution without exceptions and without convergence no chain leaves early. -/
theorem C74_no_spurious (evs : List (Ev N)) (h1 : ∀ r e, .raise_ r e ∉ evs) (h2 : .release true ∉ evs) (r : Fin N) (e : Exc) :
    ((World.start N).run evs).at_ r ≠ .stopped (some e) := by
  have key : ∀ (w : World N), (∀ r e, w.at_ r ≠ .stopped (some e)) → (∀ s d, w.sent s d = none) → (∀ s d, w.arrived s d = none) →
      ∀ r e, (w.run evs).at_ r ≠ .stopped (some e) := by
    induction evs with
    | nil => intro w hw _ _; exact hw
    | cons ev t ih =>
      intro w hw hs ha
      have ih' := ih (fun r e hm => h1 r e (List.mem_cons_of_mem _ hm)) (fun hm => h2 (List.mem_cons_of_mem _ hm))
      have hq : ∀ (q : Fin N) (v : Where), (∀ e, v ≠ .stopped (some e)) → ∀ r e, Function.update w.at_ q v r ≠ .stopped (some e) := by
        intro q v hv r e
        by_cases hrq : r = q
        · subst hrq; rw [Function.update_self]; exact hv e
        · rw [Function.update_of_ne hrq]; exact hw r e
      cases ev with
      | check q =>
        have : w.step (.check q) = w := by simp [World.step, World.status, ha]
        exact ih' _ (by rw [this]; exact hw) (by rw [this]; exact hs) (by rw [this]; exact ha)
      | raise_ q e' => exact absurd List.mem_cons_self (h1 q e')
      | finish q =>
        refine ih' _ ?_ ?_ ?_ <;> simp only [World.step] <;> split
        exacts [hq q _ (by simp), hw, hs, hs, ha, ha]
      | deliver s d =>
        refine ih' _ hw hs fun s' d' => ?_
        simp only [World.step]
        split
        · exact hs s d
        · exact ha s' d'
      | barrier q =>
        refine ih' _ ?_ ?_ ?_ <;> simp only [World.step] <;> split
        exacts [hq q _ (by simp), hw, hs, hs, ha, ha]
      | release c =>
        cases c with
        | true => exact absurd List.mem_cons_self h2
        | false =>
          refine ih' _ ?_ ?_ ?_ <;> simp only [World.step] <;> split
          · intro r e; split <;> simp
          · exact hw
          · split <;> exact hs
          · exact hs
          · split <;> exact ha
          · exact ha
  exact key (World.start N) (by simp [World.start]) (by simp [World.start]) (by simp [World.start]) r e

/-- C74, with convergence tests: if one chain leaves while another one already waits at the barrier of the convergence test, the latter waits for
ever (no continuation of the execution lets it leave). -/
theorem C74_deadlock_counterexample : ∃ evs : List (Ev 2), ∀ more, ((World.start 2).run (evs ++ more)).at_ 0 = .waiting := by
  refine ⟨[.check 0, .barrier 0, .raise_ 1 .error, .deliver 1 0], fun more => ?_⟩
  have key : ∀ (w : World 2), w.at_ 0 = .waiting → w.at_ 1 = .stopped (some .error) → (w.run more).at_ 0 = .waiting := by
    induction more with
    | nil => intro w h _; exact h
    | cons ev t ih =>
      intro w h0 h1
      refine ih (w.step ev) ?_ (at_stays _ _ _ _ h1)
      have hu : ∀ (q : Fin 2) (v : Where), w.at_ q = .running → Function.update w.at_ q v 0 = .waiting := by
        intro q v hq
        rw [Function.update_of_ne]
        · exact h0
        · rintro rfl; rw [h0] at hq; cases hq
      cases ev with
      | check q =>
        simp only [World.step]
        split
        · split
          · exact hu q _ ‹_›
          · exact h0
        · exact h0
      | raise_ q e => simp only [World.step]; split; exacts [hu q _ ‹_›, h0]
      | finish q => simp only [World.step]; split; exacts [hu q _ ‹_›, h0]
      | deliver _ _ => exact h0
      | barrier q => simp only [World.step]; split; exacts [hu q _ ‹_›, h0]
      | release c =>
        simp only [World.step]
        rw [if_neg]
        · exact h0
        · intro hw; rw [hw 1] at h1; cases h1
  have e : (World.start 2).run ([.check 0, .barrier 0, .raise_ 1 .error, .deliver 1 0] ++ more) =
      ((World.start 2).run [.check 0, .barrier 0, .raise_ 1 .error, .deliver 1 0]).run more := by simp [World.run]
  rw [e]
  apply key
  · simp [World.run, World.step, World.start, World.status, World.leave]
  · simp [World.run, World.step, World.start, World.status, World.leave]

/-- three chains: Ctrl-C in one of them stops the others -/
example : ((World.start 3).run [.raise_ 1 .keyboard, .deliver 1 0, .deliver 1 2, .check 0, .check 2]).at_ 2 = .stopped (some .keyboard) := by
  simp [World.run, World.step, World.start, World.status, World.leave, tagOf]

end Verif.Solvers
