import Verif.Lemmas.Cov
/-
Properties C10–C14 of covariance matrices.
-/
namespace Verif.Cov

/-- Python's meaning of a (possibly negative) index. -/
def pyIndex (N : Nat) (i : Int) : Nat := if i < 0 then (i + N).toNat else i.toNat

/-! ### C10 -/

/-- **C10 (elements).**  For every size, every symmetric input matrix and every pair of valid Python indices, in either
order and of either sign, the object returns the input element. -/
theorem C10_elements {α : Type} (N : Nat) (m : Nat → Nat → α) (hsym : ∀ i j, i < N → j < N → m i j = m j i) (i j : Int)
    (hi : -N ≤ i ∧ i < N) (hj : -N ≤ j ∧ j < N) :
    elem N (pack N m) i j = .ok (m (pyIndex N i) (pyIndex N j)) := by
  rw [elem_wrap N _ i j hi.1 hj.1]
  have e1 : (if i < 0 then i + N else i) = ((pyIndex N i : Nat) : Int) := by unfold pyIndex; split <;> omega
  have e2 : (if j < 0 then j + N else j) = ((pyIndex N j : Nat) : Int) := by unfold pyIndex; split <;> omega
  have l1 : pyIndex N i < N := by unfold pyIndex; split <;> omega
  have l2 : pyIndex N j < N := by unfold pyIndex; split <;> omega
  rw [e1, e2, elem_pack_nat m l1 l2]
  split
  · rfl
  · rw [hsym _ _ l2 l1]

/-- **C10 (range errors).**  Any other pair of indices is an `IndexError`, whatever the contents. -/
theorem C10_out_of_range {α : Type} (N : Nat) (d : List α) (i j : Int)
    (h : ¬ ((-N ≤ i ∧ i < N) ∧ (-N ≤ j ∧ j < N))) : elem N d i j = .error .indexError :=
  elem_out N d i j (by omega)

/-- **C10 (full matrix).**  Rebuilding the full matrix from the stored upper triangle succeeds, writes every cell, and
gives back the (symmetric) input. -/
theorem C10_full_matrix {α : Type} (N : Nat) (m : Nat → Nat → α) (hsym : ∀ i j, i < N → j < N → m i j = m j i) :
    ∃ g, condensedToFull (pack N m) N = .ok g ∧ ∀ i j, i < N → j < N → g i j = some (m i j) := by
  obtain ⟨g, h1, h2⟩ := full_pack N m
  refine ⟨g, h1, fun i j hi hj => ?_⟩
  rw [h2 i j hi hj]
  split
  · rfl
  · rw [hsym j i hj hi]

/-- **C10 (storage).**  Exactly `N (N + 1) / 2` numbers are stored, and two index pairs share a cell only if they are equal
or mirrored. -/
theorem C10_storage {α : Type} (N : Nat) (m : Nat → Nat → α) :
    2 * (pack N m).length = N * (N + 1) ∧
    ∀ i j i' j' : Nat, i < N → j < N → i' < N → j' < N →
      (contracted N i j = contracted N i' j' ↔ (i = i' ∧ j = j') ∨ (i = j' ∧ j = i')) := by
  refine ⟨by unfold pack; rw [List.length_map]; exact triu_length_eq N, ?_⟩
  intro i j i' j' hi hj hi' hj'
  have key : ∀ a b : Nat, a < N → b < N → ∃ n, contracted N a b = .ok n ∧ (triu N)[n]? = some (min a b, max a b) := by
    intro a b ha hb
    rw [contracted_ok ha hb]
    refine ⟨_, rfl, ?_⟩
    by_cases h : a ≤ b
    · simp only [h, if_true, triu_get h hb]; simp [Nat.min_eq_left h, Nat.max_eq_right h]
    · have h' : b ≤ a := by omega
      simp only [h, if_false, triu_get h' ha]; simp [Nat.min_eq_right h', Nat.max_eq_left h']
  obtain ⟨n, h1, h2⟩ := key i j hi hj
  obtain ⟨n', h1', h2'⟩ := key i' j' hi' hj'
  constructor
  · intro h
    rw [h1, h1'] at h
    cases h
    rw [h2] at h2'
    simp at h2'
    omega
  · rintro (⟨rfl, rfl⟩ | ⟨rfl, rfl⟩)
    · rfl
    · rw [contracted_ok hi hj, contracted_ok hj hi]
      by_cases h : i ≤ j <;> by_cases h' : j ≤ i
      · have : i = j := by omega
        subst this; rfl
      · simp [h, h']
      · simp [h, h']
      · omega

/-- **C10 (diagonal input).**  One-dimensional input is the diagonal; every other element is zero; `diag` returns it. -/
theorem C10_diagonal_input (d : List Rat) :
    (∀ i j : Nat, i < d.length → j < d.length →
      elem d.length (pack d.length (npDiag d)) i j = .ok (if i = j then d.getD i 0 else 0)) ∧
    diag d.length (pack d.length (npDiag d)) = .ok d := by
  have h1 : ∀ i j : Nat, i < d.length → j < d.length →
      elem d.length (pack d.length (npDiag d)) i j = .ok (if i = j then d.getD i 0 else 0) := by
    intro i j hi hj
    rw [elem_pack_nat _ hi hj]
    unfold npDiag
    by_cases h : i = j
    · subst h; simp
    · have : ¬ j = i := fun e => h e.symm
      simp [h, this]
  refine ⟨h1, ?_⟩
  unfold diag
  rw [mapM_ok (g := fun i => d.getD i 0)]
  · congr 1
    apply List.ext_getElem
    · simp
    · intro i h2 h3
      simp [List.getD_eq_getElem?_getD, List.getElem?_eq_getElem h3]
  · intro i hi
    rw [h1 i i (List.mem_range.1 hi) (List.mem_range.1 hi)]; simp

/-- **C10 (blocks).**  Indexing with two index lists returns, in row-major order, exactly the elements at the pairs; if any
index is out of range it is an `IndexError`. -/
theorem C10_blocks (N : Nat) (m : Nat → Nat → Rat) (hsym : ∀ i j, i < N → j < N → m i j = m j i) (rows cols : List Int) :
    ((∀ i ∈ rows, -N ≤ i ∧ i < N) → (∀ j ∈ cols, -N ≤ j ∧ j < N) →
      getBlock N (pack N m) rows cols =
        .ok (rows.flatMap fun i => cols.map fun j => m (pyIndex N i) (pyIndex N j))) ∧
    (rows ≠ [] → cols ≠ [] → (∃ i ∈ rows ++ cols, ¬ (-N ≤ i ∧ i < N)) →
      getBlock N (pack N m) rows cols = .error .indexError) := by
  constructor
  · intro hr hc
    unfold getBlock
    rw [mapM_ok (g := fun p => m (pyIndex N p.1) (pyIndex N p.2))]
    · congr 1
      rw [List.map_flatMap]
      congr 1
      funext i
      rw [List.map_map]
      rfl
    · rintro ⟨i, j⟩ hp
      simp only [List.mem_flatMap, List.mem_map, Prod.mk.injEq] at hp
      obtain ⟨i', hi', j', hj', rfl, rfl⟩ := hp
      exact C10_elements N m hsym _ _ (hr _ hi') (hc _ hj')
  · rintro hr hc ⟨x, hx, hout⟩
    unfold getBlock
    apply mapM_error
    · rintro ⟨i, j⟩ _
      by_cases hv : (-(N : Int) ≤ i ∧ i < N) ∧ (-(N : Int) ≤ j ∧ j < N)
      · exact .inr ⟨_, C10_elements N m hsym _ _ hv.1 hv.2⟩
      · exact .inl (C10_out_of_range N _ _ _ hv)
    · obtain ⟨r, hr⟩ := List.exists_mem_of_ne_nil _ hr
      obtain ⟨c, hc⟩ := List.exists_mem_of_ne_nil _ hc
      rcases List.mem_append.1 hx with h | h
      · refine ⟨(x, c), ?_, C10_out_of_range N _ _ _ (fun hh => hout hh.1)⟩
        simp only [List.mem_flatMap, List.mem_map]
        exact ⟨x, h, c, hc, rfl⟩
      · refine ⟨(r, x), ?_, C10_out_of_range N _ _ _ (fun hh => hout hh.2)⟩
        simp only [List.mem_flatMap, List.mem_map]
        exact ⟨r, hr, x, h, rfl⟩

/-- Concrete symmetric 3×3 matrix: 1 2 3 / 2 4 5 / 3 5 6. -/
def demoM : Nat → Nat → Rat := fun i j =>
  ([[1, 2, 3], [2, 4, 5], [3, 5, 6]] : List (List Rat)).getD i [] |>.getD j 0
example : (elem 3 (pack 3 demoM) (-1) 0, elem 3 (pack 3 demoM) 1 2, elem 3 (pack 3 demoM) 3 0) =
    (.ok 3, .ok 5, .error .indexError) := by decide +kernel
example : ∀ i < 3, ∀ j < 3, demoM i j = demoM j i := by decide +kernel

/-! ### C12 -/

theorem trim_inside (c : Cov) (hwf : c.WF) (hco : c.coords1 = c.coords2) (hlex : lexsorted c.coords1 = true)
    (lo hi : Rat → Option Rat)
    (hne : c.N ≠ 0 ∧ ∀ x ∈ c.coords1, ∃ y ∈ c.coords1, y.1 = x.1 ∧ inside (lo x.1) (hi x.1) y.2 = true) :
    ∃ (c' : Cov) (kept : List Nat), c.trimK (c.stats.map lo) (c.stats.map hi) = .ok c' ∧
      kept.Pairwise (· < ·) ∧
      (∀ i, i ∈ kept ↔ ∃ x, c.coords1[i]? = some x ∧ inside (lo x.1) (hi x.1) x.2 = true) ∧
      c'.WF ∧ c'.N = kept.length ∧
      (∀ (a : Nat) (h : a < kept.length), c'.coords1[a]? = c.coords1[kept[a]]? ∧ c'.coords2[a]? = c.coords2[kept[a]]?) ∧
      (∀ (a b : Nat) (ha : a < kept.length) (hb : b < kept.length),
        elem c'.N c'.data a b = elem c.N c.data (kept[a] : Nat) (kept[b] : Nat)) := by
  have hb : ∀ f : Rat → Option Rat, broadcast c.stats.length (c.stats.map f) = .ok (c.stats.map f) := by
    intro f
    unfold broadcast
    split
    · rename_i x hx
      have hl : c.stats.length = 1 := by
        have := congrArg List.length hx
        simpa using this
      rw [hl, hx]; rfl
    · simp
  have hz : c.stats.zip ((c.stats.map lo).zip (c.stats.map hi)) = c.stats.map fun s => (s, lo s, hi s) := by
    generalize c.stats = l
    induction l with
    | nil => rfl
    | cons a l ih => simp [ih]
  have hstats : c.stats ≠ [] := by
    intro he
    have : c.coords1 ≠ [] := by
      intro e
      have := hwf.coords1
      rw [e] at this
      exact hne.1 this.symm
    obtain ⟨x, hx⟩ := List.exists_mem_of_ne_nil _ this
    have : x.1 ∈ c.stats := mem_uniq.2 (List.mem_map.2 ⟨x, hx, rfl⟩)
    rw [he] at this
    cases this
  refine ⟨construct ((c.stats.map fun s => locs c.coords1 s (lo s) (hi s)).flatten).length
      (fun a b => c.values (((c.stats.map fun s => locs c.coords1 s (lo s) (hi s)).flatten).getD a 0)
        (((c.stats.map fun s => locs c.coords1 s (lo s) (hi s)).flatten).getD b 0))
      (takeCoords c.coords1 ((c.stats.map fun s => locs c.coords1 s (lo s) (hi s)).flatten))
      (takeCoords c.coords2 ((c.stats.map fun s => locs c.coords1 s (lo s) (hi s)).flatten)),
    ((c.stats.map fun s => locs c.coords1 s (lo s) (hi s)).flatten), ?_, ?_⟩
  rotate_left
  · have hc := locs_concat hlex lo hi
    have hmem : ∀ i, i ∈ ((c.stats.map fun s => locs c.coords1 s (lo s) (hi s)).flatten) ↔
        ∃ x, c.coords1[i]? = some x ∧ inside (lo x.1) (hi x.1) x.2 = true := by
      intro i
      unfold Cov.stats
      rw [hc, List.mem_filter, List.mem_range]
      constructor
      · rintro ⟨hi, h⟩
        rw [List.getElem?_eq_getElem hi] at h ⊢
        exact ⟨_, rfl, h⟩
      · rintro ⟨x, hx, h⟩
        obtain ⟨hi, -⟩ := List.getElem?_eq_some_iff.1 hx
        exact ⟨hi, by rw [hx]; exact h⟩
    have hlt : ∀ i ∈ ((c.stats.map fun s => locs c.coords1 s (lo s) (hi s)).flatten), i < c.N := by
      intro i hi
      obtain ⟨x, hx, -⟩ := (hmem i).1 hi
      obtain ⟨hi, -⟩ := List.getElem?_eq_some_iff.1 hx
      rw [← hwf.coords1]; exact hi
    refine ⟨?_, hmem, construct_wf (c1 := takeCoords c.coords1 _) (c2 := takeCoords c.coords2 _)
      (List.length_map ..) (List.length_map ..), rfl, ?_, ?_⟩
    · unfold Cov.stats
      rw [hc]; exact List.Pairwise.filter _ List.pairwise_lt_range
    · intro a ha
      have hl := hlt _ (List.getElem_mem ha)
      constructor
      · simp only [construct, takeCoords, List.getElem?_map, List.getElem?_eq_getElem ha, Option.map_some]
        rw [List.getElem?_eq_getElem (by rw [hwf.coords1]; exact hl)]
        simp [List.getD_eq_getElem?_getD, List.getElem?_eq_getElem (show _ < c.coords1.length by rw [hwf.coords1]; exact hl)]
      · simp only [construct, takeCoords, List.getElem?_map, List.getElem?_eq_getElem ha, Option.map_some]
        rw [List.getElem?_eq_getElem (by rw [hwf.coords2]; exact hl)]
        simp [List.getD_eq_getElem?_getD, List.getElem?_eq_getElem (show _ < c.coords2.length by rw [hwf.coords2]; exact hl)]
    · intro a b ha hb
      exact take_elem hwf _ hlt _ _ ha hb
  · unfold Cov.trimK
    rw [hb lo, hb hi]
    simp only
    rw [if_neg hstats, if_neg (by rw [← hco, hlex]; simp), hz]
    simp only [List.map_map, Function.comp_def, ← hco]
    rw [if_neg, if_neg (by simp)]
    simp only [List.any_append, Bool.or_self, List.any_eq_true, List.mem_map, not_exists, not_and]
    rintro l ⟨s, hs, rfl⟩ hemp
    obtain ⟨x, hx, rfl⟩ := List.mem_map.1 (mem_uniq.1 hs)
    obtain ⟨y, hy, hyx, hin⟩ := hne.2 x hx
    obtain ⟨i, hi', rfl⟩ := List.mem_iff_getElem.1 hy
    have : i ∈ locs c.coords1 x.1 (lo x.1) (hi x.1) := mem_locs.2 ⟨_, List.getElem?_eq_getElem hi', hyx, hin⟩
    rw [List.isEmpty_iff] at hemp
    rw [hemp] at this
    cases this

/-- `k` lies within the inclusive limits (`none` = unlimited). -/
def Within (lo hi : Option Rat) (k : Rat) : Prop := (∀ l, lo = some l → l ≤ k) ∧ (∀ h, hi = some h → k ≤ h)

theorem inside_iff {lo hi : Option Rat} {k : Rat} : inside lo hi k = true ↔ Within lo hi k := by
  unfold inside Within
  cases lo <;> cases hi <;> simp

/-- **C12.**  Let the rows and columns carry the same lexicographically sorted (statistic, k) coordinates, with at least
one bin of every statistic inside its limits.  Then trimming succeeds, and there is a list `kept` of positions — exactly
the positions whose `k` lies within the inclusive limits of their statistic, in increasing order — such that the result
has the coordinates and the elements of the kept positions. -/
theorem C12_trim (c : Cov) (hwf : c.WF) (hco : c.coords1 = c.coords2) (hlex : lexsorted c.coords1 = true)
    (lo hi : Rat → Option Rat)
    (hne : c.N ≠ 0 ∧ ∀ x ∈ c.coords1, ∃ y ∈ c.coords1, y.1 = x.1 ∧ Within (lo x.1) (hi x.1) y.2) :
    ∃ (c' : Cov) (kept : List Nat), c.trimK (c.stats.map lo) (c.stats.map hi) = .ok c' ∧
      kept.Pairwise (· < ·) ∧
      (∀ i, i ∈ kept ↔ ∃ x, c.coords1[i]? = some x ∧ Within (lo x.1) (hi x.1) x.2) ∧
      c'.WF ∧ c'.N = kept.length ∧
      (∀ (a : Nat) (h : a < kept.length), c'.coords1[a]? = c.coords1[kept[a]]? ∧ c'.coords2[a]? = c.coords2[kept[a]]?) ∧
      (∀ (a b : Nat) (ha : a < kept.length) (hb : b < kept.length),
        elem c'.N c'.data a b = elem c.N c.data (kept[a] : Nat) (kept[b] : Nat)) := by
  simp only [← inside_iff] at hne ⊢
  exact trim_inside c hwf hco hlex lo hi hne

/-- A statistic without any bin inside the limits is not trimmed away: the call fails. -/
theorem C12_empty_statistic_fails (c : Cov) (hco : c.coords1 = c.coords2) (hlex : lexsorted c.coords1 = true)
    (lo hi : Rat → Option Rat) (x : Coord) (hx : x ∈ c.coords1)
    (hempty : ∀ y ∈ c.coords1, y.1 = x.1 → inside (lo x.1) (hi x.1) y.2 = false) :
    ∃ e, c.trimK (c.stats.map lo) (c.stats.map hi) = .error e := by
  have hs : x.1 ∈ c.stats := mem_uniq.2 (List.mem_map.2 ⟨x, hx, rfl⟩)
  have hstats : c.stats ≠ [] := by intro e; rw [e] at hs; cases hs
  have hb : ∀ f : Rat → Option Rat, broadcast c.stats.length (c.stats.map f) = .ok (c.stats.map f) := by
    intro f
    unfold broadcast
    split
    · rename_i x hx
      have hl : c.stats.length = 1 := by
        have := congrArg List.length hx
        simpa using this
      rw [hl, hx]; rfl
    · simp
  have hz : c.stats.zip ((c.stats.map lo).zip (c.stats.map hi)) = c.stats.map fun s => (s, lo s, hi s) := by
    generalize c.stats = l
    induction l with
    | nil => rfl
    | cons a l ih => simp [ih]
  refine ⟨.typeError, ?_⟩
  unfold Cov.trimK
  rw [hb lo, hb hi]
  simp only
  rw [if_neg hstats, if_neg (by rw [← hco, hlex]; simp), hz]
  simp only [List.map_map, Function.comp_def, ← hco]
  rw [if_pos]
  simp only [List.any_append, Bool.or_self, List.any_eq_true, List.mem_map]
  refine ⟨_, ⟨x.1, hs, rfl⟩, ?_⟩
  rw [List.isEmpty_iff, List.eq_nil_iff_forall_not_mem]
  intro i hi
  obtain ⟨y, hy, h1, h2⟩ := mem_locs.1 hi
  rw [hempty y (List.mem_of_getElem? hy) h1] at h2
  cases h2

/-- Two statistics (0 and 2) with three k-bins each. -/
def demoCoords : List Coord := [(0, 1), (0, 2), (0, 3), (2, 1), (2, 2), (2, 3)]
def demoCov : Cov := construct 6 (fun i j => (10 * min i j + max i j : Nat)) demoCoords demoCoords
/-- Keep k in [2, 3] for statistic 0 and k ≤ 2 for statistic 2. -/
example : (demoCov.trimK (demoCov.stats.map fun s => if s = 0 then some 2 else none)
    (demoCov.stats.map fun s => if s = 0 then some 3 else some 2)).map (fun c => (c.coords1, c.data)) =
    .ok ([(0, 2), (0, 3), (2, 1), (2, 2)], [11, 12, 13, 14, 22, 23, 24, 33, 34, 44]) := by decide +kernel
example : demoCov.WF ∧ demoCov.coords1 = demoCov.coords2 ∧ lexsorted demoCov.coords1 = true :=
  ⟨⟨by decide +kernel, by decide +kernel, by decide +kernel⟩, rfl, by decide +kernel⟩

/-! ### C13 -/

/-- The result of an arithmetic operator, element by element. -/
def opFun : BinOp → Rat → Rat → Rat
  | .add => (· + ·) | .sub => (· - ·) | .mul => (· * ·) | .div => (· / ·)

/-- The stored numbers of an operand (a scalar stands for itself everywhere). -/
def Operand.at (o : Operand) (n : Nat) : Rat := match o with
  | .scalar q => q
  | .cov c => c.data.getD n 0

/-- The elementwise result the expression `x op y` should have, for a left operand that is a covariance matrix. -/
def exact (op : BinOp) (c : Cov) (y : Operand) : List Rat :=
  (List.range c.data.length).map fun n => opFun op (c.data.getD n 0) (y.at n)

theorem map_range_getD (l : List Rat) (f : Rat → Rat) :
    l.map f = (List.range l.length).map fun n => f (l.getD n 0) := by
  apply List.ext_getElem
  · simp
  · intro i h1 h2
    have : i < l.length := by simpa using h1
    simp [List.getD_eq_getElem?_getD, List.getElem?_eq_getElem this]

theorem zip_range_getD (l l' : List Rat) (f : Rat → Rat → Rat) (h : l.length = l'.length) :
    List.zipWith f l l' = (List.range l.length).map fun n => f (l.getD n 0) (l'.getD n 0) := by
  apply List.ext_getElem
  · simp [h]
  · intro i h1 h2
    have h3 : i < l.length := by simp at h1; omega
    have h4 : i < l'.length := by omega
    simp [List.getD_eq_getElem?_getD, List.getElem?_eq_getElem h3, List.getElem?_eq_getElem h4]

/-- **C13 (partial).**  With the covariance matrix on the left, `+`, `-`, `/` with a scalar or an equally sized covariance
matrix, and `*` with a scalar, and with a scalar on the left for `+` and `*`: the expression succeeds and the result
stores the elementwise result — unless `numpy.allclose` deems that equal to the left operand's own numbers, in which case
the operand is returned unchanged.  Coordinates and `inverse_rescaling` are kept.
Missing: a scalar on the left of `-` and `/`, products of covariance matrices, and the `allclose` exception — all false,
see the counterexamples. -/
theorem C13_arithmetic_partial (c : Cov) (hc : c.WF) (op : BinOp) (y : Operand)
    (hy : match y with | .scalar _ => True | .cov d => d.WF ∧ d.N = c.N ∧ op ≠ .mul) :
    (∃ r, pyBin op (.cov c) y = .ok r ∧
      r = { c with data := if Cache.objEq (.array (exact op c y)) (.array c.data) then c.data else exact op c y }) ∧
    (∀ q, y = .scalar q → op = .add ∨ op = .mul → pyBin op y (.cov c) = pyBin op (.cov c) y) := by
  have hset : ∀ l, c.setData l =
      { c with data := if Cache.objEq (.array l) (.array c.data) then c.data else l } := by
    intro l; unfold Cov.setData; split <;> rfl
  constructor
  · cases y with
    | scalar q =>
      cases op <;> (refine ⟨_, rfl, ?_⟩; rw [hset, map_range_getD]; rfl)
    | cov d =>
      obtain ⟨hd, hN, hop⟩ := hy
      have hl : c.data.length = d.data.length := by rw [hc.data, hd.data, hN]
      cases op with
      | mul => exact absurd rfl hop
      | add => refine ⟨_, by simp only [pyBin, Cov.add, hN, if_true]; rfl, ?_⟩; rw [hset, zip_range_getD _ _ _ hl]; rfl
      | sub => refine ⟨_, by simp only [pyBin, Cov.sub, hN, if_true]; rfl, ?_⟩; rw [hset, zip_range_getD _ _ _ hl]; rfl
      | div => refine ⟨_, by simp only [pyBin, Cov.div, hN, if_true]; rfl, ?_⟩; rw [hset, zip_range_getD _ _ _ hl]; rfl
  · rintro q rfl (rfl | rfl) <;> rfl

/-- A 1×1 covariance matrix holding `x`. -/
def one (x : Rat) : Cov := construct 1 (fun _ _ => x) [(0, 0)] [(0, 0)]

/-- **C13 fails**: `5 - C` is computed as `C - 5`. -/
theorem C13_rsub_counterexample : (pyBin .sub (.scalar 5) (.cov (one 2))).map (·.data) = .ok [-3] := by decide +kernel
/-- **C13 fails**: `C * C` raises. -/
theorem C13_product_counterexample : (pyBin .mul (.cov (one 2)) (.cov (one 2))).map (·.data) = .error .attributeError := by
  decide +kernel
/-- **C13 fails**: multiplying a covariance matrix whose elements are small (here 10⁻⁹) by 2 changes nothing, because the
new numbers are `allclose` to the old ones. -/
theorem C13_small_elements_counterexample :
    pyBin .mul (.cov (one (1 / 1000000000))) (.scalar 2) = .ok (one (1 / 1000000000)) := by decide +kernel

example : (pyBin .div (.cov demoCov) (.scalar 2)).map (fun c => c.data.take 3) = .ok [0, 1 / 2, 1] := by decide +kernel

/-! ### C14 -/

/-- **C14 (partial).**  Selecting positions `rows` on the first and `cols` on the second axis (non-empty, valid,
non-negative): let `I`, `J` be the requested positions in increasing order without repetition.  If `I` and `J` have different
lengths the plain block `C[I, J]` is returned; if `I = J`, a covariance object that reads `C[I, I]` with the coordinates of
the selected positions.
Missing: `I ≠ J` of equal length (`C14_offdiagonal_counterexample`), and the requested order
(`C14_order_counterexample`). -/
theorem C14_select_partial (c : Cov) (hwf : c.WF) (rows cols : List Nat) (hr : rows ≠ [])
    (hc : cols ≠ []) (hrv : ∀ i ∈ rows, i < c.N) (hcv : ∀ i ∈ cols, i < c.N) :
    ∃ I J : List Nat, I.Pairwise (· < ·) ∧ J.Pairwise (· < ·) ∧ (∀ i, i ∈ I ↔ i ∈ rows) ∧ (∀ j, j ∈ J ↔ j ∈ cols) ∧
      (I.length ≠ J.length → ∃ m, c.isel (some [rows.map Int.ofNat]) (some [cols.map Int.ofNat]) =
          .ok (.array I.length J.length m) ∧
        ∀ a b (ha : a < I.length) (hb : b < J.length), elem c.N c.data (I[a] : Nat) (J[b] : Nat) = .ok (m a b)) ∧
      (I = J → ∃ r, c.isel (some [rows.map Int.ofNat]) (some [cols.map Int.ofNat]) = .ok (.cov r) ∧
        r.WF ∧ r.N = I.length ∧
        (∀ a (h : a < I.length), r.coords1[a]? = c.coords1[I[a]]? ∧ r.coords2[a]? = c.coords2[I[a]]?) ∧
        ∀ a b (ha : a < I.length) (hb : b < I.length),
          elem r.N r.data a b = elem c.N c.data (I[a] : Nat) (I[b] : Nat)) := by
  have key : ∀ l : List Nat, l ≠ [] → (∀ i ∈ l, i < c.N) → ∃ L : List Nat, L.Pairwise (· < ·) ∧ (∀ i, i ∈ L ↔ i ∈ l) ∧
      axisKey [l.map Int.ofNat] = .ok (L.map Int.ofNat) ∧ takeIdx c.N (L.map Int.ofNat) = .ok L := by
    intro l hl hv
    have hpos : ∀ x ∈ sortedSet (l.map Int.ofNat), 0 ≤ x ∧ x < c.N := by
      intro x hx
      obtain ⟨n, hn, rfl⟩ := List.mem_map.1 (mem_sortedSet.1 hx)
      have := hv n hn
      simp only [Int.ofNat_eq_natCast]
      omega
    refine ⟨(sortedSet (l.map Int.ofNat)).map Int.toNat, ?_, ?_, ?_, ?_⟩
    · rw [List.pairwise_map]
      refine (List.Pairwise.imp_of_mem ?_ (sortedSet_pairwise (l.map Int.ofNat)))
      intro a b ha hb hab
      have := hpos a ha
      omega
    · intro i
      rw [List.mem_map]
      constructor
      · rintro ⟨x, hx, rfl⟩
        obtain ⟨n, hn, rfl⟩ := List.mem_map.1 (mem_sortedSet.1 hx)
        simpa using hn
      · intro hi
        exact ⟨Int.ofNat i, mem_sortedSet.2 (List.mem_map.2 ⟨i, hi, rfl⟩), rfl⟩
    · unfold axisKey
      have : (List.filter (fun x => ([] : List (List Int)).all fun l => l.contains x) (l.map Int.ofNat)) = l.map Int.ofNat := by
        apply List.filter_eq_self.2; intros; rfl
      simp only [this]
      rw [if_neg (by simp)]
      congr 1
      rw [List.map_map]
      symm
      conv => rhs; rw [← List.map_id (sortedSet (l.map Int.ofNat))]
      apply List.map_congr_left
      intro x hx
      have := hpos x hx
      simp only [Function.comp, id, Int.ofNat_eq_natCast]
      omega
    · unfold takeIdx
      rw [if_neg]
      · rw [mapM_ok (g := Int.toNat)]
        · rw [List.map_map]
          congr 1
          conv => rhs; rw [← List.map_id (List.map Int.toNat (sortedSet (l.map Int.ofNat)))]
          apply List.map_congr_left
          intro x _
          simp
        · intro x hx
          rw [List.map_map, List.mem_map] at hx
          obtain ⟨y, hy, rfl⟩ := hx
          have := hpos y hy
          simp only [Function.comp, Int.ofNat_eq_natCast]
          rw [if_pos (by omega), if_neg (by omega)]
      · obtain ⟨n, hn⟩ := List.exists_mem_of_ne_nil _ hl
        intro he
        have : Int.ofNat n ∈ sortedSet (l.map Int.ofNat) := mem_sortedSet.2 (List.mem_map.2 ⟨n, hn, rfl⟩)
        rw [List.map_eq_nil_iff, List.map_eq_nil_iff] at he
        rw [he] at this
        cases this
  obtain ⟨I, hI1, hI2, hI3, hI4⟩ := key rows hr hrv
  obtain ⟨J, hJ1, hJ2, hJ3, hJ4⟩ := key cols hc hcv
  have hIlt : ∀ i ∈ I, i < c.N := fun i hi => hrv i ((hI2 i).1 hi)
  have hJlt : ∀ i ∈ J, i < c.N := fun i hi => hcv i ((hJ2 i).1 hi)
  refine ⟨I, J, hI1, hJ1, hI2, hJ2, ?_, ?_⟩
  · intro hne
    refine ⟨fun a b => c.values (I.getD a 0) (J.getD b 0), ?_, ?_⟩
    · simp only [Cov.isel, hI3, hI4, hJ3, hJ4]
      rw [if_neg hne]
    · intro a b ha hb
      rw [(elem_values hwf (hIlt _ (List.getElem_mem ha)) (hJlt _ (List.getElem_mem hb))).1]
      simp [List.getD_eq_getElem?_getD, List.getElem?_eq_getElem ha, List.getElem?_eq_getElem hb]
  · rintro rfl
    refine ⟨construct I.length (fun a b => c.values (I.getD a 0) (I.getD b 0)) (takeCoords c.coords1 I)
      (takeCoords c.coords2 I), ?_, construct_wf (by simp [takeCoords]) (by simp [takeCoords]), rfl, ?_, ?_⟩
    · simp only [Cov.isel, hI3, hI4, hJ3]
      simp
    · intro a ha
      have hl := hIlt _ (List.getElem_mem ha)
      constructor
      · simp only [construct, takeCoords, List.getElem?_map, List.getElem?_eq_getElem ha, Option.map_some]
        rw [List.getElem?_eq_getElem (by rw [hwf.coords1]; exact hl)]
        simp [List.getD_eq_getElem?_getD, List.getElem?_eq_getElem (show _ < c.coords1.length by rw [hwf.coords1]; exact hl)]
      · simp only [construct, takeCoords, List.getElem?_map, List.getElem?_eq_getElem ha, Option.map_some]
        rw [List.getElem?_eq_getElem (by rw [hwf.coords2]; exact hl)]
        simp [List.getD_eq_getElem?_getD, List.getElem?_eq_getElem (show _ < c.coords2.length by rw [hwf.coords2]; exact hl)]
    · intro a b ha hb
      exact take_elem hwf I hIlt _ _ ha hb

/-- What a selection reads at position (a, b). -/
def Selected.read : Selected → Nat → Nat → Option Rat
  | .cov c, a, b => (elem c.N c.data a b).toOption
  | .array r s m, a, b => if a < r ∧ b < s then some (m a b) else none

/-- **C14 fails** for a square off-diagonal block: the block of rows 0,1 and columns 2,3 has C[1,2] = 12 at (1,0), but the
object returned reads C[0,3] = 3 there. -/
theorem C14_offdiagonal_counterexample :
    (demoCov.isel (some [[0, 1]]) (some [[2, 3]])).map (fun s => s.read 1 0) = .ok (some 3) ∧
      elem demoCov.N demoCov.data 1 2 = .ok 12 := by decide +kernel

/-- **C14 fails** to keep the requested order: asking for rows 2, 0 returns rows 0, 2. -/
theorem C14_order_counterexample :
    (demoCov.isel (some [[2, 0]]) (some [[0]])).map (fun s => (s.read 0 0, s.read 1 0)) = .ok (some 0, some 2) := by
  decide +kernel

example : (demoCov.isel (some [[3, 1, 5]]) (some [[1, 3, 5]])).map (fun s => (s.read 0 1, s.read 2 1)) =
    .ok (some 13, some 35) := by decide +kernel

end Verif.Cov
