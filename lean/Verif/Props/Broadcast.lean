/-
C113: the table returned by a callable of `(k, mu)` has, at each label, the value of the model at that label.
-/
import Verif.Model.Broadcast
import Verif.Props.Quad

namespace Verif.Bcast

noncomputable section

/-- The one-dimensional array with the given entries. -/
def vec (n : ℕ) (f : ℕ → ℝ) : Inp := .arr ⟨[n], fun idx => f idx.head!⟩

/-- The two-dimensional array with the given entries. -/
def mat (n m : ℕ) (f : ℕ → ℕ → ℝ) : Inp := .arr ⟨[n, m], fun idx => f idx.head! idx.tail.head!⟩

/-- Specification: `D` is the list of `n` values of `g` at the points `(K i, M i)`, each labelled by its point. -/
structure IsList (D : DataArray) (g : ℝ → ℝ → ℝ) (n : ℕ) (K M : ℕ → ℝ) : Prop where
  shape : D.vals.shape = [n]
  kshape : D.kc.shape = [n]
  mushape : D.muc.shape = [n]
  klabel : ∀ i < n, D.kc.at' [i] = K i
  mulabel : ∀ i < n, D.muc.at' [i] = M i
  value : ∀ i < n, D.vals.at' [i] = g (K i) (M i)

/-- Specification: `D` is the `n` by `m` table of the values of `g` at the points `(K i, M j)`, with rows labelled by `K i` and columns by
`M j`. -/
structure IsTable (D : DataArray) (g : ℝ → ℝ → ℝ) (n m : ℕ) (K M : ℕ → ℝ) : Prop where
  shape : D.vals.shape = [n, m]
  kshape : D.kc.shape = [n]
  mushape : D.muc.shape = [m]
  klabel : ∀ i < n, D.kc.at' [i] = K i
  mulabel : ∀ j < m, D.muc.at' [j] = M j
  value : ∀ i < n, ∀ j < m, D.vals.at' [i, j] = g (K i) (M j)

theorem broadcast_grid (n m : ℕ) (h : n ≠ m) (K M : ℕ → ℝ) :
    ∃ a b : Arr, broadcast (vec n K) (vec m M) = .ok (a, b) ∧ a.shape = [n, m] ∧ b.shape = [n, m] ∧
      (∀ i < n, ∀ j < m, a.at' [i, j] = K i) ∧ (∀ i < n, ∀ j < m, b.at' [i, j] = M j) := by
  have hs : bshape [n, 1] [1, m] = some [n, m] := by
    simp only [bshape, bshapeRev, List.reverse_cons, List.reverse_nil, List.nil_append, List.cons_append]
    by_cases h1 : n = 1 <;> by_cases h2 : m = 1 <;> simp_all [eq_comm]
  refine ⟨broadcastTo ⟨[n, 1], fun idx => K idx.dropLast.head!⟩ [n, m], broadcastTo ⟨[1, m], fun idx => M idx.tail.head!⟩ [n, m], ?_, rfl, rfl, ?_, ?_⟩
  · simp [broadcast, vec, Inp.toArr, addLast, addFirst, Ne.symm h, hs, bind, Except.bind, pure, Except.pure]
  · intro i hi j hj
    by_cases h1 : n = 1
    · have : i = 0 := by omega
      simp [broadcastTo, h1, this]
    · simp [broadcastTo, h1]
  · intro i hi j hj
    by_cases h1 : m = 1
    · have : j = 0 := by omega
      simp [broadcastTo, h1, this]
    · simp [broadcastTo, h1]

theorem broadcast_pair (n : ℕ) (K M : ℕ → ℝ) :
    ∃ a b : Arr, broadcast (vec n K) (vec n M) = .ok (a, b) ∧ a.shape = [n] ∧ b.shape = [n] ∧
      (∀ i < n, a.at' [i] = K i) ∧ (∀ i < n, b.at' [i] = M i) := by
  have hs : bshape [n] [n] = some [n] := by simp [bshape, bshapeRev]
  refine ⟨broadcastTo ⟨[n], fun idx => K idx.head!⟩ [n], broadcastTo ⟨[n], fun idx => M idx.head!⟩ [n], ?_, rfl, rfl, ?_, ?_⟩
  · simp [broadcast, vec, Inp.toArr, hs, bind, Except.bind, pure, Except.pure]
  all_goals
    intro i hi
    by_cases h1 : n = 1
    · have : i = 0 := by omega
      simp [broadcastTo, h1, this]
    · simp [broadcastTo, h1]

/-- C113: with as many `k` as `mu`, the points are paired: the model at `(k_i, mu_i)`, flattened or not. -/
theorem C113_paired (g : ℝ → ℝ → ℝ) (n : ℕ) (K M : ℕ → ℝ) (flatten : Bool) :
    ∃ D, power g (vec n K) (vec n M) flatten = .ok D ∧ IsList D g n K M := by
  obtain ⟨a, b, hb, ha, hb', hK, hM⟩ := broadcast_pair n K M
  rcases a with ⟨as, av⟩
  rcases b with ⟨bs, bv⟩
  simp only at ha hb' hK hM
  subst ha hb'
  have key : ∀ i, i < n → i % n = i := fun i hi => Nat.mod_eq_of_lt hi
  by_cases h1 : n = 1
  · subst h1
    cases flatten <;>
    · simp only [power, wrapper, hb, bind, Except.bind, pointwise, returnXarray, squeeze, atleast1d, ravelF]
      simp
      constructor <;> simp_all [unsq, unravelF, Nat.mod_one]
  · cases flatten <;>
    · simp only [power, wrapper, hb, bind, Except.bind, pointwise, returnXarray, squeeze, atleast1d, ravelF]
      simp [h1]
      constructor <;> simp_all [unsq, unravelF]

/-- C113: with different numbers of `k` and `mu`, both at least two, the table of the model. -/
theorem C113_grid (g : ℝ → ℝ → ℝ) (n m : ℕ) (h : n ≠ m) (hn : 2 ≤ n) (hm : 2 ≤ m) (K M : ℕ → ℝ) :
    ∃ D, power g (vec n K) (vec m M) false = .ok D ∧ IsTable D g n m K M := by
  obtain ⟨a, b, hb, ha, hb', hK, hM⟩ := broadcast_grid n m h K M
  rcases a with ⟨as, av⟩
  rcases b with ⟨bs, bv⟩
  simp only at ha hb' hK hM
  subst ha hb'
  have h1 : n ≠ 1 := by omega
  have h2 : m ≠ 1 := by omega
  have h3 : n ≠ 0 := by omega
  have h4 : m ≠ 0 := by omega
  simp only [power, wrapper, hb, bind, Except.bind, pointwise, returnXarray, squeeze, atleast1d]
  simp [h1, h2, h3, h4]
  constructor
  case klabel => intro i hi; simpa using hK i hi 0 (by omega)
  case mulabel => intro i hi; simpa using hM 0 (by omega) i hi
  case value => intro i hi j hj; simp [unsq, h1, h2, hK i hi j hj, hM i hi j hj]
  all_goals simp

/-- C113: flattened, any different numbers of `k` and `mu`: entry `i + n j` is the model at `(k_i, mu_j)`, so labelled. -/
theorem C113_flat (g : ℝ → ℝ → ℝ) (n m : ℕ) (h : n ≠ m) (K M : ℕ → ℝ) :
    ∃ D, power g (vec n K) (vec m M) true = .ok D ∧
      IsList D g (n * m) (fun l => K (l % n)) (fun l => M (l / n)) := by
  obtain ⟨a, b, hb, ha, hb', hK, hM⟩ := broadcast_grid n m h K M
  rcases a with ⟨as, av⟩
  rcases b with ⟨bs, bv⟩
  simp only at ha hb' hK hM
  subst ha hb'
  have key : ∀ l, l < n * m → l % n < n ∧ l / n < m := by
    intro l hl
    have hn : 0 < n := by
      rcases Nat.eq_zero_or_pos n with h0 | h0
      · subst h0; simp at hl
      · exact h0
    exact ⟨Nat.mod_lt _ hn, Nat.div_lt_of_lt_mul hl⟩
  have hK' : ∀ l < n * m, av [l % n, l / n % m] = K (l % n) := by
    intro l hl
    rw [Nat.mod_eq_of_lt (key l hl).2]
    exact hK _ (key l hl).1 _ (key l hl).2
  have hM' : ∀ l < n * m, bv [l % n, l / n % m] = M (l / n) := by
    intro l hl
    rw [Nat.mod_eq_of_lt (key l hl).2]
    exact hM _ (key l hl).1 _ (key l hl).2
  have h1 : ¬ (n = 1 ∧ m = 1) := fun hx => h (hx.1.trans hx.2.symm)
  simp only [power, wrapper, hb, bind, Except.bind, pointwise, returnXarray, squeeze, atleast1d, ravelF]
  simp [h1]
  constructor
  case value => intro l hl; simp [unsq, h1, unravelF, hK' l hl, hM' l hl]
  all_goals simp_all [unsq, unravelF]

/-- C113 fails: one `mu` with several `k`, or one `k` with several `mu` (or none of one), is refused unless flattened. -/
theorem C113_single_counterexample (g : ℝ → ℝ → ℝ) (n m : ℕ) (h : n ≠ m) (h' : n < 2 ∨ m < 2) (K M : ℕ → ℝ) :
    ∃ e, power g (vec n K) (vec m M) false = .error e := by
  obtain ⟨a, b, hb, ha, hb', hK, hM⟩ := broadcast_grid n m h K M
  rcases a with ⟨as, av⟩
  rcases b with ⟨bs, bv⟩
  simp only at ha hb' hK hM
  subst ha hb'
  simp only [power, wrapper, hb, bind, Except.bind, pointwise, returnXarray, squeeze, atleast1d]
  by_cases h1 : n = 1
  · have h2 : m ≠ 1 := fun h2 => h (h1.trans h2.symm)
    simp [h1, h2]
  · by_cases h2 : m = 1
    · simp [h1, h2]
    · rcases h' with h' | h'
      · have : n = 0 := by omega
        simp [h2, this]
      · have : m = 0 := by omega
        simp [h1, this]

/-- C113, one-dimensional arguments: the call returns exactly if the numbers agree or both are at least two. -/
theorem C113_returns_iff (g : ℝ → ℝ → ℝ) (n m : ℕ) (K M : ℕ → ℝ) :
    (∃ D, power g (vec n K) (vec m M) false = .ok D) ↔ n = m ∨ (2 ≤ n ∧ 2 ≤ m) := by
  constructor
  · rintro ⟨D, hD⟩
    by_contra hc
    push Not at hc
    obtain ⟨e, he⟩ := C113_single_counterexample g n m hc.1 (by by_contra hx; push Not at hx; have := hc.2 hx.1; omega) K M
    rw [he] at hD
    cases hD
  · intro h
    by_cases hnm : n = m
    · subst hnm
      obtain ⟨D, hD, _⟩ := C113_paired g n K M false
      exact ⟨D, hD⟩
    · obtain ⟨hn, hm⟩ := h.resolve_left hnm
      obtain ⟨D, hD, _⟩ := C113_grid g n m hnm hn hm K M
      exact ⟨D, hD⟩

/-- A number is an array of length one: `power(k, mu)` with `mu` a number, as documented, is refused for two or more `k`. -/
theorem C113_scalar_counterexample (g : ℝ → ℝ → ℝ) (n : ℕ) (hn : 2 ≤ n) (K : ℕ → ℝ) (mu : ℝ) :
    (∃ e, power g (vec n K) (.num mu) false = .error e) ∧ ∃ e, power g (.num mu) (vec n K) false = .error e := by
  have h1 : power g (vec n K) (.num mu) false = power g (vec n K) (vec 1 fun _ => mu) false := rfl
  have h2 : power g (.num mu) (vec n K) false = power g (vec 1 fun _ => mu) (vec n K) false := rfl
  rw [h1, h2]
  exact ⟨C113_single_counterexample g n 1 (by omega) (by omega) _ _, C113_single_counterexample g 1 n (by omega) (by omega) _ _⟩

/-- Two numbers: the value at the point, as a list of length one. -/
theorem C113_point (g : ℝ → ℝ → ℝ) (k mu : ℝ) (flatten : Bool) :
    ∃ D, power g (.num k) (.num mu) flatten = .ok D ∧ IsList D g 1 (fun _ => k) (fun _ => mu) :=
  C113_paired g 1 (fun _ => k) (fun _ => mu) flatten

/-! ### Arguments of any shape -/

theorem bshapeRev_length : ∀ s t r : List ℕ, bshapeRev s t = some r → r.length = max s.length t.length
  | [], t, r, h => by simp only [bshapeRev, Option.some.injEq] at h; subst h; simp
  | a :: s, [], r, h => by simp only [bshapeRev, Option.some.injEq] at h; subst h; simp
  | a :: s, b :: t, r, h => by
    simp only [bshapeRev] at h
    split at h
    · cases h
    · rename_i r' hr'
      have ih := bshapeRev_length s t r' hr'
      split_ifs at h <;> (simp only [Option.some.injEq] at h; subst h; simp only [List.length_cons]; omega)

theorem bshape_length {s t r : List ℕ} (h : bshape s t = some r) : r.length = max s.length t.length := by
  simp only [bshape, Option.map_eq_some_iff] at h
  obtain ⟨r', h', rfl⟩ := h
  have := bshapeRev_length _ _ _ h'
  simpa using this

theorem broadcast_inv {k mu : Inp} {a b : Arr} (h : broadcast k mu = .ok (a, b)) :
    ∃ (k' mu' : Arr) (s : List ℕ), bshape k'.shape mu'.shape = some s ∧ s.length ≤ 2 ∧ a = broadcastTo k' s ∧ b = broadcastTo mu' s ∧
      ((k' = k.toArr ∧ (k.toArr.shape.length = 1 → mu'.shape.length ≤ 1)) ∨ addLast k.toArr = .ok k') ∧
      ((mu' = mu.toArr ∧ (mu.toArr.shape.length = 1 → k'.shape.length ≤ 1)) ∨ addFirst mu.toArr = .ok mu') := by
  have fin : ∀ {k' mu' : Arr}, (match bshape k'.shape mu'.shape with
      | none => Except.error Err.value
      | some s => if 2 < s.length then Except.error Err.value else Except.ok (broadcastTo k' s, broadcastTo mu' s)) = Except.ok (a, b) →
      ∃ s, bshape k'.shape mu'.shape = some s ∧ s.length ≤ 2 ∧ a = broadcastTo k' s ∧ b = broadcastTo mu' s := by
    intro k' mu' h
    split at h
    · cases h
    · rename_i s hs
      split_ifs at h with hl
      simp only [Except.ok.injEq, Prod.mk.injEq] at h
      exact ⟨s, hs, by omega, h.1.symm, h.2.symm⟩
  simp only [broadcast, bind, Except.bind, pure, Except.pure] at h
  by_cases c1 : mu.toArr.shape.length = 1 ∧ k.toArr.shape.length = 1
  · by_cases c2 : mu.toArr.shape ≠ k.toArr.shape
    · cases hk : addLast k.toArr with
      | error e => simp [c1, c2, hk] at h
      | ok k' =>
        cases hmu : addFirst mu.toArr with
        | error e => simp [c1, c2, hk, hmu] at h
        | ok mu' =>
          simp only [c1, c2, hk, hmu, and_self, if_true, ne_eq, not_false_eq_true] at h
          obtain ⟨s, h1, h2, h3, h4⟩ := fin h
          exact ⟨k', mu', s, h1, h2, h3, h4, Or.inr rfl, Or.inr rfl⟩
    · simp only [c1, c2, and_self, if_true, if_false] at h
      obtain ⟨s, h1, h2, h3, h4⟩ := fin h
      exact ⟨_, _, s, h1, h2, h3, h4, Or.inl ⟨rfl, fun _ => c1.1.le⟩, Or.inl ⟨rfl, fun _ => c1.2.le⟩⟩
  · by_cases c2 : 1 < k.toArr.shape.length ∧ mu.toArr.shape.length < 2
    · cases hmu : addFirst mu.toArr with
      | error e => simp [c1, c2, hmu] at h
      | ok mu' =>
        simp only [c1, c2, hmu, and_self, if_true, if_false] at h
        obtain ⟨s, h1, h2, h3, h4⟩ := fin h
        exact ⟨_, mu', s, h1, h2, h3, h4, Or.inl ⟨rfl, fun h => by omega⟩, Or.inr rfl⟩
    · by_cases c3 : 1 < mu.toArr.shape.length ∧ k.toArr.shape.length < 2
      · cases hk : addLast k.toArr with
        | error e => simp only [c1, c2, c3, hk, and_self, if_true, if_false, reduceCtorEq] at h
        | ok k' =>
          simp only [c1, c2, c3, hk, and_self, if_true, if_false] at h
          obtain ⟨s, h1, h2, h3, h4⟩ := fin h
          exact ⟨k', _, s, h1, h2, h3, h4, Or.inr rfl, Or.inl ⟨rfl, fun h => by omega⟩⟩
      · simp only [c1, c2, c3, if_false] at h
        obtain ⟨s, h1, h2, h3, h4⟩ := fin h
        exact ⟨_, _, s, h1, h2, h3, h4, Or.inl ⟨rfl, fun h => by omega⟩, Or.inl ⟨rfl, fun h => by omega⟩⟩

theorem broadcast_shapes {k mu : Inp} {a b : Arr} (h : broadcast k mu = .ok (a, b)) : a.shape = b.shape ∧ a.shape.length ≤ 2 := by
  obtain ⟨k', mu', s, -, hs, rfl, rfl, -⟩ := broadcast_inv h
  exact ⟨rfl, hs⟩

/-- What the labels of a two-dimensional argument rest on: the values of `k` depend on the row only. -/
def RowsOnly (k : Inp) : Prop := 2 ≤ k.toArr.shape.length → ∀ i j, k.toArr.at' [i, j] = k.toArr.at' [i, 0]

/-- The values of `mu` depend on the column only. -/
def ColumnsOnly (mu : Inp) : Prop := 2 ≤ mu.toArr.shape.length → ∀ i j, mu.toArr.at' [i, j] = mu.toArr.at' [0, j]

theorem broadcast_rows {k mu : Inp} {a b : Arr} (h : broadcast k mu = .ok (a, b)) (h2 : a.shape.length = 2) (hk : RowsOnly k) :
    ∀ i j, a.at' [i, j] = a.at' [i, 0] := by
  obtain ⟨k', mu', s, hs, -, rfl, rfl, hk', -⟩ := broadcast_inv h
  have hl := bshape_length hs
  simp only [broadcastTo] at h2
  intro i j
  rcases hk' with ⟨rfl, hc⟩ | hk'
  · rw [RowsOnly] at hk
    generalize k.toArr = ka at hk hc hl hs h2
    rcases ka with ⟨_ | ⟨d, _ | ⟨e, _ | ⟨f, t⟩⟩⟩, v⟩
    · simp [broadcastTo]
    · simp only [List.length_cons, List.length_nil] at hl hc
      have := hc trivial
      omega
    · simp only [List.length_cons, List.length_nil] at hk
      have hk := hk (by omega)
      by_cases he : e = 1 <;> simp [broadcastTo, h2, he, hk _ j]
    · simp only [List.length_cons] at hl
      omega
  · rw [addLast] at hk'
    split_ifs at hk'
    simp only [Except.ok.injEq] at hk'
    subst hk'
    generalize k.toArr = ka at *
    rcases ka with ⟨_ | ⟨d, _ | ⟨e, t⟩⟩, v⟩
    · simp at *
    · simp [broadcastTo, h2]
    · simp only [List.length_cons, List.length_append] at hl
      omega

theorem broadcast_columns {k mu : Inp} {a b : Arr} (h : broadcast k mu = .ok (a, b)) (h2 : a.shape.length = 2) (hmu : ColumnsOnly mu) :
    ∀ i j, b.at' [i, j] = b.at' [0, j] := by
  obtain ⟨k', mu', s, hs, -, rfl, rfl, -, hmu'⟩ := broadcast_inv h
  have hl := bshape_length hs
  simp only [broadcastTo] at h2
  intro i j
  rcases hmu' with ⟨rfl, hc⟩ | hmu'
  · rw [ColumnsOnly] at hmu
    generalize mu.toArr = ka at hmu hc hl hs h2
    rcases ka with ⟨_ | ⟨d, _ | ⟨e, _ | ⟨f, t⟩⟩⟩, v⟩
    · simp [broadcastTo]
    · simp only [List.length_cons, List.length_nil] at hl hc
      have := hc trivial
      omega
    · simp only [List.length_cons, List.length_nil] at hmu
      have hmu := hmu (by omega)
      by_cases he : d = 1
      · simp [broadcastTo, h2, he]
      · simpa [broadcastTo, h2, he] using hmu i _
    · simp only [List.length_cons] at hl
      omega
  · rw [addFirst] at hmu'
    split_ifs at hmu'
    simp only [Except.ok.injEq] at hmu'
    subst hmu'
    generalize mu.toArr = ka at *
    rcases ka with ⟨_ | ⟨d, _ | ⟨e, t⟩⟩, v⟩
    · simp at *
    · simp [broadcastTo, h2]
    · simp only [List.length_cons] at hl
      omega

/-- What any call returns: a list with each value at its label, or a table whose value in row `i` and column `j` is the model at the broadcast
`(k[i,j], mu[i,j])`, with labels `k[i,0]`, `mu[0,j]`. -/
theorem power_inv (g : ℝ → ℝ → ℝ) (k mu : Inp) (flatten : Bool) (D : DataArray) (h : power g k mu flatten = .ok D) :
    (∃ n, IsList D g n (fun i => D.kc.at' [i]) (fun i => D.muc.at' [i])) ∨
    ∃ (a b : Arr) (n m : ℕ), broadcast k mu = .ok (a, b) ∧ a.shape = [n, m] ∧ flatten = false ∧ D.vals.shape = [n, m] ∧ D.kc.shape = [n] ∧ D.muc.shape = [m] ∧
      (∀ i j, D.vals.at' [i, j] = g (a.at' [i, j]) (b.at' [i, j])) ∧ (∀ i, D.kc.at' [i] = a.at' [i, 0]) ∧ ∀ j, D.muc.at' [j] = b.at' [0, j] := by
  rw [power, wrapper] at h
  cases hb : broadcast k mu with
  | error e => simp [hb, bind, Except.bind] at h
  | ok ab =>
    obtain ⟨a, b⟩ := ab
    obtain ⟨hs, hl⟩ := broadcast_shapes hb
    rcases a with ⟨s, av⟩
    rcases b with ⟨s', bv⟩
    simp only at hs hl
    subst hs
    simp only [hb, bind, Except.bind, pointwise] at h
    cases flatten
    · rcases s with _ | ⟨n, _ | ⟨m, _ | ⟨f, t⟩⟩⟩
      · simp [returnXarray, squeeze, atleast1d] at h
      · left
        by_cases h1 : n = 1
        · subst h1
          simp [returnXarray, squeeze, atleast1d] at h
          subst h
          refine ⟨1, ?_⟩
          constructor <;> simp [unsq]
        · simp [returnXarray, squeeze, atleast1d, h1] at h
          subst h
          refine ⟨n, ?_⟩
          constructor <;> simp [unsq, h1]
      · by_cases h1 : n = 1
        · by_cases h2 : m = 1 <;> simp [returnXarray, squeeze, atleast1d, h1, h2] at h
        · by_cases h2 : m = 1
          · simp [returnXarray, squeeze, atleast1d, h1, h2] at h
          · right
            by_cases h3 : n = 0
            · simp [returnXarray, squeeze, atleast1d, h2, h3] at h
            · by_cases h4 : m = 0
              · simp [returnXarray, squeeze, atleast1d, h1, h4] at h
              · simp [returnXarray, squeeze, atleast1d, h1, h2, h3, h4] at h
                subst h
                refine ⟨_, _, n, m, rfl, rfl, rfl, rfl, rfl, rfl, ?_, ?_, ?_⟩ <;> simp [unsq, h1, h2]
      · simp only [List.length_cons] at hl
        omega
    · left
      have hsq : ∀ P : Arr, atleast1d (squeeze (ravelF P)) = ⟨[P.shape.prod], fun idx => if P.shape.prod = 1 then P.at' (unravelF P.shape 0) else P.at' (unravelF P.shape idx.head!)⟩ := by
        intro P
        by_cases h1 : P.shape.prod = 1
        · simp [atleast1d, squeeze, ravelF, h1, unsq]
        · simp [atleast1d, squeeze, ravelF, h1, unsq]
      simp only [returnXarray, if_true, hsq] at h
      simp [ravelF] at h
      subst h
      refine ⟨s.prod, ?_⟩
      constructor
      case value =>
        intro i hi
        by_cases h1 : s.prod = 1
        · have : i = 0 := by omega
          simp [h1, this]
        · simp [h1]
      all_goals simp

/-- C113, arguments of any shape: whatever a call returns is a list of values at their labels or, if `k` depends on the row only and `mu` on the
column only (always so for one-dimensional arguments and numbers), a table of values at their labels. -/
theorem C113_labels (g : ℝ → ℝ → ℝ) (k mu : Inp) (flatten : Bool) (hk : RowsOnly k) (hmu : ColumnsOnly mu) (D : DataArray)
    (h : power g k mu flatten = .ok D) :
    (∃ n, IsList D g n (fun i => D.kc.at' [i]) (fun i => D.muc.at' [i])) ∨
    ∃ n m, IsTable D g n m (fun i => D.kc.at' [i]) (fun j => D.muc.at' [j]) := by
  rcases power_inv g k mu flatten D h with h | ⟨a, b, n, m, hb, hs, -, h1, h2, h3, hv, hka, hmb⟩
  · exact Or.inl h
  · refine Or.inr ⟨n, m, h1, h2, h3, fun _ _ => rfl, fun _ _ => rfl, fun i _ j _ => ?_⟩
    have hl : a.shape.length = 2 := by simp [hs]
    rw [hv, hka, hmb, broadcast_rows hb hl hk i j, broadcast_columns hb hl hmu i j]

/-- C113, flattened: whatever the shapes of `k` and `mu`, what is returned is a list of values at their labels. -/
theorem C113_labels_flat (g : ℝ → ℝ → ℝ) (k mu : Inp) (D : DataArray) (h : power g k mu true = .ok D) :
    ∃ n, IsList D g n (fun i => D.kc.at' [i]) (fun i => D.muc.at' [i]) := by
  rcases power_inv g k mu true D h with h | ⟨a, b, n, m, -, -, hf, -⟩
  · exact h
  · cases hf

/-- Case: the hypotheses of `C113_labels` hold for a two-dimensional `k` of one column with a `mu` of one dimension, and the call returns. -/
example (g : ℝ → ℝ → ℝ) : RowsOnly (mat 3 1 fun i _ => i) ∧ ColumnsOnly (vec 2 fun j => j) ∧
    ∃ D, power g (mat 3 1 fun i _ => i) (vec 2 fun j => j) false = .ok D := by
  refine ⟨fun _ i j => rfl, fun h => by simp [vec, Inp.toArr] at h, ?_⟩
  simp [power, wrapper, broadcast, vec, mat, Inp.toArr, addFirst, bshape, bshapeRev, broadcastTo, bind, Except.bind, pure, Except.pure, pointwise, squeeze,
    returnXarray, atleast1d]

/-- C113 fails: for a two-dimensional `k` that varies along a row, the labels are those of the first column, and a value is not that of the
model at its label. -/
theorem C113_labels_counterexample :
    ∃ D, power (fun k _ => k) (mat 2 2 fun i j => 2 * i + j) (mat 2 2 fun _ j => j) false = .ok D ∧ D.vals.at' [0, 1] = 1 ∧ D.kc.at' [0] = 0 := by
  simp [power, wrapper, broadcast, mat, Inp.toArr, bshape, bshapeRev, broadcastTo, bind, Except.bind, pure, Except.pure, pointwise, squeeze,
    returnXarray, atleast1d, unsq]

/-- C113 fails: `power(k, mu, True)`, with the flag by position, is refused for any table with two or more entries. -/
theorem C113_positional_counterexample (g : ℝ → ℝ → ℝ) (n m : ℕ) (h : n ≠ m) (K M : ℕ → ℝ) :
    powerPositional g (vec n K) (vec m M) true = .error .value := by
  obtain ⟨a, b, hb, ha, hb', hK, hM⟩ := broadcast_grid n m h K M
  rcases a with ⟨as, av⟩
  rcases b with ⟨bs, bv⟩
  simp only at ha hb' hK hM
  subst ha hb'
  have h1 : ¬ (n = 1 ∧ m = 1) := fun hx => h (hx.1.trans hx.2.symm)
  simp only [powerPositional, wrapper, hb, bind, Except.bind, pointwise, returnXarray, squeeze, atleast1d, ravelF]
  simp [h1]

/-- C113, quasars: where the two decorated callables inside return (here, more than one `k` and more than one `mu`), so does the power, with the
values of the product at their labels. -/
theorem C113_qso_grid (p G : ℝ → ℝ → ℝ) (N : ℝ) (n m : ℕ) (h : n ≠ m) (hn : 2 ≤ n) (hm : 2 ≤ m) (K M : ℕ → ℝ) :
    ∃ D, qsoPower p G N (vec n K) (vec m M) false = .ok D ∧ IsTable D (fun k mu => p k mu * G k mu ^ 2 + N) n m K M := by
  obtain ⟨a, b, hb, ha, hb', hK, hM⟩ := broadcast_grid n m h K M
  rcases a with ⟨as, av⟩
  rcases b with ⟨bs, bv⟩
  simp only at ha hb' hK hM
  subst ha hb'
  have h1 : n ≠ 1 := by omega
  have h2 : m ≠ 1 := by omega
  have h3 : n ≠ 0 := by omega
  have h4 : m ≠ 0 := by omega
  have hs : bshape [n, m] [n, m] = some [n, m] := by simp [bshape, bshapeRev]
  have inner : ∀ f : ℝ → ℝ → ℝ, ∃ D, power f (.arr ⟨[n, m], av⟩) (.arr ⟨[n, m], bv⟩) false = .ok D ∧ D.vals.shape = [n, m] ∧
      ∀ i j, D.vals.at' [i, j] = f (av [i, j]) (bv [i, j]) := by
    intro f
    have hbr : broadcast (.arr ⟨[n, m], av⟩) (.arr ⟨[n, m], bv⟩) = .ok (broadcastTo ⟨[n, m], av⟩ [n, m], broadcastTo ⟨[n, m], bv⟩ [n, m]) := by
      simp [broadcast, Inp.toArr, hs, bind, Except.bind, pure, Except.pure]
    simp only [power, wrapper, hbr, bind, Except.bind, pointwise, returnXarray, squeeze, atleast1d]
    simp [broadcastTo, h1, h2, h3, h4, unsq]
  obtain ⟨D1, hD1, hs1, hv1⟩ := inner p
  obtain ⟨D2, hD2, hs2, hv2⟩ := inner G
  simp only [qsoPower, wrapper, hb, bind, Except.bind, hD1, hD2, returnXarray, squeeze, atleast1d, hs1]
  simp [h1, h2, h3, h4]
  constructor
  case klabel => intro i hi; simpa using hK i hi 0 (by omega)
  case mulabel => intro i hi; simpa using hM 0 (by omega) i hi
  case value => intro i hi j hj; simp [unsq, h1, h2, hK i hi j hj, hM i hi j hj, hv1, hv2]
  all_goals simp

/-- C113 fails for quasars: with one `mu` (or one `k`) and several of the other, the call is refused even flattened. -/
theorem C113_qso_counterexample (p G : ℝ → ℝ → ℝ) (N : ℝ) (n : ℕ) (hn : 2 ≤ n) (K M : ℕ → ℝ) (flatten : Bool) :
    (∃ e, qsoPower p G N (vec n K) (vec 1 M) flatten = .error e) ∧ ∃ e, qsoPower p G N (vec 1 K) (vec n M) flatten = .error e := by
  have h1 : n ≠ 1 := by omega
  constructor
  · obtain ⟨a, b, hb, ha, hb', -, -⟩ := broadcast_grid n 1 h1 K M
    rcases a with ⟨as, av⟩
    rcases b with ⟨bs, bv⟩
    simp only at ha hb'
    subst ha hb'
    have hs : bshape [n, 1] [n, 1] = some [n, 1] := by simp [bshape, bshapeRev]
    have hbr : broadcast (.arr ⟨[n, 1], av⟩) (.arr ⟨[n, 1], bv⟩) = .ok (broadcastTo ⟨[n, 1], av⟩ [n, 1], broadcastTo ⟨[n, 1], bv⟩ [n, 1]) := by
      simp [broadcast, Inp.toArr, hs, bind, Except.bind, pure, Except.pure]
    have hp : power p (.arr ⟨[n, 1], av⟩) (.arr ⟨[n, 1], bv⟩) false = .error .value := by
      simp only [power, wrapper, hbr, bind, Except.bind, pointwise, returnXarray, squeeze, atleast1d]
      simp [broadcastTo, h1]
    simp [qsoPower, wrapper, hb, bind, Except.bind, hp]
  · obtain ⟨a, b, hb, ha, hb', -, -⟩ := broadcast_grid 1 n (Ne.symm h1) K M
    rcases a with ⟨as, av⟩
    rcases b with ⟨bs, bv⟩
    simp only at ha hb'
    subst ha hb'
    have hs : bshape [1, n] [1, n] = some [1, n] := by simp [bshape, bshapeRev]
    have hbr : broadcast (.arr ⟨[1, n], av⟩) (.arr ⟨[1, n], bv⟩) = .ok (broadcastTo ⟨[1, n], av⟩ [1, n], broadcastTo ⟨[1, n], bv⟩ [1, n]) := by
      simp [broadcast, Inp.toArr, hs, bind, Except.bind, pure, Except.pure]
    have hp : power p (.arr ⟨[1, n], av⟩) (.arr ⟨[1, n], bv⟩) false = .error .value := by
      simp only [power, wrapper, hbr, bind, Except.bind, pointwise, returnXarray, squeeze, atleast1d]
      simp [broadcastTo, h1]
    simp [qsoPower, wrapper, hb, bind, Except.bind, hp]

/-! ### The multipole methods -/

/-- C113: the multipole methods integrate the model over `mu`, at each `k`, for two or more `k`. -/
theorem C113_multipole (p : ℕ) (g : ℝ → ℝ → ℝ) (n : ℕ) (hn : 2 ≤ n) (K : ℕ → ℝ) :
    multipole p g (vec n K) = .ok ((List.range n).map fun i =>
      Quad.simps (numMu n) (Quad.linspace01 (numMu n)) fun j => kern p (Quad.linspace01 (numMu n) j) * g (K i) (Quad.linspace01 (numMu n) j)) := by
  have hne : n ≠ numMu n := by unfold numMu; split_ifs <;> omega
  have hm : 3 ≤ numMu n := by unfold numMu; split_ifs <;> omega
  obtain ⟨D, hD, hT⟩ := C113_grid g n (numMu n) hne hn (by omega) K (Quad.linspace01 (numMu n))
  simp only [vec] at hD
  simp only [multipole, vec, hD, bind, Except.bind, hT.shape]
  congr 1
  refine List.map_congr_left fun i hi => ?_
  refine Quad.simps_congr _ hm _ _ _ fun j hj => ?_
  rw [hT.value i (List.mem_range.mp hi) j hj]

/-- C113 fails: the multipole methods refuse one `k`, as a number or in a list. -/
theorem C113_multipole_counterexample (p : ℕ) (g : ℝ → ℝ → ℝ) (k : ℝ) (K : ℕ → ℝ) :
    (∃ e, multipole p g (.num k) = .error e) ∧ ∃ e, multipole p g (vec 1 K) = .error e := by
  refine ⟨⟨_, rfl⟩, ?_⟩
  obtain ⟨e, he⟩ := C113_single_counterexample g 1 41 (by omega) (by omega) K (Quad.linspace01 41)
  simp only [vec] at he
  simp [multipole, vec, numMu, he, bind, Except.bind]

end

end Verif.Bcast
