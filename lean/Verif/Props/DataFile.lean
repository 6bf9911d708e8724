/-
C118: the files of measurements and of grids.
-/
import Verif.Lemmas.DataFile

namespace Verif.DataFile

noncomputable section

/-! ### Specification -/

/-- The `j`-th value of an input column: a number, or an array of one entry, stands for all bins. -/
def Col.at (c : Col) (j : ℕ) : Option ℝ :=
  match c with
  | .none => Option.none
  | .scalar x => some x
  | .arr l => if l.length = 1 then l[0]? else l[j]?

/-- The number in column `t` of line `r`. -/
def File.cell (f : File) (r t : ℕ) : Option ℝ := (f.rows[r]?).bind fun l => l[t]?

/-- A column after writing with six digits. -/
def Col.rounded (rnd : ℝ → ℤ) : Col → Col
  | .none => .none
  | .scalar x => .scalar (round6 rnd x)
  | .arr l => .arr (l.map (round6 rnd))

/-- A measurement after writing with six digits. -/
def Meas.rounded (rnd : ℝ → ℤ) (m : Meas) : Meas :=
  { m with k := m.k.map (round6 rnd), mu := m.mu.rounded rnd, power := m.power.map (round6 rnd), error := m.error.rounded rnd, columns := none }

/-! ### Writing -/

theorem row_get (c : Col) (N j : ℕ) (hj : j < N) (hL : c.row.length = N ∨ c.row.length = 1) (hn : c.row.any Option.isNone = false) :
    ∃ x, c.at j = some x ∧ (c.row.getD (if c.row.length = 1 then 0 else j) Option.none).getD 0 = x := by
  cases c with
  | none => simp [Col.row] at hn
  | scalar x => exact ⟨x, rfl, rfl⟩
  | arr l =>
    simp only [Col.row, List.length_map] at hL ⊢
    unfold Col.at
    dsimp only
    by_cases h1 : l.length = 1
    · rw [if_pos h1, if_pos h1, List.getElem?_eq_getElem (by omega)]
      refine ⟨_, rfl, ?_⟩
      rw [List.getD_eq_getElem?_getD, List.getElem?_map, List.getElem?_eq_getElem (by omega)]
      rfl
    · rw [if_neg h1, if_neg h1, List.getElem?_eq_getElem (by omega)]
      refine ⟨_, rfl, ?_⟩
      rw [List.getD_eq_getElem?_getD, List.getElem?_map, List.getElem?_eq_getElem (by omega)]
      rfl

theorem stack_inv {N : ℕ} {cols : List Col} {d : ℕ → ℕ → ℝ} (h : stack N cols = .ok d) (i : ℕ) (c : Col) (hc : cols[i]? = some c) (j : ℕ) (hj : j < N) :
    ∃ x, c.at j = some x ∧ d j i = x := by
  have hfin : ∀ {p : Prop} [Decidable p] {a b : Except Err (ℕ → ℕ → ℝ)} {e : Err}, (if p then .error e else b) = Except.ok d → ¬ p ∧ b = .ok d := by
    intro p _ a b e hif
    by_cases hp : p
    · rw [if_pos hp] at hif; cases hif
    · rw [if_neg hp] at hif; exact ⟨hp, hif⟩
  unfold stack at h
  dsimp only at h
  obtain ⟨h1, h⟩ := hfin (a := .error .valueError) h
  obtain ⟨h2, h⟩ := hfin (a := .error .valueError) h
  obtain ⟨h3, h⟩ := hfin (a := .error .valueError) h
  have hm : c ∈ cols := List.mem_of_getElem? hc
  have hlen : c.row.length = ((cols.map Col.row).headD []).length := by
    simp only [Bool.not_eq_true, Bool.not_eq_false', List.all_eq_true, List.mem_map, forall_exists_index, and_imp, beq_iff_eq] at h1
    exact h1 _ c hm rfl
  have hnone : c.row.any Option.isNone = false := by
    rw [Bool.eq_false_iff]
    intro hcon
    exact h3 (List.any_eq_true.2 ⟨c.row, List.mem_map.2 ⟨c, hm, rfl⟩, hcon⟩)
  have hd : d = fun j i => (((cols.map Col.row).getD i []).getD (if ((cols.map Col.row).headD []).length = 1 then 0 else j) Option.none).getD 0 := by
    exact (Except.ok.inj h).symm
  obtain ⟨x, hx1, hx2⟩ := row_get c N j hj (by rw [hlen]; omega) hnone
  refine ⟨x, hx1, ?_⟩
  rw [hd]
  dsimp only
  rw [List.getD_eq_getElem?_getD (l := cols.map Col.row), List.getElem?_map, hc]
  simp only [Option.map_some, Option.getD_some]
  rw [← hlen]
  exact hx2

theorem lines_length (rnd : ℝ → ℤ) (N n : ℕ) (datas : List (ℕ → ℕ → ℝ)) : (lines rnd N n datas).length = n * N := by
  unfold lines
  rw [flatMap_length _ _ N (by simp), List.length_range]

theorem lines_get (rnd : ℝ → ℤ) (N n : ℕ) (datas : List (ℕ → ℕ → ℝ)) (i j : ℕ) (hi : i < n) (hj : j < N) :
    (lines rnd N n datas)[i * N + j]? = some (datas.map fun d => round6 rnd (d j i)) := by
  unfold lines
  rw [flatMap_uniform _ _ N (by simp) i j hj, List.getElem?_range hi]
  simp [hj]

theorem write_inv {rnd : ℝ → ℤ} {m0 : Meas} {ms : List Meas} {f : File} (h : write rnd (m0 :: ms) = .ok f) :
    f.shape = (m0.power.length, (m0 :: ms).length) ∧ f.columns = m0.getColumns.1 ∧ ∃ datas, (m0.getColumns.1).mapM (fun f => stack m0.power.length ((m0 :: ms).map fun m => m.input f)) = .ok datas ∧
      f.rows = lines rnd m0.power.length (m0 :: ms).length datas := by
  unfold write at h
  dsimp only at h
  cases hd : (m0.getColumns.1).mapM (fun f => stack m0.power.length ((m0 :: ms).map fun m => m.input f)) with
  | error e => rw [hd] at h; cases h
  | ok datas =>
    rw [hd] at h
    have hh := Except.ok.inj h
    subst hh
    exact ⟨rfl, rfl, datas, rfl, rfl⟩

/-- C118 (writing): if a list of measurements is written at all, the file has a line for every statistic and bin, the bins of one statistic after the other, and each line holds, for each named column, the
value of that statistic and bin, rounded to six digits. -/
theorem C118_written {rnd : ℝ → ℤ} {m0 : Meas} {ms : List Meas} {f : File} (h : write rnd (m0 :: ms) = .ok f) :
    f.shape = (m0.power.length, (m0 :: ms).length) ∧ f.rows.length = f.shape.1 * f.shape.2 ∧ (∀ r ∈ f.rows, r.length = f.columns.length) ∧
    ∀ (i : ℕ) (m : Meas), (m0 :: ms)[i]? = some m → ∀ j < m0.power.length, ∀ (t : ℕ) (c : String), f.columns[t]? = some c →
      ∃ x, (m.input c).at j = some x ∧ f.cell (i * m0.power.length + j) t = some (round6 rnd x) := by
  obtain ⟨h1, h2, datas, h3, h4⟩ := write_inv h
  obtain ⟨d1, d2⟩ := mapM_inv _ _ _ h3
  refine ⟨h1, ?_, ?_, ?_⟩
  · rw [h4, lines_length, h1]; exact Nat.mul_comm _ _
  · intro r hr
    rw [h4] at hr
    unfold lines at hr
    simp only [List.mem_flatMap, List.mem_map] at hr
    obtain ⟨i, _, j, _, rfl⟩ := hr
    rw [List.length_map, d1, h2]
  · intro i m hm j hj t c hc
    rw [h2] at hc
    obtain ⟨d, hd, hs⟩ := d2 t c hc
    obtain ⟨x, hx1, hx2⟩ := stack_inv hs i (m.input c) (by rw [List.getElem?_map, hm]; rfl) j hj
    refine ⟨x, hx1, ?_⟩
    have hi : i < (m0 :: ms).length := (List.getElem?_eq_some_iff.1 hm).1
    unfold File.cell
    rw [h4, lines_get _ _ _ _ i j hi hj]
    simp only [Option.bind_some, List.getElem?_map, hd, Option.map_some, hx2]

/-! ### Reading -/

theorem zipIdx_get {α : Type} (l : List α) (i : ℕ) : l.zipIdx[i]? = (l[i]?).map fun a => (a, i) := by
  simp [List.getElem?_zipIdx]

/-- C118 (reading): a file with a line of as many numbers as columns for every statistic and bin, with columns `k`, `power` (and `mu` for P(k,mu)), gives one measurement per name, in order.  The values of
the `i`-th are, for each of its columns, those in the lines of the `i`-th statistic under the name of the column; its multipole number is the one in its name. -/
theorem C118_reads (parse : List Char → Option ℝ) (names : List (List Char)) (f : File) (hpos : 0 < f.shape.1 * f.shape.2) (hrows : f.rows.length = f.shape.1 * f.shape.2)
    (hrect : ∀ r ∈ f.rows, r.length = f.columns.length) (hnd : f.columns.Nodup) (hk : "k" ∈ f.columns) (hp : "power" ∈ f.columns) (hlen : names.length = f.shape.2)
    (hnames : ∀ name ∈ names, ∃ kind v, kindOf name = some kind ∧ parse ((parts name).getLastD []) = some v ∧ (kind = .pkmu → "mu" ∈ f.columns)) :
    ∃ ms, read parse names f = .ok ms ∧ ms.length = names.length ∧ ∀ (i : ℕ) (name : List Char), names[i]? = some name → ∃ m, ms[i]? = some m ∧ kindOf name = some m.kind ∧
      (m.kind = .pole → m.mu = .none ∧ m.ell = parse ((parts name).getLastD [])) ∧ (m.kind = .pkmu → m.ell = none) ∧ ("error" ∉ f.columns → m.error = .none) ∧ m.columns = none ∧
      ∀ c ∈ ["k", "mu", "power", "error"], c ∈ f.columns → (c = "mu" → m.kind = .pkmu) →
        ∃ l, m.input c = .arr l ∧ l.length = f.shape.1 ∧ ∀ j < f.shape.1, ∀ t, f.columns[t]? = some c → l[j]? = f.cell (i * f.shape.1 + j) t := by
  have hne : f.rows ≠ [] := by
    rw [← List.length_pos_iff]; omega
  obtain ⟨r0, rs, hr0⟩ : ∃ r0 rs, f.rows = r0 :: rs := List.exists_cons_of_ne_nil hne
  have hhead : (f.rows.headD []).length = f.columns.length := by
    have := hrect r0 (by rw [hr0]; simp)
    rw [hr0]; exact this
  have hread : read parse names f = fromArray parse names f.columns (fun c j i => (f.rows.getD (i * f.shape.1 + j) []).getD (f.columns.idxOf c) 0) f.shape.1 f.shape.2 := by
    unfold read
    rw [if_neg hne, if_neg, if_neg (not_not.2 hnd), if_neg (by omega), if_neg (by omega)]
    simp only [Bool.not_eq_true, Bool.not_eq_false', List.all_eq_true, beq_iff_eq]
    intro r hr
    rw [hrect r hr, hhead]
  obtain ⟨data, hdata⟩ : ∃ data : String → ℕ → ℕ → ℝ, data = fun c j i => (f.rows.getD (i * f.shape.1 + j) []).getD (f.columns.idxOf c) 0 := ⟨_, rfl⟩
  rw [← hdata] at hread
  have hcell : ∀ c i j t, i < f.shape.2 → j < f.shape.1 → f.columns[t]? = some c → some (data c j i) = f.cell (i * f.shape.1 + j) t := by
    intro c i j t hi hj ht
    have hlt : i * f.shape.1 + j < f.rows.length := by
      rw [hrows]
      calc i * f.shape.1 + j < i * f.shape.1 + f.shape.1 := by omega
        _ = (i + 1) * f.shape.1 := by ring
        _ ≤ f.shape.2 * f.shape.1 := Nat.mul_le_mul_right _ (by omega)
        _ = f.shape.1 * f.shape.2 := Nat.mul_comm _ _
    obtain ⟨htl, htc⟩ := List.getElem?_eq_some_iff.1 ht
    have hidx : f.columns.idxOf c = t := by
      rw [← htc]; exact hnd.idxOf_getElem t htl
    rw [hdata]
    unfold File.cell
    simp only [hidx]
    rw [List.getD_eq_getElem?_getD (l := f.rows), List.getElem?_eq_getElem hlt]
    simp only [Option.getD_some, Option.bind_some]
    have h2 : t < (f.rows[i * f.shape.1 + j]).length := by rw [hrect _ (List.getElem_mem _)]; exact htl
    rw [List.getD_eq_getElem?_getD, List.getElem?_eq_getElem h2]
    rfl
  -- one measurement
  have hone : ∀ (i : ℕ) (name : List Char), names[i]? = some name → ∃ m, fromColumn parse f.columns data f.shape.1 name i = .ok m ∧ kindOf name = some m.kind ∧
      (m.kind = .pole → m.mu = .none ∧ m.ell = parse ((parts name).getLastD [])) ∧ (m.kind = .pkmu → m.ell = none) ∧ ("error" ∉ f.columns → m.error = .none) ∧ m.columns = none ∧
      ∀ c ∈ ["k", "mu", "power", "error"], c ∈ f.columns → (c = "mu" → m.kind = .pkmu) → m.input c = .arr ((List.range f.shape.1).map fun j => data c j i) := by
    intro i name hn
    obtain ⟨kind, v, hkd, hv, hmu⟩ := hnames name (List.mem_of_getElem? hn)
    unfold fromColumn construct
    rw [hkd]
    dsimp only
    rw [hv]
    dsimp only
    rw [if_pos hk, if_pos hp]
    dsimp only
    cases kind with
    | pkmu =>
      rw [if_pos (hmu rfl)]
      dsimp only
      refine ⟨_, rfl, rfl, (fun h => by cases h), (fun _ => rfl), (fun he => by simp [he]), rfl, ?_⟩
      intro c hc hcm _
      simp only [List.mem_cons, List.not_mem_nil, or_false] at hc
      rcases hc with rfl | rfl | rfl | rfl <;> simp [Meas.input, hcm]
    | pole =>
      refine ⟨_, rfl, rfl, (fun _ => ⟨rfl, rfl⟩), (fun h => by cases h), (fun he => by simp [he]), rfl, ?_⟩
      intro c hc hcm hkm
      simp only [List.mem_cons, List.not_mem_nil, or_false] at hc
      rcases hc with rfl | rfl | rfl | rfl
      · simp [Meas.input]
      · exact absurd (hkm rfl) (by simp)
      · simp [Meas.input]
      · simp [Meas.input, hcm]
  have : Nonempty Meas := ⟨⟨.pole, [], .none, [], .none, none, none⟩⟩
  choose! g hg using hone
  have hall : names.zipIdx.mapM (fun p => fromColumn parse f.columns data f.shape.1 p.1 p.2) = .ok (names.zipIdx.map fun p => g p.2 p.1) := by
    refine mapM_ok _ _ _ fun p hp => ?_
    obtain ⟨i, hi⟩ := List.mem_iff_getElem?.1 hp
    rw [zipIdx_get] at hi
    cases hn : names[i]? with
    | none => rw [hn] at hi; cases hi
    | some name =>
      rw [hn] at hi
      simp only [Option.map_some, Option.some.injEq] at hi
      subst hi
      exact (hg i name hn).1
  refine ⟨names.zipIdx.map fun p => g p.2 p.1, ?_, ?_, ?_⟩
  · rw [hread]
    unfold fromArray
    rw [if_neg (not_not.2 hlen), if_neg, hall]
    simp only [Bool.not_eq_true, Bool.not_eq_false', List.all_eq_true]
    intro name hn
    obtain ⟨kind, _, hkd, _⟩ := hnames name hn
    rw [hkd]; rfl
  · simp
  · intro i name hn
    obtain ⟨_, h2, h3, h4, h5, h6, h7⟩ := hg i name hn
    refine ⟨g i name, ?_, h2, h3, h4, h5, h6, ?_⟩
    · rw [List.getElem?_map, zipIdx_get, hn]; rfl
    · intro c hc hcm hkm
      refine ⟨_, h7 c hc hcm hkm, by simp, fun j hj t ht => ?_⟩
      rw [List.getElem?_map, List.getElem?_range hj]
      have hi : i < f.shape.2 := by rw [← hlen]; exact (List.getElem?_eq_some_iff.1 hn).1
      exact hcell c i j t hi hj ht

/-- C118: names of wedges are `pkmu_<mu>` and of multipoles `pole_<ell>`, in letters of any case; what is parsed is the text after the last underscore; any other text before the first underscore is no name -/
theorem C118_names (pre rest : List Char) (h : '_' ∉ pre.map Char.toLower) :
    kindOf (pre ++ '_' :: rest) = if pre.map Char.toLower = "pkmu".toList then some .pkmu else if pre.map Char.toLower = "pole".toList then some .pole else none := by
  have e : (parts (pre ++ '_' :: rest)).headD [] = pre.map Char.toLower := by
    unfold parts
    rw [List.map_append, List.map_cons, show Char.toLower '_' = '_' from rfl, List.splitOn_append_cons_self_of_not_mem h]
    rfl
  unfold kindOf
  rw [e]
  rfl

theorem C118_names_value (pre rest : List Char) (h : '_' ∉ rest.map Char.toLower) : (parts (pre ++ '_' :: rest)).getLastD [] = rest.map Char.toLower := by
  unfold parts
  rw [List.map_append, List.map_cons, show Char.toLower '_' = '_' from rfl, List.splitOn_append_cons_self, List.splitOn_eq_singleton h]
  simp

example : kindOf "Pkmu_0.1".toList = some .pkmu ∧ kindOf "pole_2".toList = some .pole ∧ kindOf "xi_2".toList = none ∧ (parts "pole_2".toList).getLastD [] = ['2'] := by
  refine ⟨?_, ?_, ?_, ?_⟩
  · exact (C118_names "Pkmu".toList "0.1".toList (by decide)).trans (by decide)
  · exact (C118_names "pole".toList "2".toList (by decide)).trans (by decide)
  · exact (C118_names "xi".toList "2".toList (by decide)).trans (by decide)
  · exact C118_names_value "pole".toList "2".toList (by decide)

end

end Verif.DataFile
