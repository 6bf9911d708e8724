/-
C52, C53: the gridded transfer functions.
-/
import Verif.Model.Transfers
import Mathlib.Algebra.BigOperators.Group.Finset.Basic
import Mathlib.Algebra.Order.BigOperators.Group.Finset
import Mathlib.Algebra.BigOperators.Ring.Finset
import Mathlib.Data.Fintype.Prod

namespace Verif.Transfers

open Verif.Legendre

noncomputable section

open Classical

variable {nk nmu : ℕ}

/-! ### Specification -/

/-- The number of modes of a cell (0 if it is nan). -/
def weight (g : Grid nk nmu) (i : Fin nk) (j : Fin nmu) : ℝ := (g.modes i j).getD 0

/-- The upper end of a bin: bins ending at 1 are extended by half a permille. -/
def upper (hi : ℝ) : ℝ := if |hi - 1| ≤ 1 / 10 ^ 8 + 1 / 10 ^ 5 then 1.0005 * hi else hi

/-- The cells of row `i` that belong to the bin `(lo, hi)`. -/
def bin (g : Grid nk nmu) (i : Fin nk) (lo hi : ℝ) : Finset (Fin nmu) :=
  Finset.univ.filter (fun j => g.notnull (i, j) ∧ lo ≤ g.mu i j ∧ g.mu i j < upper hi)

/-- The mean over a set of cells of row `i`, weighted by the number of modes. -/
def wmean (g : Grid nk nmu) (i : Fin nk) (s : Finset (Fin nmu)) (f : Fin nmu → ℝ) : ℝ :=
  (∑ j ∈ s, weight g i j * f j) / ∑ j ∈ s, weight g i j

/-- The edges `lo₁ ≤ hi₁ ≤ lo₂ ≤ hi₂ ≤ ...` are in order. -/
def Ordered : List (ℝ × ℝ) → Prop
  | [] => True
  | [b] => b.1 ≤ upper b.2
  | b :: b' :: rest => b.1 ≤ upper b.2 ∧ upper b.2 ≤ b'.1 ∧ Ordered (b' :: rest)

/-- `k` within the limits of column `b`. -/
def InLimits (kmin kmax : ℕ → Option ℝ) (b : ℕ) (k : ℝ) : Prop := (∀ x ∈ kmin b, x ≤ k) ∧ (∀ x ∈ kmax b, k ≤ x)

/-! ### C53 -/

theorem mem_cells (c : Fin nk × Fin nmu) : c ∈ cells nk nmu := by
  exact List.pair_mem_product.2 ⟨List.mem_finRange c.1, List.mem_finRange c.2⟩

theorem nodup_cells : (cells nk nmu).Nodup := List.Nodup.product (List.nodup_finRange nk) (List.nodup_finRange nmu)

theorem mem_valid (g : Grid nk nmu) (c : Fin nk × Fin nmu) : c ∈ g.valid ↔ g.notnull c := by
  simp [Grid.valid, mem_cells]

theorem nodup_valid (g : Grid nk nmu) : g.valid.Nodup := nodup_cells.filter _

theorem scatter_aux (idx : List (Fin nk × Fin nmu)) (hn : idx.Nodup) (f : Fin nk × Fin nmu → Val) (a : Fin nk × Fin nmu → Val) (c : Fin nk × Fin nmu) :
    ((idx.zip (idx.map f)).foldl (fun a cv => fun c => if c = cv.1 then cv.2 else a c) a) c = if c ∈ idx then f c else a c := by
  induction idx generalizing a with
  | nil => simp
  | cons x idx ih =>
    rw [List.nodup_cons] at hn
    simp only [List.map_cons, List.zip_cons_cons, List.foldl_cons]
    rw [ih hn.2]
    by_cases h : c = x
    · subst h; simp [hn.1]
    · simp [h]

theorem scatter_map (g : Grid nk nmu) (f : Fin nk × Fin nmu → Val) (c : Fin nk × Fin nmu) :
    scatter g.valid (g.valid.map f) c = if g.notnull c then f c else none := by
  rw [scatter, scatter_aux _ (nodup_valid g)]
  simp only [mem_valid]

theorem exists_map {α β : Type} [DecidableEq α] [Inhabited β] (idx : List α) (hn : idx.Nodup) (val : List β) (hl : val.length = idx.length) :
    ∃ f : α → β, val = idx.map f := by
  induction idx generalizing val with
  | nil => exact ⟨fun _ => default, by simpa using hl⟩
  | cons x idx ih =>
    cases val with
    | nil => simp at hl
    | cons v val =>
      rw [List.nodup_cons] at hn
      obtain ⟨f, hf⟩ := ih hn.2 val (by simpa using hl)
      refine ⟨fun y => if y = x then v else f y, ?_⟩
      rw [List.map_cons, if_pos rfl, hf]
      congr 1
      refine List.map_congr_left fun y hy => ?_
      rw [if_neg]; rintro rfl; exact hn.1 hy

theorem zipWith_flat {γ : Type} (g : Grid nk nmu) (f : ℝ → ℝ → γ) :
    List.zipWith f g.flatk g.flatmu = g.valid.map (fun c => f (g.k c.1 c.2) (g.mu c.1 c.2)) := by
  simp only [Grid.flatk, Grid.flatmu, List.zipWith_map, List.zipWith_self]

/-- C53: a function evaluated at `flatk`, `flatmu` and assigned to `power` is at every valid cell the value of the function at the `k` and
`mu` of that cell, and nan at all other cells. -/
theorem C53_scatter (g : Grid nk nmu) (f : ℝ → ℝ → Val) :
    ∃ p, setPower g (.flat (List.zipWith f g.flatk g.flatmu)) = .ok p ∧
      ∀ i j, p (i, j) = if g.notnull (i, j) then f (g.k i j) (g.mu i j) else none := by
  refine ⟨scatter g.valid (List.zipWith f g.flatk g.flatmu), ?_, fun i j => ?_⟩
  · simp only [setPower]
    rw [if_pos (by simp [Grid.flatk, Grid.flatmu])]
  · rw [zipWith_flat, scatter_map]

/-- C53: assigning any flat array of the right length and reading the valid cells back gives the array; another length is refused; a
two-dimensional array gives the same as its own flattened valid cells, so its values at invalid cells have no effect. -/
theorem C53_roundtrip (g : Grid nk nmu) :
    (∀ val : List Val, val.length = g.valid.length → ∃ p, setPower g (.flat val) = .ok p ∧ g.valid.map p = val ∧ ∀ c, ¬ g.notnull c → p c = none) ∧
    (∀ val : List Val, val.length ≠ g.valid.length → setPower g (.flat val) = .error .length) ∧
    (∀ v : Fin nk → Fin nmu → Val, setPower g (.grid v) = setPower g (.flat (g.valid.map (fun c => v c.1 c.2)))) := by
  refine ⟨fun val hl => ?_, fun val hl => by simp [setPower, hl], fun v => by simp [setPower]⟩
  obtain ⟨f, rfl⟩ := exists_map g.valid (nodup_valid g) val hl
  refine ⟨scatter g.valid (g.valid.map f), by simp [setPower], ?_, fun c hc => ?_⟩
  · refine List.map_congr_left fun c hc => ?_
    rw [scatter_map, if_pos ((mem_valid g c).1 hc)]
  · rw [scatter_map, if_neg hc]

/-! ### The bins -/

theorem adjust_eq (b : ℝ × ℝ) : adjust b = (b.1, upper b.2) := by
  have : closeToOne b.2 ↔ |b.2 - 1| ≤ 1 / 10 ^ 8 + 1 / 10 ^ 5 := by simp [closeToOne]
  simp only [adjust, upper]
  by_cases h : closeToOne b.2
  · rw [if_pos h, if_pos (this.1 h)]; norm_num
  · rw [if_neg h, if_neg (fun h' => h (this.2 h'))]

/-- edges of adjusted bounds -/
def edgesOf (bounds : List (ℝ × ℝ)) : List ℝ := (bounds.map adjust).flatMap (fun b => [b.1, b.2])

theorem edgesOf_cons (b : ℝ × ℝ) (rest : List (ℝ × ℝ)) : edgesOf (b :: rest) = b.1 :: upper b.2 :: edgesOf rest := by
  simp [edgesOf, adjust_eq]

theorem edgesOf_length (bounds : List (ℝ × ℝ)) : (edgesOf bounds).length = 2 * bounds.length := by
  induction bounds with
  | nil => rfl
  | cons b rest ih => rw [edgesOf_cons, List.length_cons, List.length_cons, ih, List.length_cons]; omega

theorem zip_tail_all (l : List ℝ) : (l.zip l.tail).all (fun p => decide (p.1 ≤ p.2)) = true ↔ l.IsChain (· ≤ ·) := by
  induction l with
  | nil => simp
  | cons a l ih =>
    cases l with
    | nil => simp
    | cons b l =>
      simp only [List.tail_cons, List.zip_cons_cons, List.all_cons, Bool.and_eq_true, decide_eq_true_eq, List.isChain_cons_cons]
      simp only [List.tail_cons] at ih
      rw [ih]

theorem chain_ordered (bounds : List (ℝ × ℝ)) : (edgesOf bounds).IsChain (· ≤ ·) ↔ Ordered bounds := by
  induction bounds with
  | nil => simp [edgesOf, Ordered]
  | cons b rest ih =>
    cases rest with
    | nil => simp [edgesOf, adjust_eq, Ordered]
    | cons b' rest =>
      rw [edgesOf_cons, edgesOf_cons, List.isChain_cons_cons, List.isChain_cons_cons, ← edgesOf_cons, ih, Ordered]

theorem muEdges_eq (bounds : List (ℝ × ℝ)) :
    muEdges (bounds.map adjust) = if Ordered bounds then .ok (edgesOf bounds) else .error .monotone := by
  simp only [muEdges]
  have : ((edgesOf bounds).zip (edgesOf bounds).tail).all (fun p => decide (p.1 ≤ p.2)) = true ↔ Ordered bounds := by
    rw [zip_tail_all, chain_ordered]
  by_cases h : Ordered bounds
  · rw [if_pos h]; exact if_pos (this.2 h)
  · rw [if_neg h]; exact if_neg (fun h' => h (this.1 h'))

theorem digitize_bin (bounds : List (ℝ × ℝ)) (ho : Ordered bounds) (x : ℝ) (b : ℕ) (hb : b < bounds.length) :
    digitize (edgesOf bounds) x = 1 + 2 * b ↔ bounds[b].1 ≤ x ∧ x < upper bounds[b].2 := by
  have hp : (edgesOf bounds).Pairwise (· ≤ ·) := List.isChain_iff_pairwise.1 ((chain_ordered bounds).2 ho)
  clear ho
  induction bounds generalizing b with
  | nil => simp at hb
  | cons d rest ih =>
    rw [edgesOf_cons] at hp ⊢
    rw [List.pairwise_cons, List.pairwise_cons] at hp
    obtain ⟨h1, h2, h3⟩ := hp
    have hlu : d.1 ≤ upper d.2 := h1 _ List.mem_cons_self
    simp only [digitize, List.countP_cons, decide_eq_true_eq]
    have hmem : ∀ b (hb : b < rest.length), rest[b].1 ∈ edgesOf rest := by
      intro b hb
      simp only [edgesOf, List.mem_flatMap, List.mem_map]
      exact ⟨adjust rest[b], ⟨rest[b], List.getElem_mem hb, rfl⟩, by simp [adjust_eq]⟩
    have hz : x < upper d.2 → (edgesOf rest).countP (fun e => decide (e ≤ x)) = 0 := by
      intro hx
      rw [List.countP_eq_zero]
      intro e he
      have := h2 e he
      simp only [decide_eq_true_eq, not_le]
      linarith
    by_cases hx : x < upper d.2
    · rw [hz hx, if_neg (not_le.2 hx)]
      cases b with
      | zero =>
        simp only [List.getElem_cons_zero]
        by_cases hlo : d.1 ≤ x <;> simp [hlo, hx]
      | succ b =>
        simp only [List.getElem_cons_succ]
        have hb' : b < rest.length := by simpa using hb
        have : upper d.2 ≤ rest[b].1 := h2 _ (hmem b hb')
        constructor
        · intro h; split at h <;> omega
        · rintro ⟨h, -⟩; linarith
    · have hx' : upper d.2 ≤ x := not_lt.1 hx
      rw [if_pos hx', if_pos (hlu.trans hx')]
      cases b with
      | zero =>
        simp only [List.getElem_cons_zero, hx, and_false, iff_false]
        omega
      | succ b =>
        simp only [List.getElem_cons_succ]
        have hb' : b < rest.length := by simpa using hb
        have := ih b hb' h3
        simp only [digitize] at this
        refine Iff.trans ?_ this
        omega

theorem digitize_le (edges : List ℝ) (x : ℝ) : digitize edges x ≤ edges.length := List.countP_le_length

/-! ### Sums over bins -/

/-- sum of values with nan -/
def sumV (l : List Val) : Val := l.foldl addV (some 0)

theorem bincount_eq (L : List (Fin nk × Fin nmu)) (ix : Fin nk × Fin nmu → ℕ) (d : Fin nk × Fin nmu → Val) (x : ℕ) :
    bincount (L.map ix) (L.map d) x = sumV ((L.filter (fun c => ix c = x)).map d) := by
  have : ∀ (L : List (Fin nk × Fin nmu)) (a : ℕ → Val),
      (((L.map ix).zip (L.map d)).foldl (fun a p => fun x => if x = p.1 then addV (a x) p.2 else a x) a) x =
        ((L.filter (fun c => ix c = x)).map d).foldl addV (a x) := by
    intro L
    induction L with
    | nil => intro a; rfl
    | cons c L ih =>
      intro a
      simp only [List.map_cons, List.zip_cons_cons, List.foldl_cons]
      rw [ih]
      by_cases h : ix c = x
      · rw [List.filter_cons_of_pos (by simpa using h)]
        simp [h]
      · rw [List.filter_cons_of_neg (by simpa using h)]
        simp [Ne.symm h]
  exact this L _

theorem foldl_addV_none (l : List Val) : l.foldl addV none = none := by
  induction l with
  | nil => rfl
  | cons a l ih => rw [List.foldl_cons]; exact ih

theorem foldl_addV_some (l : List ℝ) (a : ℝ) : (l.map some).foldl addV (some a) = some (a + l.sum) := by
  induction l generalizing a with
  | nil => simp
  | cons x l ih =>
    rw [List.map_cons, List.foldl_cons]
    have : addV (some a) (some x) = some (a + x) := rfl
    rw [this, ih, List.sum_cons, add_assoc]

theorem foldl_addV_mem_none (l : List Val) (h : none ∈ l) (a : Val) : l.foldl addV a = none := by
  induction l generalizing a with
  | nil => cases h
  | cons x l ih =>
    rw [List.foldl_cons]
    rcases List.mem_cons.1 h with rfl | h
    · have : addV a none = none := by cases a <;> rfl
      rw [this]; exact foldl_addV_none l
    · exact ih h _

theorem sumV_some (l : List ℝ) : sumV (l.map some) = some l.sum := by
  rw [sumV, foldl_addV_some, zero_add]

/-- The index of a cell identifies its row and its bin. -/
theorem muIndex_eq (g : Grid nk nmu) (edges : List ℝ) (c : Fin nk × Fin nmu) (i : Fin nk) (b : ℕ) (hb : 1 + 2 * b ≤ edges.length) :
    muIndex g edges c = (i.val + 1) * (edges.length + 1) + (1 + 2 * b) ↔ c.1 = i ∧ digitize edges (g.mu c.1 c.2) = 1 + 2 * b := by
  have hd := digitize_le edges (g.mu c.1 c.2)
  constructor
  · intro h
    simp only [muIndex] at h
    have h1 : (c.1.val + 1) = (i.val + 1) := by
      have e1 : ((c.1.val + 1) * (edges.length + 1) + digitize edges (g.mu c.1 c.2)) / (edges.length + 1) = c.1.val + 1 := by
        rw [Nat.add_comm, Nat.add_mul_div_right _ _ (by omega), Nat.div_eq_of_lt (by omega), Nat.zero_add]
      have e2 : ((i.val + 1) * (edges.length + 1) + (1 + 2 * b)) / (edges.length + 1) = i.val + 1 := by
        rw [Nat.add_comm ((i.val + 1) * (edges.length + 1)), Nat.add_mul_div_right _ _ (by omega), Nat.div_eq_of_lt (by omega), Nat.zero_add]
      rw [← e1, ← e2, h]
    have h2 : c.1 = i := Fin.ext (by omega)
    refine ⟨h2, ?_⟩
    rw [h1] at h
    omega
  · rintro ⟨h1, h2⟩
    simp only [muIndex]
    rw [h2, h1]

theorem sumBins_eq (g : Grid nk nmu) (bounds : List (ℝ × ℝ)) (ho : Ordered bounds) (d : Fin nk × Fin nmu → Val) (i : Fin nk) (b : ℕ)
    (hb : b < bounds.length) :
    (∀ f : Fin nmu → ℝ, (∀ j ∈ bin g i bounds[b].1 bounds[b].2, d (i, j) = some (f j)) →
      sumBins g (edgesOf bounds) d i b = some (∑ j ∈ bin g i bounds[b].1 bounds[b].2, f j)) ∧
    ((∃ j ∈ bin g i bounds[b].1 bounds[b].2, d (i, j) = none) → sumBins g (edgesOf bounds) d i b = none) := by
  have hlen := edgesOf_length bounds
  have hfilter : ∀ c, c ∈ g.valid.filter (fun c => muIndex g (edgesOf bounds) c = (i.val + 1) * ((edgesOf bounds).length + 1) + (1 + 2 * b)) ↔
      c.1 = i ∧ c.2 ∈ bin g i bounds[b].1 bounds[b].2 := by
    intro c
    rw [List.mem_filter, mem_valid]
    simp only [decide_eq_true_eq, bin, Finset.mem_filter, Finset.mem_univ, true_and]
    rw [muIndex_eq _ _ _ _ _ (by omega), digitize_bin bounds ho _ b hb]
    constructor
    · rintro ⟨h1, rfl, h2⟩; exact ⟨rfl, h1, h2⟩
    · rintro ⟨rfl, h1, h2⟩; exact ⟨h1, rfl, h2⟩
  simp only [sumBins, bincount_eq]
  generalize hL : g.valid.filter (fun c => muIndex g (edgesOf bounds) c = (i.val + 1) * ((edgesOf bounds).length + 1) + (1 + 2 * b)) = L at hfilter
  have hnd : L.Nodup := hL ▸ (nodup_valid g).filter _
  refine ⟨fun f hf => ?_, ?_⟩
  · have h1 : L.map d = (L.map (fun c => f c.2)).map some := by
      rw [List.map_map]
      refine List.map_congr_left fun c hc => ?_
      obtain ⟨rfl, h2⟩ := (hfilter c).1 hc
      exact hf c.2 h2
    rw [h1, sumV_some]
    congr 1
    rw [← List.sum_toFinset _ hnd]
    refine Finset.sum_bij (fun c _ => c.2) ?_ ?_ ?_ ?_
    · intro c hc
      exact ((hfilter c).1 (List.mem_toFinset.1 hc)).2
    · intro c hc c' hc' h
      have := ((hfilter c).1 (List.mem_toFinset.1 hc)).1
      have := ((hfilter c').1 (List.mem_toFinset.1 hc')).1
      exact Prod.ext (by simp_all) h
    · intro j hj
      exact ⟨(i, j), List.mem_toFinset.2 ((hfilter (i, j)).2 ⟨rfl, hj⟩), rfl⟩
    · intro c _; rfl
  · rintro ⟨j, hj, hd⟩
    exact foldl_addV_mem_none _ (List.mem_map.2 ⟨(i, j), (hfilter _).2 ⟨rfl, hj⟩, hd⟩) _

theorem weight_pos (g : Grid nk nmu) (i : Fin nk) (j : Fin nmu) (h : g.notnull (i, j)) : 0 < weight g i j ∧ modesV g (i, j) = some (weight g i j) := by
  simp only [Grid.notnull] at h
  cases hm : g.modes i j with
  | none => simp [hm] at h
  | some m => simp only [hm] at h; exact ⟨by simpa [weight, hm] using h, by simp [modesV, weight, hm]⟩

theorem average_eq (g : Grid nk nmu) (bounds : List (ℝ × ℝ)) (ho : Ordered bounds) (d : Fin nk × Fin nmu → Val) (i : Fin nk) (b : ℕ)
    (hb : b < bounds.length) :
    (∀ f : Fin nmu → ℝ, (∀ j ∈ bin g i bounds[b].1 bounds[b].2, d (i, j) = some (f j)) → (bin g i bounds[b].1 bounds[b].2).Nonempty →
      average g (edgesOf bounds) d (modesV g) i b = some (wmean g i (bin g i bounds[b].1 bounds[b].2) f)) ∧
    ((bin g i bounds[b].1 bounds[b].2 = ∅ ∨ ∃ j ∈ bin g i bounds[b].1 bounds[b].2, d (i, j) = none) →
      average g (edgesOf bounds) d (modesV g) i b = none) := by
  have hw := (sumBins_eq g bounds ho (modesV g) i b hb).1 (weight g i)
    (fun j hj => (weight_pos g i j (Finset.mem_filter.1 hj).2.1).2)
  refine ⟨fun f hf hne => ?_, ?_⟩
  · have h1 := (sumBins_eq g bounds ho (fun c => mulV (d c) (modesV g c)) i b hb).1 (fun j => weight g i j * f j)
      (fun j hj => by
        rw [hf j hj, (weight_pos g i j (Finset.mem_filter.1 hj).2.1).2]
        simp only [mulV]; rw [mul_comm])
    rw [average, h1, hw]
    have hpos : 0 < ∑ j ∈ bin g i bounds[b].1 bounds[b].2, weight g i j :=
      Finset.sum_pos (fun j hj => (weight_pos g i j (Finset.mem_filter.1 hj).2.1).1) hne
    simp only [divV, if_neg hpos.ne', wmean]
  · rintro (h | ⟨j, hj, hd⟩)
    · rw [average, hw, h]
      cases sumBins g (edgesOf bounds) (fun c => mulV (d c) (modesV g c)) i b <;> simp [divV]
    · have h1 := (sumBins_eq g bounds ho (fun c => mulV (d c) (modesV g c)) i b hb).2 ⟨j, hj, by rw [hd]; rfl⟩
      rw [average, h1]; rfl

theorem inKRange_iff (g : Grid nk nmu) (kmin kmax : ℕ → Option ℝ) (i : Fin nk) (b : ℕ) :
    inKRange g kmin kmax i b ↔ InLimits kmin kmax b (g.kcen i) := by
  simp only [inKRange, InLimits]
  cases kmin b <;> cases kmax b <;> simp

/-! ### C52: wedges -/

/-- What is assigned to `power` at the valid cells. -/
def argVal (g : Grid nk nmu) (arg : PowerArg nk nmu) (P : Fin nk → Fin nmu → Val) : Prop :=
  arg = .grid P ∨ arg = .flat (g.valid.map (fun c => P c.1 c.2))

theorem setPower_arg (g : Grid nk nmu) (arg : PowerArg nk nmu) (P : Fin nk → Fin nmu → Val) (h : argVal g arg P) :
    setPower g arg = .ok (fun c => if g.notnull c then P c.1 c.2 else none) := by
  have : setPower g arg = .ok (scatter g.valid (g.valid.map (fun c => P c.1 c.2))) := by
    rcases h with rfl | rfl <;> simp [setPower]
  rw [this]
  congr 1
  funext c
  exact scatter_map g _ c

/-- C52: the result in the bin `b` of the row `i` is the modes-weighted mean of the power over the valid cells of the row with
`lo ≤ mu < hi` (`hi` extended if it is 1); outside the limits of `k` it is nan.  A result is returned exactly if the bounds are in order, the
power is not nan everywhere, and every bin within the limits has a valid cell and no nan. -/
theorem C52_wedges (g : Grid nk nmu) (bounds : List (ℝ × ℝ)) (kmin kmax : ℕ → Option ℝ) (arg : PowerArg nk nmu)
    (P : Fin nk → Fin nmu → Val) (ha : argVal g arg P) :
    (∀ R, (Wedge.init g (.list bounds) kmin kmax).1.call arg = .ok R → ∀ i b, (hb : b < bounds.length) →
      (¬ InLimits kmin kmax b (g.kcen i) → R i b = none) ∧
      (InLimits kmin kmax b (g.kcen i) → (bin g i bounds[b].1 bounds[b].2).Nonempty ∧
        (∀ j ∈ bin g i bounds[b].1 bounds[b].2, P i j ≠ none) ∧
        R i b = some (wmean g i (bin g i bounds[b].1 bounds[b].2) (fun j => (P i j).getD 0)))) ∧
    ((∃ R, (Wedge.init g (.list bounds) kmin kmax).1.call arg = .ok R) ↔
      Ordered bounds ∧ (∃ i j, g.notnull (i, j) ∧ P i j ≠ none) ∧
      ∀ i b, (hb : b < bounds.length) → InLimits kmin kmax b (g.kcen i) →
        (bin g i bounds[b].1 bounds[b].2).Nonempty ∧ ∀ j ∈ bin g i bounds[b].1 bounds[b].2, P i j ≠ none) := by
  have hbv : ∀ i b (hb : b < bounds.length) j, j ∈ bin g i bounds[b].1 bounds[b].2 → g.notnull (i, j) :=
    fun i b hb j hj => (Finset.mem_filter.1 hj).2.1
  have hgood : ∀ i b (hb : b < bounds.length), Ordered bounds → (bin g i bounds[b].1 bounds[b].2).Nonempty →
      (∀ j ∈ bin g i bounds[b].1 bounds[b].2, P i j ≠ none) →
      average g (edgesOf bounds) (fun c => if g.notnull c then P c.1 c.2 else none) (modesV g) i b =
        some (wmean g i (bin g i bounds[b].1 bounds[b].2) (fun j => (P i j).getD 0)) := by
    intro i b hb ho hne hP
    refine (average_eq g bounds ho _ i b hb).1 _ (fun j hj => ?_) hne
    simp only [if_pos (hbv i b hb j hj)]
    have := hP j hj
    cases h : P i j with
    | none => exact absurd h this
    | some v => rfl
  have hbad : ∀ i b (hb : b < bounds.length), Ordered bounds → ¬ ((bin g i bounds[b].1 bounds[b].2).Nonempty ∧
      (∀ j ∈ bin g i bounds[b].1 bounds[b].2, P i j ≠ none)) →
      average g (edgesOf bounds) (fun c => if g.notnull c then P c.1 c.2 else none) (modesV g) i b = none := by
    intro i b hb ho h
    refine (average_eq g bounds ho _ i b hb).2 ?_
    by_cases hne : (bin g i bounds[b].1 bounds[b].2).Nonempty
    · right
      by_contra hc
      push Not at hc
      refine h ⟨hne, fun j hj => ?_⟩
      have := hc j hj
      simpa only [if_pos (hbv i b hb j hj)] using this
    · left; exact Finset.not_nonempty_iff_eq_empty.1 hne
  have hcall : (Wedge.init g (.list bounds) kmin kmax).1.call arg =
      if ∀ c : Fin nk × Fin nmu, (if g.notnull c then P c.1 c.2 else none) = none then .error .allNull
      else if Ordered bounds then
        finish g kmin kmax bounds.length (average g (edgesOf bounds) (fun c => if g.notnull c then P c.1 c.2 else none) (modesV g))
      else .error .monotone := by
    simp only [Wedge.call, Wedge.init, setPower_arg g arg P ha, muEdges_eq, List.length_map]
    split
    · rfl
    · by_cases ho : Ordered bounds
      · simp only [if_pos ho]
      · simp only [if_neg ho]
  have hall : (∀ c : Fin nk × Fin nmu, (if g.notnull c then P c.1 c.2 else none) = none) ↔ ¬ ∃ i j, g.notnull (i, j) ∧ P i j ≠ none := by
    push Not
    constructor
    · intro h i j hn; have := h (i, j); simpa only [if_pos hn] using this
    · rintro h ⟨i, j⟩
      by_cases hn : g.notnull (i, j)
      · simp only [if_pos hn]; exact h i j hn
      · simp only [if_neg hn]
  constructor
  · intro R hR i b hb
    rw [hcall] at hR
    split at hR
    · cases hR
    · split at hR
      next ho =>
        simp only [finish] at hR
        split at hR
        · cases hR
        next hn =>
          simp only [Except.ok.injEq] at hR
          subst hR
          constructor
          · intro hl; exact if_neg (fun h => hl ((inKRange_iff _ _ _ _ _).1 h))
          · intro hl
            have hk := (inKRange_iff g kmin kmax i b).2 hl
            have hgb : (bin g i bounds[b].1 bounds[b].2).Nonempty ∧ ∀ j ∈ bin g i bounds[b].1 bounds[b].2, P i j ≠ none := by
              by_contra hc
              exact hn ⟨i, b, hb, hk, hbad i b hb ho hc⟩
            exact ⟨hgb.1, hgb.2, (if_pos hk).trans (hgood i b hb ho hgb.1 hgb.2)⟩
      · cases hR
  · rw [hcall]
    constructor
    · rintro ⟨R, hR⟩
      split at hR
      · cases hR
      next hc =>
        split at hR
        next ho =>
          refine ⟨ho, not_not.1 (fun h => hc (hall.2 h)), fun i b hb hl => ?_⟩
          simp only [finish] at hR
          split at hR
          · cases hR
          next hn =>
            by_contra hcc
            exact hn ⟨i, b, hb, (inKRange_iff _ _ _ _ _).2 hl, hbad i b hb ho hcc⟩
        · cases hR
    · rintro ⟨ho, hv, hb⟩
      rw [if_neg (fun h => hall.1 h hv), if_pos ho, finish, if_neg]
      · exact ⟨_, rfl⟩
      · rintro ⟨i, b, hbl, hk, hnone⟩
        have := hb i b hbl ((inKRange_iff _ _ _ _ _).1 hk)
        rw [hgood i b hbl ho this.1 this.2] at hnone
        cases hnone

/-- C52: the bins of one row have no cell in common. -/
theorem C52_disjoint (g : Grid nk nmu) (bounds : List (ℝ × ℝ)) (ho : Ordered bounds) (i : Fin nk) (a b : ℕ) (ha : a < bounds.length)
    (hb : b < bounds.length) (hab : a ≠ b) : Disjoint (bin g i bounds[a].1 bounds[a].2) (bin g i bounds[b].1 bounds[b].2) := by
  rw [Finset.disjoint_left]
  intro j h1 h2
  have e1 := (digitize_bin bounds ho (g.mu i j) a ha).2 (Finset.mem_filter.1 h1).2.2
  have e2 := (digitize_bin bounds ho (g.mu i j) b hb).2 (Finset.mem_filter.1 h2).2.2
  omega

/-- C52: a weighted mean over valid cells reproduces constants and lies between the extremes. -/
theorem C52_mean (g : Grid nk nmu) (i : Fin nk) (lo hi : ℝ) (f : Fin nmu → ℝ) (hne : (bin g i lo hi).Nonempty) :
    (∀ c, (∀ j ∈ bin g i lo hi, f j = c) → wmean g i (bin g i lo hi) f = c) ∧
    (∀ m M, (∀ j ∈ bin g i lo hi, m ≤ f j ∧ f j ≤ M) → m ≤ wmean g i (bin g i lo hi) f ∧ wmean g i (bin g i lo hi) f ≤ M) := by
  have hpos : 0 < ∑ j ∈ bin g i lo hi, weight g i j :=
    Finset.sum_pos (fun j hj => (weight_pos g i j (Finset.mem_filter.1 hj).2.1).1) hne
  have hm : ∀ m M, (∀ j ∈ bin g i lo hi, m ≤ f j ∧ f j ≤ M) → m ≤ wmean g i (bin g i lo hi) f ∧ wmean g i (bin g i lo hi) f ≤ M := by
    intro m M h
    rw [wmean, le_div_iff₀ hpos, div_le_iff₀ hpos, Finset.mul_sum, Finset.mul_sum]
    constructor
    · refine Finset.sum_le_sum fun j hj => ?_
      have := (weight_pos g i j (Finset.mem_filter.1 hj).2.1).1
      nlinarith [(h j hj).1]
    · refine Finset.sum_le_sum fun j hj => ?_
      have := (weight_pos g i j (Finset.mem_filter.1 hj).2.1).1
      nlinarith [(h j hj).2]
  refine ⟨fun c hc => ?_, hm⟩
  have := hm c c (fun j hj => by rw [hc j hj]; exact ⟨le_rfl, le_rfl⟩)
  exact le_antisymm this.2 this.1

/-- C52: the bin that ends at 1 contains the cells with `mu = 1`. -/
theorem C52_includes_one (g : Grid nk nmu) (i : Fin nk) (j : Fin nmu) (lo : ℝ) (hlo : lo ≤ 1) (hv : g.notnull (i, j)) (h1 : g.mu i j = 1) :
    j ∈ bin g i lo 1 := by
  refine Finset.mem_filter.2 ⟨Finset.mem_univ _, hv, h1.symm ▸ hlo, ?_⟩
  rw [h1]; simp only [upper]; norm_num

/-- C52 for multipoles: the result is the modes-weighted mean of `(2 ell + 1) L_ell(mu) P` over the valid cells of the row with
`0 ≤ mu < 1.0005`. -/
theorem C52_poles (g : Grid nk nmu) (ells : List ℕ) (kmin kmax : ℕ → Option ℝ) (arg : PowerArg nk nmu) (P : Fin nk → Fin nmu → Val)
    (ha : argVal g arg P) (R : Fin nk → ℕ → Val) (hR : (Poles.mk g ells kmin kmax).call arg = .ok R) (i : Fin nk) (b : ℕ)
    (hb : b < ells.length) :
    (¬ InLimits kmin kmax b (g.kcen i) → R i b = none) ∧
    (InLimits kmin kmax b (g.kcen i) → (bin g i 0 1).Nonempty ∧ (∀ j ∈ bin g i 0 1, P i j ≠ none) ∧
      R i b = some (wmean g i (bin g i 0 1) (fun j => (2 * ells[b] + 1) * leg ells[b] (g.mu i j) * (P i j).getD 0))) := by
  have ho : Ordered [((0 : ℝ), (1 : ℝ))] := by simp only [Ordered, upper]; norm_num
  have he : muEdges [adjust (0, 1)] = .ok (edgesOf [(0, 1)]) := by
    have := muEdges_eq [((0 : ℝ), (1 : ℝ))]
    rw [if_pos ho] at this
    exact this
  simp only [Poles.call, setPower_arg g arg P ha, he] at hR
  split at hR
  · cases hR
  · split at hR
    · cases hR
    · simp only [finish] at hR
      split at hR
      · cases hR
      next hn =>
        simp only [Except.ok.injEq] at hR
        subst hR
        constructor
        · intro hl; exact if_neg (fun h => hl ((inKRange_iff _ _ _ _ _).1 h))
        · intro hl
          have hk := (inKRange_iff g kmin kmax i b).2 hl
          have hval : ∀ j ∈ bin g i 0 1, g.notnull (i, j) := fun j hj => (Finset.mem_filter.1 hj).2.1
          have hgb : (bin g i 0 1).Nonempty ∧ ∀ j ∈ bin g i 0 1, P i j ≠ none := by
            by_contra hc
            refine hn ⟨i, b, hb, hk, ?_⟩
            refine (average_eq g [(0, 1)] ho _ i 0 (by simp)).2 ?_
            simp only [List.getElem_cons_zero]
            by_cases hne : (bin g i 0 1).Nonempty
            · right
              by_contra hcc
              push Not at hcc
              refine hc ⟨hne, fun j hj hP => ?_⟩
              have := hcc j hj
              simp only [if_pos (hval j hj), hP, legendreWeight, mulV, ne_eq, not_true_eq_false] at this
            · left; exact Finset.not_nonempty_iff_eq_empty.1 hne
          refine ⟨hgb.1, hgb.2, ?_⟩
          refine (if_pos hk).trans ?_
          refine (average_eq g [(0, 1)] ho _ i 0 (by simp)).1 _ (fun j hj => ?_) hgb.1
          simp only [List.getElem_cons_zero] at hj
          have hP := hgb.2 j hj
          have hell : ells.getD b 0 = ells[b] := by rw [List.getD_eq_getElem?_getD, List.getElem?_eq_getElem hb, Option.getD_some]
          simp only [if_pos (hval j hj), legendreWeight, hell]
          cases h : P i j with
          | none => exact absurd h hP
          | some v => rfl

/-- C52 fails for multipoles on a grid with one `k` bin: the call always ends with an exception. -/
theorem C52_one_k_counterexample {nmu : ℕ} (t : Poles 1 nmu) (arg : PowerArg 1 nmu) : ∃ e, t.call arg = .error e := by
  simp only [Poles.call]
  cases setPower t.grid arg with
  | error e => exact ⟨e, rfl⟩
  | ok p =>
    simp only
    split
    · exact ⟨_, rfl⟩
    · cases muEdges [adjust (0, 1)] with
      | error e => exact ⟨e, rfl⟩
      | ok edges => exact ⟨.dims, by simp⟩

/-- C52, the caller's list: two transfers made from the same list of bounds label the last bin with different values of `mu`, because the first
changes the list. -/
theorem C52_alias_counterexample (g : Grid nk nmu) (kmin kmax : ℕ → Option ℝ) :
    let first := Wedge.init g (.list [(0.8, 1)]) kmin kmax
    let second := Wedge.init g first.2 kmin kmax
    first.1.muCen = [0.9] ∧ second.1.muCen = [0.90025] ∧ first.1.bounds = second.1.bounds := by
  have h1 : adjust (0.8, 1) = (0.8, 1.0005) := by
    rw [adjust_eq]; simp only [upper]; norm_num
  have h2 : adjust (0.8, 1.0005) = (0.8, 1.0005) := by
    rw [adjust_eq]; simp only [upper]
    rw [if_neg]
    norm_num [abs_of_pos]
  simp only [Wedge.init, List.map_cons, List.map_nil, h1, h2, List.cons.injEq, and_true]
  norm_num

/-! ### Example -/

/-- two rows, three values of `mu`, one null cell -/
def exGrid : Grid 2 3 :=
  { kcen := ![0.1, 0.2], mucen := ![0, 0.5, 1], k := fun i _ => ![0.1, 0.2] i, mu := fun _ j => ![0, 1 / 2, 1] j,
    modes := fun i j => if i = 0 ∧ j = 0 then none else some (![1, 2, 3] j) }

theorem exGrid_notnull (i : Fin 2) (j : Fin 3) : exGrid.notnull (i, j) ↔ ¬ (i = 0 ∧ j = 0) := by
  simp only [Grid.notnull, exGrid]
  fin_cases i <;> fin_cases j <;> simp

theorem exBin (i : Fin 2) : bin exGrid i 0.4 1 = {1, 2} := by
  ext j
  simp only [bin, Finset.mem_filter, Finset.mem_univ, true_and, exGrid_notnull, upper]
  fin_cases j <;> simp [exGrid] <;> norm_num

/-- the hypotheses of `C52_wedges` are met and the mean is weighted -/
example : ∃ R, (Wedge.init exGrid (.list [(0.4, 1)]) (fun _ => none) (fun _ => some 0.15)).1.call (.grid (fun _ j => some (![7, 10, 20] j))) = .ok R ∧
    R 0 0 = some 16 ∧ R 1 0 = none := by
  have hex := (C52_wedges exGrid [(0.4, 1)] (fun _ => none) (fun _ => some 0.15) (.grid (fun _ j => some (![7, 10, 20] j)))
    (fun _ j => some (![7, 10, 20] j)) (Or.inl rfl))
  obtain ⟨R, hR⟩ := hex.2.2 ⟨by simp only [Ordered, upper]; norm_num, ⟨1, 1, (exGrid_notnull 1 1).2 (by simp), by simp⟩, fun i b hb _ => by
    have : b = 0 := by simpa using hb
    subst this
    simp only [List.getElem_cons_zero, exBin]
    exact ⟨⟨1, by simp⟩, by simp⟩⟩
  refine ⟨R, hR, ?_, ?_⟩
  · have := ((hex.1 R hR 0 0 (by simp)).2 (by simp [InLimits, exGrid]; norm_num)).2.2
    rw [this]
    have h1 : ([((0.4 : ℝ), (1 : ℝ))])[0] = (0.4, 1) := rfl
    simp only [h1, exBin, wmean]
    rw [Finset.sum_pair (by simp), Finset.sum_pair (by simp)]
    simp [weight, exGrid]
    norm_num
  · exact (hex.1 R hR 1 0 (by simp)).1 (by simp [InLimits, exGrid]; norm_num)

end

end Verif.Transfers
