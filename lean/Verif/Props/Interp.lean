/-
C90: interpolation on a regular grid.
-/
import Verif.Model.Interp
import Mathlib.Tactic.Ring
import Mathlib.Tactic.Linarith
import Mathlib.Tactic.FieldSimp
import Mathlib.Tactic.NormNum
import Mathlib.Algebra.BigOperators.Group.List.Basic
import Mathlib.Algebra.BigOperators.Ring.List
import Mathlib.Tactic.Push

namespace Verif.Interp

noncomputable section

/-- Strictly ascending nodes, at least two. -/
def GoodGrid (g : List ℝ) : Prop := g.Pairwise (· < ·) ∧ 2 ≤ g.length

/-- `x` lies in the cell `[g_j, g_{j+1}]`; the first cell extends to the left of the grid and the last one to the right. -/
def InCell (g : List ℝ) (x : ℝ) (j : ℕ) : Prop :=
  ∃ h : j + 1 < g.length, (g[j] ≤ x ∨ j = 0) ∧ (x ≤ g[j + 1] ∨ j + 2 = g.length)

/-- `x` lies in a cell of the grid proper. -/
def InCellClosed (g : List ℝ) (x : ℝ) (j : ℕ) : Prop := ∃ h : j + 1 < g.length, g[j] ≤ x ∧ x ≤ g[j + 1]

/-- The textbook formula: linear interpolation in the first coordinate between the interpolations in the other coordinates. -/
def multilinear : List (List ℝ) → List ℝ → List ℕ → (List ℕ → ℝ) → ℝ
  | g :: gs, x :: xs, j :: js, V =>
    let t := (x - g.getD j 0) / (g.getD (j + 1) 0 - g.getD j 0)
    (1 - t) * multilinear gs xs js (fun r => V (j :: r)) + t * multilinear gs xs js (fun r => V ((j + 1) :: r))
  | _, _, _, V => V []

/-- The table as a function of non-negative indices. -/
def entries (table : List ℤ → ℝ) (js : List ℕ) : ℝ := table (js.map Int.ofNat)

/-- nested interpolation with the cells of the code -/
def lerps : List ℤ → List ℝ → (List ℤ → ℝ) → ℝ
  | i :: is, y :: ys, V => (1 - y) * lerps is ys (fun r => V (i :: r)) + y * lerps is ys (fun r => V ((i + 1) :: r))
  | _, _, V => V []

theorem foldl_mul (l : List (ℤ × ℤ × ℝ)) (w : ℝ) :
    l.foldl (fun w e => w * (if e.1 = e.2.1 then 1 - e.2.2 else e.2.2)) w = w * l.foldl (fun w e => w * (if e.1 = e.2.1 then 1 - e.2.2 else e.2.2)) 1 := by
  induction l generalizing w with
  | nil => simp
  | cons a l ih => rw [List.foldl_cons, List.foldl_cons, ih, ih (1 * _)]; ring

theorem weight_cons (a i : ℤ) (e is : List ℤ) (y : ℝ) (ys : List ℝ) : weight (a :: e) (i :: is) (y :: ys) = (if a = i then 1 - y else y) * weight e is ys := by
  unfold weight
  rw [List.zip_cons_cons, List.zip_cons_cons, List.foldl_cons, foldl_mul]
  simp

theorem foldl_add_eq (l : List (List ℤ)) (f : List ℤ → ℝ) (s : ℝ) : l.foldl (fun s e => s + f e) s = s + (l.map f).sum := by
  induction l generalizing s with
  | nil => simp
  | cons a l ih => rw [List.foldl_cons, ih, List.map_cons, List.sum_cons]; ring

theorem sum_product (is : List ℤ) (ys : List ℝ) (hl : ys.length = is.length) (V : List ℤ → ℝ) :
    ((product (is.map fun i => [i, i + 1])).map fun e => V e * weight e is ys).sum = lerps is ys V := by
  induction is generalizing ys V with
  | nil => simp [product, lerps, weight]
  | cons i is ih =>
    cases ys with
    | nil => simp at hl
    | cons y ys =>
      have hl' : ys.length = is.length := by simpa using hl
      simp only [List.map_cons, product, List.flatMap_cons, List.flatMap_nil, List.append_nil, List.map_append, List.map_map, List.sum_append, lerps]
      congr 1
      · rw [← ih ys hl' fun r => V (i :: r), ← List.sum_map_mul_left]
        congr 1
        apply List.map_congr_left
        intro e _
        simp only [Function.comp, weight_cons, if_true]
        ring
      · rw [← ih ys hl' fun r => V ((i + 1) :: r), ← List.sum_map_mul_left]
        congr 1
        apply List.map_congr_left
        intro e _
        have : ¬ (i + 1 = i) := by omega
        simp only [Function.comp, weight_cons, if_neg this]
        ring

theorem evaluateLinear_eq (V : List ℤ → ℝ) (is : List ℤ) (ys : List ℝ) (hl : ys.length = is.length) : evaluateLinear V is ys = lerps is ys V := by
  unfold evaluateLinear
  rw [foldl_add_eq _ (fun e => V e * weight e is ys), sum_product is ys hl]
  ring

/-- `searchsorted`: all nodes before the position are below `x`, all from it on are at least `x`. -/
theorem searchsorted_spec (g : List ℝ) (hg : g.Pairwise (· < ·)) (x : ℝ) :
    searchsorted g x ≤ g.length ∧ (∀ i (h : i < g.length), i < searchsorted g x ↔ g[i] < x) := by
  induction g with
  | nil => simp [searchsorted]
  | cons a g ih =>
    obtain ⟨ih1, ih2⟩ := ih (List.pairwise_cons.1 hg).2
    by_cases h : a < x
    · have e : searchsorted (a :: g) x = searchsorted g x + 1 := by simp [searchsorted, h]
      rw [e]
      refine ⟨by simpa using ih1, ?_⟩
      intro i hi
      cases i with
      | zero => simpa using h
      | succ i => simpa using ih2 i (by simpa using hi)
    · have e : searchsorted (a :: g) x = 0 := by simp [searchsorted, h]
      rw [e]
      refine ⟨Nat.zero_le _, ?_⟩
      intro i hi
      refine ⟨fun h => by omega, fun hlt => ?_⟩
      exfalso
      apply h
      cases i with
      | zero => simpa using hlt
      | succ i =>
        have hi' : i < g.length := by simpa using hi
        have := (List.pairwise_cons.1 hg).1 g[i] (List.getElem_mem _)
        exact this.trans (by simpa using hlt)

theorem pyGet_nat (g : List ℝ) (j : ℕ) : pyGet g (j : ℤ) = g.getD j 0 := by
  unfold pyGet
  rw [if_neg (by omega)]
  simp

/-- The cell of the code is a cell of `x`. -/
theorem cellIndex_spec (g : List ℝ) (hg : GoodGrid g) (x : ℝ) : ∃ j : ℕ, cellIndex g x = j ∧ InCell g x j := by
  obtain ⟨hp, hl⟩ := hg
  obtain ⟨s1, s2⟩ := searchsorted_spec g hp x
  unfold cellIndex
  simp only
  generalize hs : searchsorted g x = s at s1 s2
  by_cases h0 : s = 0
  · refine ⟨0, ?_, ⟨by omega, Or.inr rfl, Or.inl ?_⟩⟩
    · subst h0
      split_ifs <;> simp at * <;> omega
    · have := s2 0 (by omega)
      have hn : ¬ g[0] < x := fun h => by have := this.2 h; omega
      have := List.pairwise_iff_getElem.1 hp 0 1 (by omega) (by omega) (by omega)
      linarith
  · by_cases h1 : s = g.length
    · refine ⟨g.length - 2, ?_, ⟨by omega, Or.inl ?_, Or.inr (by omega)⟩⟩
      · split_ifs <;> omega
      · have := (s2 (g.length - 2) (by omega)).1 (by omega)
        exact this.le
    · refine ⟨s - 1, ?_, ⟨by omega, Or.inl ?_, Or.inl ?_⟩⟩
      · split_ifs <;> omega
      · exact ((s2 (s - 1) (by omega)).1 (by omega)).le
      · have hn : ¬ g[s - 1 + 1] < x := fun h => by
          have := (s2 (s - 1 + 1) (by omega)).2 h
          omega
        exact le_of_not_gt hn

/-- On a shared node (and only there) two cells contain `x`, and they interpolate to the same value. -/
theorem cell_irrelevant (g : List ℝ) (hg : GoodGrid g) (x : ℝ) (i j : ℕ) (hi : InCell g x i) (hj : InCell g x j) (F : ℕ → ℝ) :
    (1 - (x - g.getD i 0) / (g.getD (i + 1) 0 - g.getD i 0)) * F i + (x - g.getD i 0) / (g.getD (i + 1) 0 - g.getD i 0) * F (i + 1) =
    (1 - (x - g.getD j 0) / (g.getD (j + 1) 0 - g.getD j 0)) * F j + (x - g.getD j 0) / (g.getD (j + 1) 0 - g.getD j 0) * F (j + 1) := by
  wlog h : i ≤ j generalizing i j
  · exact (this j i hj hi (by omega)).symm
  obtain ⟨hp, hl⟩ := hg
  by_cases hij : i = j
  · rw [hij]
  obtain ⟨i1, i2, i3⟩ := hi
  obtain ⟨j1, j2, j3⟩ := hj
  have hxi : x ≤ g[i + 1] := by
    rcases i3 with h | h
    · exact h
    · omega
  have hxj : g[j] ≤ x := by
    rcases j2 with h | h
    · exact h
    · omega
  have hj' : j = i + 1 := by
    by_contra hne
    have := List.pairwise_iff_getElem.1 hp (i + 1) j (by omega) (by omega) (by omega)
    linarith
  subst hj'
  have hx : x = g[i + 1] := le_antisymm hxi hxj
  have e1 : g.getD (i + 1) 0 = x := by rw [hx]; simp [List.getD_eq_getElem?_getD, i1]
  have hlt := List.pairwise_iff_getElem.1 hp i (i + 1) (by omega) (by omega) (by omega)
  have e2 : g.getD i 0 = g[i] := by
    have : i < g.length := by omega
    simp [List.getD_eq_getElem?_getD, this]
  rw [e1, e2]
  have hne : x - g[i] ≠ 0 := by rw [hx]; linarith
  rw [div_self hne]
  simp

theorem lerps_eq (gs : List (List ℝ)) (hg : ∀ g ∈ gs, GoodGrid g) (xs : List ℝ) (js : List ℕ) (hc : List.Forall₂ (fun gx j => InCell gx.1 gx.2 j) (gs.zip xs) js)
    (hl : xs.length = gs.length) (V : List ℤ → ℝ) :
    lerps (List.zipWith cellIndex gs xs) (List.zipWith normDistance gs xs) V = multilinear gs xs js (entries V) := by
  induction gs generalizing xs js V with
  | nil =>
    simp at hc; subst hc
    simp [lerps, multilinear, entries]
  | cons g gs ih =>
    cases xs with
    | nil => simp at hl
    | cons x xs =>
      cases js with
      | nil => simp at hc
      | cons j js =>
        rw [List.zip_cons_cons, List.forall₂_cons] at hc
        obtain ⟨hj, hc⟩ := hc
        have hg1 := hg g List.mem_cons_self
        obtain ⟨i, ei, hi⟩ := cellIndex_spec g hg1 x
        have ih' := fun V => ih (fun g hg' => hg g (List.mem_cons_of_mem _ hg')) xs js hc (by simpa using hl) V
        simp only [List.zipWith_cons_cons, lerps, multilinear, ih']
        have hn : normDistance g x = (x - g.getD i 0) / (g.getD (i + 1) 0 - g.getD i 0) := by
          unfold normDistance
          rw [ei, pyGet_nat]
          have : ((i : ℤ) + 1) = ((i + 1 : ℕ) : ℤ) := by push_cast; rfl
          rw [this, pyGet_nat]
        rw [hn, ei]
        have := cell_irrelevant g hg1 x i j hi hj fun n => multilinear gs xs js (fun r => entries V (n :: r))
        rw [← this]
        rfl

/-- C90: in any cell containing the point — also a shared face, and also beyond the grid when extrapolation is asked for — the value is the multilinear
interpolation of the corner values of that cell: for every grid, table, dimension and point. -/
theorem C90_linear (I : Interp) (hg : ∀ g ∈ I.grid, GoodGrid g) (x : List ℝ) (hl : x.length = I.grid.length) (js : List ℕ)
    (hc : List.Forall₂ (fun gx j => InCell gx.1 gx.2 j) (I.grid.zip x) js) :
    evalPoint I .linear x = some (multilinear I.grid x js (entries I.table)) := by
  unfold evalPoint
  rw [if_neg]
  · simp only
    rw [evaluateLinear_eq _ _ _ (by simp), lerps_eq _ hg x js hc hl]
  · intro h
    obtain ⟨g, hg', h2⟩ := List.any_eq_true.1 h
    have := (hg g hg').2
    simp only [decide_eq_true_eq] at h2
    omega

theorem nodes_inCell (g : List ℝ) (hg : GoodGrid g) (n : ℕ) (h : n < g.length) : ∃ j, InCell g g[n] j ∧ InCellClosed g g[n] j ∧ (n = j ∨ n = j + 1) := by
  obtain ⟨hp, hl⟩ := hg
  by_cases hn : n + 1 < g.length
  · have := List.pairwise_iff_getElem.1 hp n (n + 1) (by omega) (by omega) (by omega)
    exact ⟨n, ⟨hn, Or.inl le_rfl, Or.inl this.le⟩, ⟨hn, le_rfl, this.le⟩, Or.inl rfl⟩
  · have e : n - 1 + 1 = n := by omega
    have := List.pairwise_iff_getElem.1 hp (n - 1) n (by omega) (by omega) (by omega)
    refine ⟨n - 1, ⟨by omega, Or.inl this.le, Or.inl ?_⟩, ⟨by omega, this.le, ?_⟩, Or.inr e.symm⟩
    · simp only [e]; exact le_rfl
    · simp only [e]; exact le_rfl

theorem exists_cells (gs : List (List ℝ)) (hg : ∀ g ∈ gs, GoodGrid g) (x : List ℝ) (hl : x.length = gs.length) :
    ∃ js, List.Forall₂ (fun gx j => InCell gx.1 gx.2 j) (gs.zip x) js := by
  induction gs generalizing x with
  | nil => exact ⟨[], by simp⟩
  | cons g gs ih =>
    cases x with
    | nil => simp at hl
    | cons a x =>
      obtain ⟨js, h⟩ := ih (fun g hg' => hg g (List.mem_cons_of_mem _ hg')) x (by simpa using hl)
      obtain ⟨j, -, hj⟩ := cellIndex_spec g (hg g List.mem_cons_self) a
      exact ⟨j :: js, List.Forall₂.cons hj h⟩

/-- C90: at every node the tabulated value is returned. -/
theorem C90_nodes (I : Interp) (hg : ∀ g ∈ I.grid, GoodGrid g) (ns : List ℕ) (x : List ℝ)
    (hx : List.Forall₂ (fun gn a => ∃ h : gn.2 < gn.1.length, a = gn.1[gn.2]) (I.grid.zip ns) x) (hn : ns.length = I.grid.length) :
    evalPoint I .linear x = some (I.table (ns.map Int.ofNat)) := by
  have key : ∀ (gs : List (List ℝ)), (∀ g ∈ gs, GoodGrid g) → ∀ (ns : List ℕ) (x : List ℝ), ns.length = gs.length →
      List.Forall₂ (fun gn a => ∃ h : gn.2 < gn.1.length, a = gn.1[gn.2]) (gs.zip ns) x → ∀ V : List ℕ → ℝ, x.length = gs.length ∧
      ∃ js, List.Forall₂ (fun gx j => InCell gx.1 gx.2 j) (gs.zip x) js ∧ multilinear gs x js V = V ns := by
    intro gs
    induction gs with
    | nil =>
      intro _ ns x hn hx V
      have : ns = [] := by simpa using hn
      subst this
      simp at hx; subst hx
      exact ⟨rfl, [], by simp, rfl⟩
    | cons g gs ih =>
      intro hg ns x hn hx V
      cases ns with
      | nil => simp at hn
      | cons n ns =>
        cases x with
        | nil => simp at hx
        | cons a x =>
          rw [List.zip_cons_cons, List.forall₂_cons] at hx
          obtain ⟨⟨hlt, ha⟩, hx⟩ := hx
          simp only at hlt ha
          have hg1 := hg g List.mem_cons_self
          obtain ⟨j, hj, -, hcase⟩ := nodes_inCell g hg1 n hlt
          obtain ⟨hlx, js, hjs, -⟩ := ih (fun g hg' => hg g (List.mem_cons_of_mem _ hg')) ns x (by simpa using hn) hx V
          have hmul : ∀ V : List ℕ → ℝ, multilinear gs x js V = V ns := by
            intro V
            obtain ⟨-, js', hjs', e⟩ := ih (fun g hg' => hg g (List.mem_cons_of_mem _ hg')) ns x (by simpa using hn) hx V
            have h1 := lerps_eq gs (fun g hg' => hg g (List.mem_cons_of_mem _ hg')) x js hjs hlx (fun l => V (l.map Int.toNat))
            have h2 := lerps_eq gs (fun g hg' => hg g (List.mem_cons_of_mem _ hg')) x js' hjs' hlx (fun l => V (l.map Int.toNat))
            have hV : entries (fun l => V (l.map Int.toNat)) = V := by
              funext l
              simp [entries, Function.comp_def]
            rw [hV] at h1 h2
            rw [← h1, h2, e]
          refine ⟨by simpa using hlx, j :: js, List.Forall₂.cons (by rw [ha]; exact hj) hjs, ?_⟩
          simp only [multilinear, hmul]
          obtain ⟨hj1, -, -⟩ := hj
          have hlt' := List.pairwise_iff_getElem.1 hg1.1 j (j + 1) (by omega) (by omega) (by omega)
          have d1 : g.getD j 0 = g[j] := by
            have : j < g.length := by omega
            simp [List.getD_eq_getElem?_getD, this]
          have d2 : g.getD (j + 1) 0 = g[j + 1] := by simp [List.getD_eq_getElem?_getD, hj1]
          rw [d1, d2, ha]
          rcases hcase with rfl | rfl
          · simp
          · rw [div_self (by linarith)]; simp
  obtain ⟨hlx, js, hjs, e⟩ := key I.grid hg ns x hn hx (entries I.table)
  rw [C90_linear I hg x hlx js hjs, e]
  rfl

/-- The corners of the cell `js`. -/
inductive Corner : List ℕ → List ℕ → Prop
  | nil : Corner [] []
  | low {j js r} : Corner js r → Corner (j :: js) (j :: r)
  | high {j js r} : Corner js r → Corner (j :: js) ((j + 1) :: r)

/-- C90: inside the grid the value lies between the smallest and the largest of the corner values of the enclosing cell. -/
theorem C90_between (I : Interp) (hg : ∀ g ∈ I.grid, GoodGrid g) (x : List ℝ) (hl : x.length = I.grid.length) (js : List ℕ)
    (hc : List.Forall₂ (fun gx j => InCellClosed gx.1 gx.2 j) (I.grid.zip x) js) (lo hi : ℝ)
    (hb : ∀ r, Corner js r → lo ≤ I.table (r.map Int.ofNat) ∧ I.table (r.map Int.ofNat) ≤ hi) :
    ∃ v, evalPoint I .linear x = some v ∧ lo ≤ v ∧ v ≤ hi := by
  have hc' : List.Forall₂ (fun gx j => InCell gx.1 gx.2 j) (I.grid.zip x) js :=
    hc.imp fun gx j ⟨h, h1, h2⟩ => ⟨h, Or.inl h1, Or.inl h2⟩
  refine ⟨_, C90_linear I hg x hl js hc', ?_⟩
  have key : ∀ (gs : List (List ℝ)), (∀ g ∈ gs, GoodGrid g) → ∀ (x : List ℝ) (js : List ℕ), x.length = gs.length →
      List.Forall₂ (fun gx j => InCellClosed gx.1 gx.2 j) (gs.zip x) js → ∀ V : List ℕ → ℝ, (∀ r, Corner js r → lo ≤ V r ∧ V r ≤ hi) →
      lo ≤ multilinear gs x js V ∧ multilinear gs x js V ≤ hi := by
    intro gs
    induction gs with
    | nil =>
      intro _ x js _ h V hV
      simp at h; subst h
      simpa [multilinear] using hV [] .nil
    | cons g gs ih =>
      intro hg x js hl h V hV
      cases x with
      | nil => simp at hl
      | cons a x =>
        cases js with
        | nil => simp at h
        | cons j js =>
          rw [List.zip_cons_cons, List.forall₂_cons] at h
          obtain ⟨⟨h1, h2, h3⟩, h⟩ := h
          simp only at h1 h2 h3
          have hg1 := hg g List.mem_cons_self
          have hlt' := List.pairwise_iff_getElem.1 hg1.1 j (j + 1) (by omega) (by omega) (by omega)
          obtain ⟨a1, a2⟩ := ih (fun g hg' => hg g (List.mem_cons_of_mem _ hg')) x js (by simpa using hl) h (fun r => V (j :: r)) fun r hr => hV _ (.low hr)
          obtain ⟨b1, b2⟩ := ih (fun g hg' => hg g (List.mem_cons_of_mem _ hg')) x js (by simpa using hl) h (fun r => V ((j + 1) :: r)) fun r hr => hV _ (.high hr)
          simp only [multilinear]
          have d1 : g.getD j 0 = g[j] := by
            have : j < g.length := by omega
            simp [List.getD_eq_getElem?_getD, this]
          have d2 : g.getD (j + 1) 0 = g[j + 1] := by simp [List.getD_eq_getElem?_getD, h1]
          rw [d1, d2]
          have t0 : 0 ≤ (a - g[j]) / (g[j + 1] - g[j]) := div_nonneg (by linarith) (by linarith)
          have t1 : (a - g[j]) / (g[j + 1] - g[j]) ≤ 1 := by
            rw [div_le_one (by linarith)]; linarith
          generalize (a - g[j]) / (g[j + 1] - g[j]) = t at t0 t1
          generalize multilinear gs x js (fun r => V (j :: r)) = A at a1 a2
          generalize multilinear gs x js (fun r => V ((j + 1) :: r)) = B at b1 b2
          constructor <;> nlinarith
  exact key I.grid hg x js hl hc _ hb

/-- `f` is affine in each of its `n` arguments separately. -/
def MultiAffine : ℕ → (List ℝ → ℝ) → Prop
  | 0, _ => True
  | n + 1, f => (∀ a b t xs, f (((1 - t) * a + t * b) :: xs) = (1 - t) * f (a :: xs) + t * f (b :: xs)) ∧ ∀ a, MultiAffine n fun xs => f (a :: xs)

/-- C90: tables of functions that are affine in each coordinate are interpolated (and extrapolated) exactly. -/
theorem C90_exact (I : Interp) (hg : ∀ g ∈ I.grid, GoodGrid g) (f : List ℝ → ℝ) (hf : MultiAffine I.grid.length f)
    (ht : ∀ ns : List ℕ, ns.length = I.grid.length → I.table (ns.map Int.ofNat) = f (List.zipWith (fun g n => g.getD n 0) I.grid ns))
    (x : List ℝ) (hl : x.length = I.grid.length) : evalPoint I .linear x = some (f x) := by
  obtain ⟨js, hjs⟩ := exists_cells I.grid hg x hl
  rw [C90_linear I hg x hl js hjs]
  congr 1
  have key : ∀ (gs : List (List ℝ)), (∀ g ∈ gs, GoodGrid g) → ∀ (x : List ℝ) (js : List ℕ), x.length = gs.length →
      List.Forall₂ (fun gx j => InCell gx.1 gx.2 j) (gs.zip x) js → ∀ (V : List ℕ → ℝ) (f : List ℝ → ℝ), MultiAffine gs.length f →
      (∀ ns : List ℕ, ns.length = gs.length → V ns = f (List.zipWith (fun g n => g.getD n 0) gs ns)) → multilinear gs x js V = f x := by
    intro gs
    induction gs with
    | nil =>
      intro _ x js hl h V f _ hV
      have : x = [] := by simpa using hl
      subst this
      simp at h; subst h
      simpa [multilinear] using hV [] rfl
    | cons g gs ih =>
      intro hg x js hl h V f hf hV
      cases x with
      | nil => simp at hl
      | cons a x =>
        cases js with
        | nil => simp at h
        | cons j js =>
          rw [List.zip_cons_cons, List.forall₂_cons] at h
          obtain ⟨⟨h1, -, -⟩, h⟩ := h
          simp only at h1
          have hg1 := hg g List.mem_cons_self
          have hlt' := List.pairwise_iff_getElem.1 hg1.1 j (j + 1) (by omega) (by omega) (by omega)
          have d1 : g.getD j 0 = g[j] := by
            have : j < g.length := by omega
            simp [List.getD_eq_getElem?_getD, this]
          have d2 : g.getD (j + 1) 0 = g[j + 1] := by simp [List.getD_eq_getElem?_getD, h1]
          simp only [multilinear]
          rw [ih (fun g hg' => hg g (List.mem_cons_of_mem _ hg')) x js (by simpa using hl) h (fun r => V (j :: r)) (fun r => f (g.getD j 0 :: r)) (hf.2 _)
              fun ns hns => by rw [hV _ (by simpa using hns)]; rfl,
            ih (fun g hg' => hg g (List.mem_cons_of_mem _ hg')) x js (by simpa using hl) h (fun r => V ((j + 1) :: r)) (fun r => f (g.getD (j + 1) 0 :: r)) (hf.2 _)
              fun ns hns => by rw [hV _ (by simpa using hns)]; rfl, ← hf.1, d1, d2]
          congr 2
          have : g[j + 1] - g[j] ≠ 0 := by linarith
          field_simp
          ring
  exact key I.grid hg x js hl hjs _ f hf ht

/-- Inside the rectangle of the grid (faces included). -/
def InDomain (gs : List (List ℝ)) (x : List ℝ) : Prop := List.Forall₂ (fun g a => ∃ h : g ≠ [], g.head h ≤ a ∧ a ≤ g.getLast h) gs x

theorem inside_iff (gs : List (List ℝ)) (hne : ∀ g ∈ gs, g ≠ []) (x : List ℝ) (hl : x.length = gs.length) :
    ((gs.zip x).all fun gx => inside gx.1 gx.2) = true ↔ InDomain gs x := by
  unfold InDomain
  induction gs generalizing x with
  | nil =>
    have : x = [] := by simpa using hl
    subst this; simp
  | cons g gs ih =>
    cases x with
    | nil => simp at hl
    | cons a x =>
      have hg := hne g List.mem_cons_self
      rw [List.zip_cons_cons, List.all_cons, Bool.and_eq_true, ih (fun g hg' => hne g (List.mem_cons_of_mem _ hg')) x (by simpa using hl), List.forall₂_cons]
      apply and_congr_left
      intro _
      have e1 : g.headD 0 = g.head hg := by cases g <;> simp_all
      have e2 : g.getLastD 0 = g.getLast hg := by rw [List.getLastD_eq_getLast?, List.getLast?_eq_some_getLast hg]; rfl
      simp only [inside, e1, e2, Bool.and_eq_true, decide_eq_true_eq]
      exact ⟨fun h => ⟨hg, h⟩, fun ⟨_, h⟩ => h⟩

/-- C90, the domain check: with `bounds_error` a call raises exactly if one of the points is outside of the closed rectangle of the grid; otherwise there is one value
per point, which is that of the point alone. -/
theorem C90_domain (I : Interp) (hg : ∀ g ∈ I.grid, GoodGrid g) (hb : I.boundsError = true) (xi : List (List ℝ)) (hl : ∀ x ∈ xi, x.length = I.grid.length)
    (m : Option Method) :
    (call I xi m = .domainError ↔ ∃ x ∈ xi, ¬ InDomain I.grid x) ∧
    ((∀ x ∈ xi, InDomain I.grid x) → call I xi m = .values (xi.map (evalPoint I (m.getD I.method)))) := by
  have hne : ∀ g ∈ I.grid, g ≠ [] := by
    intro g hg' e
    have := (hg g hg').2
    simp [e] at this
  have c1 : (xi.any fun x => decide (x.length ≠ I.grid.length)) = false := by
    rw [List.any_eq_false]; intro x hx; simp [hl x hx]
  have c2 : (I.grid.any fun g => g.isEmpty) = false := by
    rw [List.any_eq_false]; intro g hg'; simp [hne g hg']
  have c3 : (xi.all fun x => (I.grid.zip x).all fun gx => inside gx.1 gx.2) = true ↔ ∀ x ∈ xi, InDomain I.grid x := by
    rw [List.all_eq_true]
    exact forall₂_congr fun x hx => inside_iff I.grid hne x (hl x hx)
  have hfill : ∀ x v, fillPoint I x v = v := by
    intro x v; unfold fillPoint; rw [hb]
  have hcall : call I xi m = if (xi.all fun x => (I.grid.zip x).all fun gx => inside gx.1 gx.2) = true then .values (xi.map (evalPoint I (m.getD I.method))) else .domainError := by
    unfold call
    simp only [c1, c2, hb, hfill]
    cases (xi.all fun x => (I.grid.zip x).all fun gx => inside gx.1 gx.2) <;> simp
  rw [hcall]
  constructor
  · by_cases h : ∀ x ∈ xi, InDomain I.grid x
    · rw [if_pos (c3.2 h)]
      constructor
      · intro h; cases h
      · rintro ⟨x, hx, hn⟩; exact absurd (h x hx) hn
    · rw [if_neg (fun h' => h (c3.1 h'))]
      push Not at h
      simp [h]
  · intro h
    rw [if_pos (c3.2 h)]

/-- C90, without `bounds_error`: points outside the closed rectangle get the fill value if there is one, all others (and all if there is none) their own value. -/
theorem C90_fill (I : Interp) (hg : ∀ g ∈ I.grid, GoodGrid g) (hb : I.boundsError = false) (xi : List (List ℝ)) (hl : ∀ x ∈ xi, x.length = I.grid.length)
    (m : Option Method) : ∃ vs, call I xi m = .values vs ∧ List.Forall₂ (fun x v =>
      (InDomain I.grid x → v = evalPoint I (m.getD I.method) x) ∧ (¬ InDomain I.grid x → v = I.fill.getD (evalPoint I (m.getD I.method) x))) xi vs := by
  have hne : ∀ g ∈ I.grid, g ≠ [] := by
    intro g hg' e
    have := (hg g hg').2
    simp [e] at this
  have c1 : (xi.any fun x => decide (x.length ≠ I.grid.length)) = false := by
    rw [List.any_eq_false]; intro x hx; simp [hl x hx]
  have c2 : (I.grid.any fun g => g.isEmpty) = false := by
    rw [List.any_eq_false]; intro g hg'; simp [hne g hg']
  refine ⟨xi.map fun x => fillPoint I x (evalPoint I (m.getD I.method) x), ?_, ?_⟩
  · unfold call
    simp only [c1, c2, hb]
    simp
  · rw [List.forall₂_map_right_iff, List.forall₂_same]
    intro x hx
    have hany : ((I.grid.zip x).any fun gx => decide (gx.2 < gx.1.headD 0) || decide (gx.2 > gx.1.getLastD 0)) = !((I.grid.zip x).all fun gx => inside gx.1 gx.2) := by
      rw [List.not_all_eq_any_not]
      congr 1
      funext gx
      unfold inside
      rw [Bool.not_and, ← decide_not, ← decide_not]
      simp only [not_le, gt_iff_lt]
    unfold fillPoint
    rw [hb]
    cases hf : I.fill with
    | none => simp
    | some f =>
      simp only [hany, Option.getD_some]
      have := inside_iff I.grid hne x (hl x hx)
      by_cases h : InDomain I.grid x
      · simp [this.2 h, h]
      · have h' : ((I.grid.zip x).all fun gx => inside gx.1 gx.2) = false := by
          rw [Bool.eq_false_iff]; exact fun e => h (this.1 e)
        simp [h', h]

/-- C90, the constructor: accepted exactly if there are at most as many coordinate arrays as table dimensions, each strictly ascending and as long as its dimension. -/
theorem C90_constructor (grid : List (List ℝ)) (shape : List ℕ) (table : List ℤ → ℝ) (m : Method) (b : Bool) (fill : Option (Option ℝ)) :
    (∃ I, mkInterp grid shape table m b fill = some I ∧ I.grid = grid ∧ I.table = table ∧ I.method = m ∧ I.boundsError = b ∧ I.fill = fill) ↔
    (∃ rest, shape = grid.map List.length ++ rest) ∧ ∀ g ∈ grid, g.Pairwise (· < ·) := by
  have key : ∀ (grid : List (List ℝ)) (shape : List ℕ), grid.length ≤ shape.length →
      ((((grid.zip shape).all fun gs => decide (gs.1.IsChain (· < ·)) && decide (gs.2 = gs.1.length)) = true) ↔
      (∃ rest, shape = grid.map List.length ++ rest) ∧ ∀ g ∈ grid, g.Pairwise (· < ·)) := by
    intro grid
    induction grid with
    | nil => intro shape _; simp
    | cons g gs ih =>
      intro shape hs
      cases shape with
      | nil => simp at hs
      | cons s shape =>
        rw [List.zip_cons_cons, List.all_cons, Bool.and_eq_true, ih shape (by simpa using hs), Bool.and_eq_true, decide_eq_true_eq, decide_eq_true_eq, List.isChain_iff_pairwise]
        simp only [List.map_cons, List.cons_append, List.cons.injEq, List.mem_cons, forall_eq_or_imp]
        constructor
        · rintro ⟨⟨h1, h2⟩, ⟨r, h3⟩, h4⟩
          exact ⟨⟨r, h2, h3⟩, h1, h4⟩
        · rintro ⟨⟨r, h2, h3⟩, h1, h4⟩
          exact ⟨⟨h1, h2⟩, ⟨r, h3⟩, h4⟩
  unfold mkInterp
  by_cases h : shape.length < grid.length
  · rw [if_pos h]
    constructor
    · rintro ⟨I, h, -⟩; cases h
    · rintro ⟨⟨r, e⟩, -⟩
      rw [e] at h
      simp at h
  · rw [if_neg h]
    have hk := key grid shape (by omega)
    by_cases hc : ((grid.zip shape).all fun gs => decide (gs.1.IsChain (· < ·)) && decide (gs.2 = gs.1.length)) = true
    · rw [if_pos hc]
      exact ⟨fun _ => hk.1 hc, fun _ => ⟨_, rfl, rfl, rfl, rfl, rfl, rfl⟩⟩
    · rw [if_neg hc]
      constructor
      · rintro ⟨I, h, -⟩; cases h
      · intro h'; exact absurd (hk.2 h') hc

/-- C90, violation: a coordinate with a single node is accepted by the constructor, but nothing can be interpolated, not even at the node. -/
theorem C90_single_node_counterexample (c : ℝ) (table : List ℤ → ℝ) :
    ∃ I, mkInterp [[c]] [1] table .linear true (some none) = some I ∧ call I [[c]] none = .values [none] := by
  refine ⟨⟨[[c]], table, .linear, true, some none⟩, ?_, ?_⟩
  · simp [mkInterp]
  · simp [call, inside, fillPoint, evalPoint]

/-- C90, nearest neighbour: each coordinate of the node used is nearest to the point (lower one on ties). -/
theorem C90_nearest (I : Interp) (hg : ∀ g ∈ I.grid, GoodGrid g) (x : List ℝ) (hl : x.length = I.grid.length) :
    ∃ ns : List ℕ, evalPoint I .nearest x = some (I.table (ns.map Int.ofNat)) ∧
      List.Forall₂ (fun gx n => ∃ h : n < gx.1.length, ∀ b ∈ gx.1, |gx.2 - gx.1[n]| ≤ |gx.2 - b|) (I.grid.zip x) ns := by
  have key : ∀ (gs : List (List ℝ)), (∀ g ∈ gs, GoodGrid g) → ∀ (x : List ℝ), x.length = gs.length →
      ∃ ns : List ℕ, List.zipWith (fun i y => if y ≤ 1 / 2 then i else i + 1) (List.zipWith cellIndex gs x) (List.zipWith normDistance gs x) = ns.map Int.ofNat ∧
      List.Forall₂ (fun gx n => ∃ h : n < gx.1.length, ∀ b ∈ gx.1, |gx.2 - gx.1[n]| ≤ |gx.2 - b|) (gs.zip x) ns := by
    intro gs
    induction gs with
    | nil => intro _ x hl; exact ⟨[], by simp, by simp⟩
    | cons g gs ih =>
      intro hg x hl
      cases x with
      | nil => simp at hl
      | cons a x =>
        obtain ⟨ns, e, h⟩ := ih (fun g hg' => hg g (List.mem_cons_of_mem _ hg')) x (by simpa using hl)
        obtain ⟨hp, h2⟩ := hg g List.mem_cons_self
        obtain ⟨j, ej, hj1, hj2, hj3⟩ := cellIndex_spec g (hg g List.mem_cons_self) a
        have hlt := List.pairwise_iff_getElem.1 hp j (j + 1) (by omega) (by omega) (by omega)
        have d1 : g.getD j 0 = g[j] := by
          have : j < g.length := by omega
          simp [List.getD_eq_getElem?_getD, this]
        have d2 : g.getD (j + 1) 0 = g[j + 1] := by simp [List.getD_eq_getElem?_getD, hj1]
        have hn : normDistance g a = (a - g[j]) / (g[j + 1] - g[j]) := by
          unfold normDistance
          rw [ej, pyGet_nat]
          have : ((j : ℤ) + 1) = ((j + 1 : ℕ) : ℤ) := by push_cast; rfl
          rw [this, pyGet_nat, d1, d2]
        have hpos : 0 < g[j + 1] - g[j] := by linarith
        -- every node is at most `g[j]` or at least `g[j+1]`
        have hnodes : ∀ b ∈ g, b ≤ g[j] ∨ g[j + 1] ≤ b := by
          intro b hb
          obtain ⟨n, hn, rfl⟩ := List.getElem_of_mem hb
          by_cases hnj : n ≤ j
          · left
            rcases Nat.lt_or_ge n j with h | h
            · exact (List.pairwise_iff_getElem.1 hp n j _ _ h).le
            · have : n = j := by omega
              subst this; exact le_rfl
          · right
            rcases Nat.lt_or_ge (j + 1) n with h | h
            · exact (List.pairwise_iff_getElem.1 hp (j + 1) n _ _ h).le
            · have : n = j + 1 := by omega
              subst this; exact le_rfl
        have hlow : ∀ b ∈ g, j = 0 → g[j] ≤ b := by
          intro b hb h0
          obtain ⟨n, hn, rfl⟩ := List.getElem_of_mem hb
          subst h0
          rcases Nat.eq_zero_or_pos n with h | h
          · subst h; exact le_rfl
          · exact (List.pairwise_iff_getElem.1 hp 0 n _ _ h).le
        have hhigh : ∀ b ∈ g, j + 2 = g.length → b ≤ g[j + 1] := by
          intro b hb h0
          obtain ⟨n, hn, rfl⟩ := List.getElem_of_mem hb
          rcases Nat.lt_or_ge n (j + 1) with h | h
          · exact (List.pairwise_iff_getElem.1 hp n (j + 1) _ _ h).le
          · have : n = j + 1 := by omega
            subst this; exact le_rfl
        by_cases hy : normDistance g a ≤ 1 / 2
        · refine ⟨j :: ns, ?_, List.Forall₂.cons ⟨show j < g.length by omega, ?_⟩ h⟩
          · simp only [List.zipWith_cons_cons, e, List.map_cons, ej, if_pos hy]
            rfl
          · intro b hb
            simp only at hb ⊢
            rw [hn, div_le_iff₀ hpos] at hy
            rcases le_total g[j] a with h1 | h1
            · rw [abs_of_nonneg (by linarith)]
              rcases hnodes b hb with h3 | h3
              · exact le_trans (by linarith) (le_abs_self _)
              · exact le_trans (by linarith) (neg_le_abs _)
            · rcases hj2 with h4 | h4
              · have : a = g[j] := le_antisymm h1 h4
                rw [this]; simp
              · rw [abs_of_nonpos (by linarith)]
                have := hlow b hb h4
                exact le_trans (by linarith) (neg_le_abs _)
        · refine ⟨(j + 1) :: ns, ?_, List.Forall₂.cons ⟨show j + 1 < g.length by omega, ?_⟩ h⟩
          · simp only [List.zipWith_cons_cons, e, List.map_cons, ej, if_neg hy]
            rfl
          · intro b hb
            simp only at hb ⊢
            rw [hn, div_le_iff₀ hpos, not_le] at hy
            rcases le_total a g[j + 1] with h1 | h1
            · rw [abs_of_nonpos (by linarith)]
              rcases hnodes b hb with h3 | h3
              · exact le_trans (by linarith) (le_abs_self _)
              · exact le_trans (by linarith) (neg_le_abs _)
            · rcases hj3 with h4 | h4
              · have : a = g[j + 1] := le_antisymm h4 h1
                rw [← this]; simp
              · rw [abs_of_nonneg (by linarith)]
                have := hhigh b hb h4
                exact le_trans (by linarith) (le_abs_self _)
  obtain ⟨ns, e, h⟩ := key I.grid hg x hl
  refine ⟨ns, ?_, h⟩
  unfold evalPoint
  rw [if_neg]
  · simp only [evaluateNearest]
    rw [e]
  · intro h
    obtain ⟨g, hg', h2⟩ := List.any_eq_true.1 h
    have := (hg g hg').2
    simp only [decide_eq_true_eq] at h2
    omega

/-- C90, tables with a fallback: whatever the points, the result is the table's if all points are inside and the fresh computation otherwise; it never raises the domain
error itself. -/
theorem C90_fallback (I : Interp) (hg : ∀ g ∈ I.grid, GoodGrid g) (hb : I.boundsError = true) (fresh : List (List ℝ) → Out) (xi : List (List ℝ))
    (hl : ∀ x ∈ xi, x.length = I.grid.length) :
    ((∀ x ∈ xi, InDomain I.grid x) → fromTable I true fresh xi = .values (xi.map (evalPoint I I.method))) ∧
    ((∃ x ∈ xi, ¬ InDomain I.grid x) → fromTable I true fresh xi = fresh xi) ∧ fromTable I false fresh xi = fresh xi := by
  obtain ⟨h1, h2⟩ := C90_domain I hg hb xi hl none
  refine ⟨fun h => ?_, fun h => ?_, rfl⟩
  · unfold fromTable
    rw [if_pos rfl, h2 h]
    rfl
  · unfold fromTable
    rw [if_pos rfl, h1.2 h]

/-- A concrete two-dimensional case: uneven nodes, a bilinear function. -/
def demo : Interp := ⟨[[0, 1, 3], [0, 2]], fun l => (([0, 1, 3] : List ℝ).getD (l.getD 0 0).toNat 0 + 1) * (([0, 2] : List ℝ).getD (l.getD 1 0).toNat 0 - 5), .linear, true, some none⟩

theorem demo_good : ∀ g ∈ demo.grid, GoodGrid g := by
  intro g hg
  simp only [demo, List.mem_cons, List.not_mem_nil, or_false] at hg
  rcases hg with rfl | rfl <;> simp [GoodGrid]

example : evalPoint demo .linear [2, 1] = some ((2 + 1) * (1 - 5)) := by
  refine C90_exact demo demo_good (fun x => (x.getD 0 0 + 1) * (x.getD 1 0 - 5)) ?_ ?_ [2, 1] rfl
  · refine ⟨?_, fun a => ⟨?_, fun b => trivial⟩⟩
    · intro a b t xs; simp; ring
    · intro a b t xs; simp; ring
  · intro ns hns
    match ns, hns with
    | [a, b], _ => simp [demo]

example : List.Forall₂ (fun gx j => InCellClosed gx.1 gx.2 j) (demo.grid.zip [2, 1]) [1, 0] := by
  refine .cons ⟨by simp, ?_⟩ (.cons ⟨by simp, ?_⟩ .nil) <;> norm_num

example : InDomain demo.grid [3, 0] ∧ ¬ InDomain demo.grid [3, -1] := by
  constructor
  · refine .cons ⟨by simp, ?_⟩ (.cons ⟨by simp, ?_⟩ .nil) <;> norm_num
  · intro h
    unfold InDomain demo at h
    rw [List.forall₂_cons, List.forall₂_cons] at h
    obtain ⟨-, ⟨h1, h2, -⟩, -⟩ := h
    norm_num at h2

end

end Verif.Interp
