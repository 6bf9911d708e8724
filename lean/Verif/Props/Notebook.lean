/-
C153: the interactive plots of chains show the samples of the parameters asked for.
-/
import Verif.Spec.Notebook
import Mathlib.Algebra.BigOperators.Fin
import Mathlib.Algebra.Order.BigOperators.Group.List
import Mathlib.Tactic.Linarith
import Mathlib.Tactic.FieldSimp
import Mathlib.Tactic.NormNum
import Mathlib.Tactic.Ring
import Mathlib.Tactic.Positivity
import Mathlib.Algebra.Order.BigOperators.Ring.Finset

namespace Verif.Nb

noncomputable section

/-! ### Traces -/

theorem walkerLines_eq (xs : List ℕ) (maxW : ℕ) (i : ℕ) (ts : List (List ℝ)) :
    walkerLines xs maxW i ts = (ts.take (maxW + 1 - i)).map fun t => (xs, t) := by
  induction ts generalizing i with
  | nil => simp [walkerLines]
  | cons t ts ih =>
    unfold walkerLines
    split
    · next h =>
      have : maxW + 1 - i = 0 := by omega
      rw [this]; rfl
    · next h =>
      have : maxW + 1 - i = (maxW + 1 - (i + 1)) + 1 := by omega
      rw [this, ih]; simp

theorem rangeDrop (n b i : ℕ) (h : b + i < n) : ((List.range n).drop b)[i]? = some (b + i) := by
  rw [List.getElem?_drop, List.getElem?_range h]

theorem sum_map_eq (l : List (List ℝ)) (g : List ℝ → ℝ) : (l.map g).sum = ∑ w ∈ Finset.range l.length, g (l.getD w []) := by
  induction l with
  | nil => simp
  | cons a l ih =>
    rw [List.map_cons, List.sum_cons, ih, List.length_cons, Finset.sum_range_succ']
    simp [add_comm]

theorem isLine_walker (rnd : ℝ → ℝ) (hr : Round5 rnd) (chain : List (List ℝ)) (b n w : ℕ) (t : List ℝ) (hn : t.length = n)
    (hw : chain[w]? = some t) : IsLine ((List.range n).drop b, (t.drop b).map rnd) b n (at' chain w) := by
  refine ⟨by simp, by simp [hn], fun i hi => ⟨rangeDrop n b i hi, ?_⟩⟩
  have h1 : b + i < t.length := by omega
  refine ⟨rnd t[b + i], ?_, ?_⟩
  · simp [List.getElem?_map, List.getElem?_drop, List.getElem?_eq_getElem h1]
  · have : at' chain w (b + i) = t[b + i] := by
      simp [at', List.getD_eq_getElem?_getD, hw, List.getElem?_eq_getElem h1]
    rw [this]; exact (hr _).1

theorem isLine_mean (rnd : ℝ → ℝ) (hr : Round5 rnd) (chain : List (List ℝ)) (b n : ℕ) (h : Rect chain n) :
    IsLine ((List.range n).drop b, colMean (chain.map fun t => (t.drop b).map rnd) ((List.range n).drop b).length) b n (average chain) := by
  have hW : (0 : ℝ) < chain.length := by
    have := List.length_pos_iff.2 h.1
    exact_mod_cast this
  refine ⟨by simp, by simp [colMean], fun i hi => ⟨rangeDrop n b i hi, ?_⟩⟩
  have hlen : i < ((List.range n).drop b).length := by simp; omega
  refine ⟨_, by rw [colMean, List.getElem?_map, List.getElem?_range hlen]; rfl, ?_⟩
  show Shows (_ / _) _
  rw [List.map_map, List.length_map, sum_map_eq]
  unfold Shows average
  rw [← sub_div, ← Finset.sum_sub_distrib, abs_div, abs_of_pos hW, div_le_iff₀ hW]
  refine (Finset.abs_sum_le_sum_abs _ _).trans ?_
  have : ∀ w ∈ Finset.range chain.length,
      |((fun t : List ℝ => t.getD i 0) ∘ fun t => (t.drop b).map rnd) (chain.getD w []) - at' chain w (b + i)| ≤ 5 / 10 ^ 6 := by
    intro w hw
    have hw' := Finset.mem_range.1 hw
    have hl : (chain.getD w []).length = n := by
      rw [List.getD_eq_getElem?_getD, List.getElem?_eq_getElem hw']
      exact h.2 _ (List.getElem_mem hw')
    have h1 : b + i < (chain.getD w []).length := by omega
    have e1 : ((fun t : List ℝ => t.getD i 0) ∘ fun t => (t.drop b).map rnd) (chain.getD w []) = rnd (at' chain w (b + i)) := by
      simp only [Function.comp, at']
      generalize chain.getD w [] = t at h1
      simp [List.getD_eq_getElem?_getD, List.getElem?_map, List.getElem?_drop, List.getElem?_eq_getElem h1]
    rw [e1]; exact (hr _).1
  refine (Finset.sum_le_sum this).trans ?_
  rw [Finset.sum_const, Finset.card_range, nsmul_eq_mul, mul_comm]

/-- C153 (traces): the plot of the traces of known parameters has a panel for each, in the order asked for, with the single walkers and the average of all walkers at
every iteration after the burn-in, to five decimals, under the parameter's label; the number of single walkers is `max_walkers + 1` where there are that many -/
theorem C153_traces_partial (rnd : ℝ → ℝ) (hr : Round5 rnd) (tex : Labels) (r : Res) (names : List String) (burnin : Option ℕ) (maxW : ℕ)
    (hne : names ≠ []) (hv : ∀ n ∈ names, n ∈ r.valid) (hc : ∀ n ∈ names, Rect (r.chain n) r.iterations) :
    ∃ fig : List Row, plotTraces rnd tex r names burnin maxW = some fig ∧ fig.length = names.length ∧
      ∀ (i : ℕ) (row : Row) (name : String), fig[i]? = some row → names[i]? = some name →
        ShowsTraces row tex r (burnin.getD r.burnin) (min (r.chain name).length (maxW + 1)) name := by
  have e : plotTraces rnd tex r names burnin maxW = some (names.map (tracesRow rnd tex r (burnin.getD r.burnin) maxW)) := by
    unfold plotTraces
    have h1 : ¬ names.length < 1 := by
      have := List.length_pos_iff.2 hne
      omega
    have h2 : names.all (fun n => r.valid.contains n) = true := by simpa using hv
    rw [if_neg h1, h2]; rfl
  refine ⟨_, e, by simp, ?_⟩
  intro i row name hi hn
  rw [List.getElem?_map, hn] at hi
  simp only [Option.map_some, Option.some.injEq] at hi
  subst hi
  have hR := hc name (List.mem_of_getElem? hn)
  generalize burnin.getD r.burnin = b
  refine ⟨?_, ?_, ?_, ?_⟩
  · simp [tracesRow, walkerLines_eq, min_comm]
  · intro w l hl
    simp only [tracesRow, walkerLines_eq, List.getElem?_map] at hl
    have hl' : ∃ t, (r.chain name)[w]? = some t ∧ ((List.range r.iterations).drop b, (t.drop b).map rnd) = l := by
      rw [← List.map_take, List.getElem?_map] at hl
      rw [List.getElem?_take] at hl
      split at hl
      · cases h : (r.chain name)[w]? with
        | none => simp [h] at hl
        | some t => simp [h] at hl; exact ⟨t, rfl, by rw [← hl, List.map_drop]⟩
      · simp at hl
    obtain ⟨t, ht, rfl⟩ := hl'
    exact isLine_walker rnd hr _ b _ w t (hR.2 t (List.mem_of_getElem? ht)) ht
  · exact isLine_mean rnd hr _ b _ hR
  · simp only [tracesRow, texOf]
    cases tex.lookup name <;> rfl

/-- C153 (traces): no names, or an unknown name, is a `ValueError` -/
theorem C153_traces_refused (rnd : ℝ → ℝ) (tex : Labels) (r : Res) (names : List String) (burnin : Option ℕ) (maxW : ℕ)
    (h : names = [] ∨ ∃ n ∈ names, n ∉ r.valid) : plotTraces rnd tex r names burnin maxW = none := by
  unfold plotTraces
  rcases h with rfl | ⟨n, hn, hv⟩
  · rfl
  · have : names.all (fun n => r.valid.contains n) = false := by
      rw [List.all_eq_false]; exact ⟨n, hn, by simpa using hv⟩
    split
    · rfl
    · rw [this]; rfl

/-- C153, violation (1): with more walkers than `max_walkers`, one more than that is drawn -/
theorem C153_one_walker_more (rnd : ℝ → ℝ) (tex : Labels) (r : Res) (name : String) (burnin maxW : ℕ) (h : maxW < (r.chain name).length) :
    (tracesRow rnd tex r burnin maxW name).lines.length = maxW + 1 := by
  simp [tracesRow, walkerLines_eq]; omega

/-! ### Samples -/

theorem strided_get (thin : ℕ) (ht : 0 < thin) (l : List ℝ) (k : ℕ) : (strided thin l)[k]? = l[k * thin]? := by
  induction k generalizing l with
  | zero => cases l <;> simp [strided]
  | succ k ih =>
    cases l with
    | nil => simp [strided]
    | cons x xs =>
      rw [strided, List.getElem?_cons_succ, ih, List.getElem?_drop]
      have : (k + 1) * thin = (thin - 1 + k * thin) + 1 := by rw [Nat.succ_mul]; omega
      rw [this, List.getElem?_cons_succ]

/-- C153 (samples): the samples plotted of a parameter are, walker by walker, the values at `burnin`, `burnin + thin`, `burnin + 2 thin`, ... -/
theorem C153_samples (r : Res) (thin : ℕ) (ht : 0 < thin) (name : String) :
    ∃ parts : List (List ℝ), samples r thin name = parts.flatten ∧ parts.length = (r.chain name).length ∧
      ∀ (w : ℕ) (t p : List ℝ), (r.chain name)[w]? = some t → parts[w]? = some p → ∀ k : ℕ, p[k]? = t[r.burnin + k * thin]? := by
  refine ⟨(r.chain name).map fun t => strided thin (t.drop r.burnin), ?_, by simp, ?_⟩
  · simp [samples, List.flatMap]
  · intro w t p hw hp k
    rw [List.getElem?_map, hw] at hp
    simp only [Option.map_some, Option.some.injEq] at hp
    subst hp
    rw [strided_get thin ht, List.getElem?_drop]

/-! ### Contours -/

theorem flatMap_block {α β : Type} (n : ℕ) (g : α → List β) (l : List α) (hg : ∀ a, (g a).length = n) (i : ℕ) (a : α) (h : l[i]? = some a) :
    ((l.flatMap g).drop (i * n)).take n = g a := by
  induction l generalizing i with
  | nil => simp at h
  | cons b l ih =>
    cases i with
    | zero =>
      simp only [List.getElem?_cons_zero, Option.some.injEq] at h
      subst h
      rw [List.flatMap_cons, Nat.zero_mul, List.drop_zero, List.take_append_of_le_length (by rw [hg])]
      rw [List.take_of_length_le (by rw [hg])]
    | succ i =>
      have e : (g b ++ l.flatMap g).drop n = l.flatMap g := by
        conv_lhs => rw [← hg b]
        exact List.drop_left
      rw [List.flatMap_cons, Nat.succ_mul, Nat.add_comm, ← List.drop_drop, e]
      exact ih i (by simpa using h)

/-- C153 (contours): the entry in row `i` and column `j` of the heights is, for a density estimate that does not depend on the order of the two coordinates, the
estimate from the pairs of samples of (first, second) parameter, at the point (`x j`, `y i`) of the grid -/
theorem C153_kde (kde : List (ℝ × ℝ) → ℝ × ℝ → ℝ) (hk : ∀ data p, kde (data.map Prod.swap) p.swap = kde data p)
    (t1 t2 : List ℝ) (xl yl : ℝ × ℝ) (N i j : ℕ) (hi : i < N) (hj : j < N) :
    let g := kdeScipy kde t1 t2 xl yl N
    ∃ x y row, g.1[j]? = some x ∧ g.2.1[i]? = some y ∧ g.2.2[i]? = some row ∧ row.length = N ∧
      x = xl.1 + j * ((xl.2 - xl.1) / ((N - 1 : ℕ) : ℝ)) ∧ y = yl.1 + i * ((yl.2 - yl.1) / ((N - 1 : ℕ) : ℝ)) ∧
      row[j]? = some (kde (t1.zip t2) (x, y)) := by
  intro g
  have hx : (linspace xl.1 xl.2 N)[j]? = some (xl.1 + j * ((xl.2 - xl.1) / ((N - 1 : ℕ) : ℝ))) := by
    rw [linspace, List.getElem?_map, List.getElem?_range hj]; rfl
  have hy : (linspace yl.1 yl.2 N)[i]? = some (yl.1 + i * ((yl.2 - yl.1) / ((N - 1 : ℕ) : ℝ))) := by
    rw [linspace, List.getElem?_map, List.getElem?_range hi]; rfl
  set x := xl.1 + j * ((xl.2 - xl.1) / ((N - 1 : ℕ) : ℝ))
  set y := yl.1 + i * ((yl.2 - yl.1) / ((N - 1 : ℕ) : ℝ))
  have hrow : g.2.2[i]? = some ((linspace xl.1 xl.2 N).map fun a => kde (t2.zip t1) (y, a)) := by
    show (List.map _ (List.range N))[i]? = _
    rw [List.getElem?_map, List.getElem?_range hi]
    simp only [Option.map_some, Option.some.injEq]
    rw [List.map_flatMap]
    rw [flatMap_block N _ _ (by intro a; simp [linspace]) i y hy]
    simp
  refine ⟨x, y, _, hx, hy, hrow, by simp [linspace], rfl, rfl, ?_⟩
  rw [List.getElem?_map, hx]
  have hz : t2.zip t1 = (t1.zip t2).map Prod.swap := by rw [List.zip_swap]
  simp only [Option.map_some, Option.some.injEq]
  rw [hz]; exact hk (t1.zip t2) (x, y)

/-! ### Labels of contours -/

theorem lookup_setdefault (d : Labels) (k v n : String) :
    (setdefault d k v).lookup n = if n = k then some ((d.lookup k).getD v) else d.lookup n := by
  have app : ∀ d : Labels, (d ++ [(k, v)]).lookup n = match d.lookup n with | some x => some x | none => if n = k then some v else none := by
    intro d
    induction d with
    | nil =>
      by_cases h : n = k
      · simp [List.lookup, h]
      · simp [List.lookup, h, beq_false_of_ne h]
    | cons p d ih =>
      obtain ⟨a, b⟩ := p
      by_cases h : n = a
      · simp [List.lookup, h]
      · have := beq_false_of_ne h
        simp only [List.cons_append, List.lookup, this]; exact ih
  unfold setdefault
  split
  · next h =>
    obtain ⟨x, hx⟩ := Option.isSome_iff_exists.1 h
    by_cases hn : n = k
    · subst hn; simp [hx]
    · simp [hn]
  · next h =>
    have h' : d.lookup k = none := by
      cases e : d.lookup k with
      | none => rfl
      | some x => exact absurd (by simp [e]) h
    rw [app]
    by_cases hn : n = k
    · subst hn; simp [h']
    · simp only [hn, if_false]; cases d.lookup n <;> rfl

/-- the call of the figure `jointplot_2d` and what it leaves in the dictionary, for known parameters -/
theorem joint_valid (rnd : ℝ → ℝ) (kde : List (ℝ × ℝ) → ℝ × ℝ → ℝ) (tex : Labels) (r : Res) (p1 p2 : String) (thin : ℕ) (rename : Labels)
    (h1 : p1 ∈ r.valid) (h2 : p2 ∈ r.valid) :
    ∃ fig, joint rnd kde tex r p1 p2 thin rename = (some fig, setdefault (setdefault rename p1 (texOf tex p1)) p2 (texOf tex p2)) ∧
      fig.xtitle = (rename.lookup p1).getD (texOf tex p1) ∧ fig.ytitle = (rename.lookup p2).getD (texOf tex p2) ∧
      fig.xrange = limits r p1 ∧ fig.yrange = limits r p2 ∧
      (let g := kdeScipy kde (samples r thin p1) (samples r thin p2) (limits r p1) (limits r p2) 200
       fig.x = g.1.map rnd ∧ fig.y = g.2.1.map rnd ∧ fig.z = g.2.2.map (List.map rnd)) := by
  have hv : ([p1, p2].all fun n => r.valid.contains n) = true := by simp [h1, h2]
  unfold joint
  rw [hv]
  refine ⟨_, rfl, ?_, ?_, rfl, rfl, rfl, rfl, rfl⟩
  · simp only [lookup_setdefault]
    by_cases h : p1 = p2
    · subst h; simp
    · simp [h]
  · simp only [lookup_setdefault]
    by_cases h : p2 = p1
    · subst h; simp
    · simp [h]

/-- C153 (contours): the labels are those of the caller's dictionary where it has the parameter, else the parameters' labels; ranges are three sigma about the median; the
dictionary of the caller gains the two parameters -/
theorem C153_labels_partial (rnd : ℝ → ℝ) (kde : List (ℝ × ℝ) → ℝ × ℝ → ℝ) (tex : Labels) (r : Res) (p1 p2 : String) (thin : ℕ) (rename : Labels)
    (h1 : p1 ∈ r.valid) (h2 : p2 ∈ r.valid) :
    ∃ fig rename', joint rnd kde tex r p1 p2 thin rename = (some fig, rename') ∧
      fig.xtitle = (match rename.lookup p1 with | some t => t | none => match tex.lookup p1 with | some t => t | none => p1) ∧
      fig.ytitle = (match rename.lookup p2 with | some t => t | none => match tex.lookup p2 with | some t => t | none => p2) ∧
      fig.xrange = (r.median p1 + (r.threeSigma p1).1, r.median p1 + (r.threeSigma p1).2) ∧
      fig.yrange = (r.median p2 + (r.threeSigma p2).1, r.median p2 + (r.threeSigma p2).2) ∧
      (∀ n, n ≠ p1 → n ≠ p2 → rename'.lookup n = rename.lookup n) ∧ (rename'.lookup p1).isSome ∧ (rename'.lookup p2).isSome := by
  obtain ⟨fig, e, hx, hy, hxr, hyr, -⟩ := joint_valid rnd kde tex r p1 p2 thin rename h1 h2
  refine ⟨fig, _, e, ?_, ?_, hxr, hyr, ?_, ?_, ?_⟩
  · rw [hx, texOf]; cases rename.lookup p1 <;> cases tex.lookup p1 <;> rfl
  · rw [hy, texOf]; cases rename.lookup p2 <;> cases tex.lookup p2 <;> rfl
  · intro n hn1 hn2
    rw [lookup_setdefault, if_neg hn2, lookup_setdefault, if_neg hn1]
  · rw [lookup_setdefault]; split
    · rfl
    · rw [lookup_setdefault, if_pos rfl]; rfl
  · rw [lookup_setdefault, if_pos rfl]; rfl

/-- C153 (contours): the contour plot of two known parameters shows, over a grid of 200 by 200 points over the three-sigma intervals (first parameter across, second up), at
each point the estimate of the density of the pairs of samples, to five decimals -/
theorem C153_contours (rnd : ℝ → ℝ) (hr : Round5 rnd) (kde : List (ℝ × ℝ) → ℝ × ℝ → ℝ) (hk : ∀ data p, kde (data.map Prod.swap) p.swap = kde data p)
    (tex : Labels) (r : Res) (p1 p2 : String) (thin : ℕ) (rename : Labels) (h1 : p1 ∈ r.valid) (h2 : p2 ∈ r.valid) (i j : ℕ) (hi : i < 200) (hj : j < 200) :
    ∃ fig, (joint rnd kde tex r p1 p2 thin rename).1 = some fig ∧ ∃ xs ys zs row x y,
      fig.x[j]? = some xs ∧ fig.y[i]? = some ys ∧ fig.z[i]? = some row ∧ row[j]? = some zs ∧
      Shows xs x ∧ Shows ys y ∧ Shows zs (kde ((samples r thin p1).zip (samples r thin p2)) (x, y)) ∧
      x = r.median p1 + (r.threeSigma p1).1 + j * (((r.threeSigma p1).2 - (r.threeSigma p1).1) / 199) ∧
      y = r.median p2 + (r.threeSigma p2).1 + i * (((r.threeSigma p2).2 - (r.threeSigma p2).1) / 199) := by
  obtain ⟨fig, e, -, -, -, -, hx, hy, hz⟩ := joint_valid rnd kde tex r p1 p2 thin rename h1 h2
  refine ⟨fig, by rw [e], ?_⟩
  obtain ⟨x, y, row, gx, gy, gr, -, ex, ey, gz⟩ :=
    C153_kde kde hk (samples r thin p1) (samples r thin p2) (limits r p1) (limits r p2) 200 i j hi hj
  refine ⟨rnd x, rnd y, rnd _, row.map rnd, x, y, ?_, ?_, ?_, ?_, (hr _).1, (hr _).1, (hr _).1, ?_, ?_⟩
  · rw [hx, List.getElem?_map, gx]; rfl
  · rw [hy, List.getElem?_map, gy]; rfl
  · rw [hz, List.getElem?_map, gr]; rfl
  · rw [List.getElem?_map, gz]; rfl
  · rw [ex]; simp only [limits]; push_cast; ring
  · rw [ey]; simp only [limits]; push_cast; ring

/-- the figures of a sequence of calls that share one dictionary -/
def session (rnd : ℝ → ℝ) (kde : List (ℝ × ℝ) → ℝ × ℝ → ℝ) (tex : Labels) : List (Res × String × String × ℕ) → Labels → List (Option Joint)
  | [], _ => []
  | (r, p1, p2, thin) :: rest, d => (joint rnd kde tex r p1 p2 thin d).1 :: session rnd kde tex rest (joint rnd kde tex r p1 p2 thin d).2

/-- C153 (contours): although all calls without `rename` share one dictionary, in any sequence of such calls every figure has its parameters' own labels -/
theorem C153_shared_default (rnd : ℝ → ℝ) (kde : List (ℝ × ℝ) → ℝ × ℝ → ℝ) (tex : Labels) (calls : List (Res × String × String × ℕ)) (i : ℕ)
    (r : Res) (p1 p2 : String) (thin : ℕ) (fig : Joint) (hc : calls[i]? = some (r, p1, p2, thin)) (hf : (session rnd kde tex calls [])[i]? = some (some fig)) :
    fig.xtitle = (tex.lookup p1).getD p1 ∧ fig.ytitle = (tex.lookup p2).getD p2 := by
  have keep : ∀ (d : Labels) (k : String), (∀ n v, d.lookup n = some v → v = texOf tex n) →
      ∀ n v, (setdefault d k (texOf tex k)).lookup n = some v → v = texOf tex n := by
    intro d k hd n v hn
    rw [lookup_setdefault] at hn
    by_cases e : n = k
    · subst e
      rw [if_pos rfl, Option.some.injEq] at hn
      cases h : d.lookup n with
      | none => rw [h] at hn; exact hn.symm
      | some w => rw [h] at hn; rw [← hn]; exact hd _ _ h
    · rw [if_neg e] at hn; exact hd _ _ hn
  have key : ∀ (calls : List (Res × String × String × ℕ)) (d : Labels) (i : ℕ), (∀ n v, d.lookup n = some v → v = texOf tex n) →
      calls[i]? = some (r, p1, p2, thin) → (session rnd kde tex calls d)[i]? = some (some fig) →
      fig.xtitle = texOf tex p1 ∧ fig.ytitle = texOf tex p2 := by
    intro calls
    induction calls with
    | nil => intro d i _ h; simp at h
    | cons c calls ih =>
      obtain ⟨r', q1, q2, th⟩ := c
      intro d i hd h1 h2
      by_cases hv : q1 ∈ r'.valid ∧ q2 ∈ r'.valid
      · obtain ⟨fig', e, hx, hy, -⟩ := joint_valid rnd kde tex r' q1 q2 th d hv.1 hv.2
        cases i with
        | zero =>
          simp only [List.getElem?_cons_zero, Option.some.injEq, Prod.mk.injEq] at h1
          obtain ⟨rfl, rfl, rfl, rfl⟩ := h1
          simp only [session, e, List.getElem?_cons_zero, Option.some.injEq] at h2
          subst h2
          constructor
          · rw [hx]
            cases h : d.lookup q1 with
            | none => rfl
            | some v => exact hd _ _ h
          · rw [hy]
            cases h : d.lookup q2 with
            | none => rfl
            | some v => exact hd _ _ h
        | succ i =>
          refine ih _ i ?_ (by simpa using h1) (by simpa [session, e] using h2)
          exact keep _ q2 (keep _ q1 hd)
      · have e : joint rnd kde tex r' q1 q2 th d = (none, d) := by
          unfold joint
          have : ([q1, q2].all fun n => r'.valid.contains n) = false := by
            rw [Bool.eq_false_iff]; intro h; apply hv; simpa using h
          rw [this]; rfl
        cases i with
        | zero => simp [session, e] at h2
        | succ i => exact ih d i hd (by simpa using h1) (by simpa [session, e] using h2)
  exact key calls [] i (by simp) hc hf

/-! ### The triangle -/

theorem loopJ_spec (f : ℕ → Cell) (js : List ℕ) (cnt : ℕ) :
    (loopJ f js cnt).2 = cnt + js.length ∧ (loopJ f js cnt).1.length = js.length ∧
      ∀ k j, js[k]? = some j → (loopJ f js cnt).1[k]? = some (cnt + k, f j) := by
  induction js generalizing cnt with
  | nil => simp [loopJ]
  | cons a js ih =>
    obtain ⟨h1, h2, h3⟩ := ih (cnt + 1)
    refine ⟨?_, ?_, ?_⟩
    · simp only [loopJ, h1, List.length_cons]; omega
    · simp [loopJ, h2]
    · intro k j hk
      cases k with
      | zero => simp at hk; subst hk; simp [loopJ]
      | succ k =>
        simp only [loopJ, List.getElem?_cons_succ]
        rw [h3 k j (by simpa using hk)]
        congr 2; omega

theorem loopI_spec (f : ℕ → ℕ → Cell) (js is : List ℕ) (cnt : ℕ) :
    (loopI f js is cnt).length = is.length * js.length ∧
      ∀ a b i j, is[a]? = some i → js[b]? = some j → (loopI f js is cnt)[a * js.length + b]? = some (cnt + a * js.length + b, f i j) := by
  induction is generalizing cnt with
  | nil => simp [loopI]
  | cons x is ih =>
    obtain ⟨h1, h2, h3⟩ := loopJ_spec (f x) js cnt
    obtain ⟨g1, g2⟩ := ih (loopJ (f x) js cnt).2
    refine ⟨?_, ?_⟩
    · simp only [loopI, List.length_append, h2, g1, List.length_cons, Nat.succ_mul]; omega
    · intro a b i j ha hb
      have hbl : b < js.length := (List.getElem?_eq_some_iff.1 hb).1
      cases a with
      | zero =>
        simp at ha; subst ha
        simp only [loopI, Nat.zero_mul, Nat.zero_add, Nat.add_zero]
        rw [List.getElem?_append_left (by omega), h3 b j hb]
      | succ a =>
        simp only [loopI]
        rw [List.getElem?_append_right (by rw [h2, Nat.succ_mul]; omega), h2]
        have e : (a + 1) * js.length + b - js.length = a * js.length + b := by rw [Nat.succ_mul]; omega
        rw [e, g2 a b i j (by simpa using ha) hb, h1]
        congr 2; rw [Nat.succ_mul]; omega

/-- C153 (triangle): for known parameters the grid has all `N × N` axes, numbered row by row, and the one in row `i` and column `j` is hidden above the diagonal, and below
it the contours of parameter `j` across and parameter `i` up, thinned as asked, with a title across in the last row and up in the first column; on the diagonal is the
histogram of the parameter, with all samples -/
theorem C153_triangle_partial (r : Res) (ps : List String) (thin : ℕ) (hne : ps ≠ []) (hv : ∀ n ∈ ps, n ∈ r.valid) :
    ∃ cells : List (ℕ × Cell), triangle r (some ps) thin = some cells ∧ cells.length = ps.length * ps.length ∧
      ∀ (i j : ℕ) (p q : String), ps[i]? = some p → ps[j]? = some q →
        ∃ c, cells[i * ps.length + j]? = some (i * ps.length + j + 1, c) ∧
          (i < j → c = .hidden) ∧
          (j < i → c = .contour q p thin (decide (i + 1 = ps.length)) (decide (j = 0))) ∧
          (i = j → c = .histogram p 1 (decide (i + 1 = ps.length)) false) := by
  have e : triangle r (some ps) thin =
      some (loopI (cell ps thin ps.length) (List.range' 1 ps.length) (List.range' 1 ps.length) 1) := by
    unfold triangle
    have h1 : ps.isEmpty = false := by simpa using hne
    have h2 : ps.all (fun n => r.valid.contains n) = true := by simpa using hv
    simp only [Option.getD_some, h1, h2]; rfl
  refine ⟨_, e, ?_, ?_⟩
  · have := (loopI_spec (cell ps thin ps.length) (List.range' 1 ps.length) (List.range' 1 ps.length) 1).1
    simpa using this
  · intro i j p q hi hj
    have hil : i < ps.length := (List.getElem?_eq_some_iff.1 hi).1
    have hjl : j < ps.length := (List.getElem?_eq_some_iff.1 hj).1
    have := (loopI_spec (cell ps thin ps.length) (List.range' 1 ps.length) (List.range' 1 ps.length) 1).2 i j (i + 1) (j + 1)
      (by rw [List.getElem?_range' hil]; congr 1; omega) (by rw [List.getElem?_range' hjl]; congr 1; omega)
    simp only [List.length_range'] at this
    refine ⟨_, by rw [this]; congr 2; omega, ?_, ?_, ?_⟩
    · intro h
      unfold cell
      rw [if_pos (by omega)]
    · intro h
      unfold cell
      rw [if_neg (by omega)]
      have hp : ps.getD (i + 1 - 1) "" = p := by simp [List.getD_eq_getElem?_getD, hi]
      have hq : ps.getD (j + 1 - 1) "" = q := by simp [List.getD_eq_getElem?_getD, hj]
      simp only [hp, hq]
      rw [if_pos (by omega)]
      congr 1
      · by_cases hN : i + 1 = ps.length <;> simp [hN]
      · by_cases h0 : j = 0
        · have : i ≠ 0 := by omega
          simp [h0, this]
        · simp [h0]
    · intro h
      subst h
      unfold cell
      rw [if_neg (by omega)]
      have hp : ps.getD (i + 1 - 1) "" = p := by simp [List.getD_eq_getElem?_getD, hi]
      simp only [hp]
      rw [if_neg (by simp)]
      congr 1
      · by_cases hN : i + 1 = ps.length <;> simp [hN]
      · by_cases h0 : i = 0 <;> simp [h0]

/-- C153 (triangle): no parameters, or an unknown one, is an error -/
theorem C153_triangle_refused (r : Res) (ps : List String) (thin : ℕ) (h : ps = [] ∨ ∃ n ∈ ps, n ∉ r.valid) : triangle r (some ps) thin = none := by
  unfold triangle
  rcases h with rfl | ⟨n, hn, hv⟩
  · rfl
  · have : ps.all (fun n => r.valid.contains n) = false := by
      rw [List.all_eq_false]; exact ⟨n, hn, by simpa using hv⟩
    simp only [Option.getD_some, this]; simp

/-- C153 (triangle): with no parameters named, all free and constrained parameters -/
theorem C153_triangle_default (r : Res) (thin : ℕ) : triangle r none thin = triangle r (some (r.free ++ r.constrained)) thin := rfl

end

end Verif.Nb
