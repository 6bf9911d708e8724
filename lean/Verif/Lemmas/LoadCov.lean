import Verif.Props.PowerAlign
import Verif.Model.LoadCov
import Mathlib.Data.List.Perm.Subperm
import Mathlib.Algebra.Order.Ring.Rat
/-
Trimming keeps the rows of the covariance and the entries of every column together.
-/
namespace Verif.LoadCov
open Verif.Cov

theorem filter_pos {α : Type} (q : α → Bool) : ∀ l : List α, (l.filter q).map some =
    ((List.range l.length).filter fun i => (l[i]?).any q).map fun i => l[i]?
  | [] => rfl
  | a :: l => by
    rw [List.length_cons, List.range_succ_eq_map, List.filter_cons, List.filter_cons, List.filter_map]
    have h := filter_pos q l
    have h2 : ((fun i => ((a :: l)[i]?).any q) ∘ Nat.succ) = fun i => (l[i]?).any q := by
      funext i; simp
    rw [h2]
    by_cases hq : q a = true
    · rw [if_pos hq, if_pos (by simpa using hq), List.map_cons, List.map_cons, h, List.map_map]
      rfl
    · rw [if_neg hq, if_neg (by simpa using hq), h, List.map_map]
      rfl

/-- The bins of a data set with a column `f`, and whether they are kept. -/
def rows (ms : List Meas) (f : Meas → List Rat) (p : Nat → Rat → Bool) : List (Coord × Bool × Rat) :=
  ms.zipIdx.flatMap fun e => (e.1.kIn.zip (f e.1)).map fun q => ((e.1.stat, q.1), p e.2 q.1, q.2)

theorem zip_fst {m : Meas} {f : Meas → List Rat} (h : (f m).length = m.kIn.length) :
    (m.kIn.zip (f m)).map Prod.fst = m.kIn := List.map_fst_zip (by omega)

theorem zip_snd {m : Meas} {f : Meas → List Rat} (h : (f m).length = m.kIn.length) :
    (m.kIn.zip (f m)).map Prod.snd = f m := List.map_snd_zip (by omega)

theorem mem_zipIdx_fst {ms : List Meas} {e : Meas × Nat} (h : e ∈ ms.zipIdx) : e.1 ∈ ms := by
  obtain ⟨-, -, h3⟩ := List.mem_zipIdx (show (e.1, e.2) ∈ ms.zipIdx from h)
  rw [h3]
  exact List.getElem_mem _

theorem flatMap_congr' {α β : Type} {l : List α} {f g : α → List β} (h : ∀ a ∈ l, f a = g a) : l.flatMap f = l.flatMap g := by
  rw [List.flatMap_def, List.flatMap_def, List.map_congr_left h]

theorem rows_coords {ms : List Meas} {f : Meas → List Rat} (p : Nat → Rat → Bool)
    (hf : ∀ m ∈ ms, (f m).length = m.kIn.length) : (rows ms f p).map (·.1) = binsOf ms fun _ _ => true := by
  unfold rows binsOf
  rw [List.map_flatMap]
  refine flatMap_congr' fun e he => ?_
  rw [List.map_map, List.filter_true]
  have := zip_fst (hf _ (mem_zipIdx_fst he))
  conv_rhs => rw [← this]
  rw [List.map_map]
  rfl

theorem rows_column {ms : List Meas} {f : Meas → List Rat} (p : Nat → Rat → Bool)
    (hf : ∀ m ∈ ms, (f m).length = m.kIn.length) : (rows ms f p).map (·.2.2) = ms.flatMap f := by
  unfold rows
  rw [List.map_flatMap]
  have h1 : ms.flatMap f = ms.zipIdx.flatMap fun e => f e.1 := by
    conv_lhs => rw [← List.zipIdx_map_fst 0 ms]
    rw [List.flatMap_map]
  rw [h1]
  refine flatMap_congr' fun e he => ?_
  rw [List.map_map]
  exact zip_snd (hf _ (mem_zipIdx_fst he))

theorem rows_kept_coords {ms : List Meas} {f : Meas → List Rat} (p : Nat → Rat → Bool)
    (hf : ∀ m ∈ ms, (f m).length = m.kIn.length) :
    ((rows ms f p).filter (·.2.1)).map (·.1) = binsOf ms p := by
  unfold rows binsOf
  rw [List.filter_flatMap, List.map_flatMap]
  refine flatMap_congr' fun e he => ?_
  rw [List.filter_map, List.map_map]
  have := zip_fst (hf _ (mem_zipIdx_fst he))
  conv_rhs => rw [← this]
  rw [List.filter_map, List.map_map]
  rfl

theorem rows_kept_column (ms : List Meas) (f : Meas → List Rat) (p : Nat → Rat → Bool) :
    ((rows ms f p).filter (·.2.1)).map (·.2.2) =
      ms.zipIdx.flatMap fun e => maskSel (e.1.kIn.map (p e.2)) (f e.1) := by
  unfold rows
  rw [List.filter_flatMap, List.map_flatMap]
  refine flatMap_congr' fun e he => ?_
  rw [List.filter_map, List.map_map]
  unfold maskSel
  rw [List.zip_map_left, List.filter_map, List.map_map]
  rfl

theorem rows_flag {ms : List Meas} (hs : (ms.map (·.stat)).Pairwise (· < ·)) {f : Meas → List Rat} {p : Nat → Rat → Bool}
    {a b : Coord × Bool × Rat} (ha : a ∈ rows ms f p) (hb : b ∈ rows ms f p) (h : a.1 = b.1) : a.2.1 = b.2.1 := by
  unfold rows at ha hb
  obtain ⟨⟨m, i⟩, h1, h2⟩ := List.mem_flatMap.1 ha
  obtain ⟨⟨m', i'⟩, h1', h2'⟩ := List.mem_flatMap.1 hb
  obtain ⟨q, -, rfl⟩ := List.mem_map.1 h2
  obtain ⟨q', -, rfl⟩ := List.mem_map.1 h2'
  dsimp only at h ⊢
  have h3 : m.stat = m'.stat := congrArg Prod.fst h
  have h4 : q.1 = q'.1 := congrArg Prod.snd h
  obtain ⟨-, hi, hm⟩ := List.mem_zipIdx h1
  obtain ⟨-, hi', hm'⟩ := List.mem_zipIdx h1'
  have hii : i = i' := by
    have hlt : ∀ x y (hx : x < ms.length) (hy : y < ms.length), x < y → ms[x].stat < ms[y].stat := by
      intro x y hx hy hxy
      have := List.pairwise_iff_getElem.1 hs x y (by simpa using hx) (by simpa using hy) hxy
      simpa using this
    simp only [Nat.zero_add, Nat.sub_zero] at hi hi' hm hm'
    rcases Nat.lt_trichotomy i i' with h5 | h5 | h5
    · have := hlt i i' hi hi' h5
      rw [← hm, ← hm', h3] at this
      exact absurd this (lt_irrefl _)
    · exact h5
    · have := hlt i' i hi' hi h5
      rw [← hm, ← hm', h3] at this
      exact absurd this (lt_irrefl _)
  rw [hii, h4]

/-- After trimming, the entries of every column move with the rows and columns of the covariance. -/
theorem trim_together {d d' : Data} (hd : Fresh d) {lo hi : Nat → Option Rat} {p : Nat → Rat → Bool}
    (hs : LimState d d' lo hi p) {f : Meas → List Rat} (hf : ∀ m ∈ d.meas, (f m).length = m.kIn.length) :
    ∃ kept : List Nat, d'.cov.N = kept.length ∧ (∀ i ∈ kept, i < d.cov.N) ∧ kept.Pairwise (· < ·) ∧
      (d.meas.zipIdx.flatMap fun e => maskSel (e.1.kIn.map (p e.2)) (f e.1)).map some =
        kept.map (fun i => (d.meas.flatMap f)[i]?) ∧
      (∀ (a b : Nat) (ha : a < kept.length) (hb : b < kept.length), d'.cov.values a b = d.cov.values kept[a] kept[b]) ∧
      ∀ a (ha : a < kept.length), d'.cov.coords1[a]? = d.cov.coords1[kept[a]]? := by
  obtain ⟨kept, h1, h2, h3, h4, h5⟩ := hs.elems
  refine ⟨kept, h2, h3, h1, ?_, ?_, fun a ha => by rw [h4 a, List.getElem?_eq_getElem ha, Option.bind_some]⟩
  · have hcoords := rows_coords p hf
    have hlen : (rows d.meas f p).length = d.cov.N := by
      rw [← hd.wf.coords1, hd.coords1, ← hcoords, List.length_map]
    have hkc := rows_kept_coords p hf
    have hpos := filter_pos (·.2.1) (rows d.meas f p)
    have hkept : kept = (List.range (rows d.meas f p).length).filter
        fun i => ((rows d.meas f p)[i]?).any (·.2.1) := by
      have hsub : ∀ i ∈ kept, i ∈ (List.range (rows d.meas f p).length).filter
          fun i => ((rows d.meas f p)[i]?).any (·.2.1) := by
        intro i hi
        have hiN := h3 i hi
        rw [← hlen] at hiN
        rw [List.mem_filter, List.mem_range]
        refine ⟨hiN, ?_⟩
        obtain ⟨a, ha, rfl⟩ := List.getElem_of_mem hi
        have h6 := h4 a
        rw [List.getElem?_eq_getElem ha, Option.bind_some, hs.coords1, hd.coords1, ← hcoords, ← hkc, List.getElem?_map,
          List.getElem?_map, List.getElem?_eq_getElem hiN] at h6
        cases hx : ((rows d.meas f p).filter (·.2.1))[a]? with
        | none => rw [hx] at h6; cases h6
        | some x =>
          rw [hx] at h6
          have h7 : x.1 = ((rows d.meas f p)[kept[a]]).1 := by simpa using h6
          have h8 := List.mem_of_getElem? hx
          rw [List.mem_filter] at h8
          rw [List.getElem?_eq_getElem hiN, Option.any_some,
            ← rows_flag hd.stats h8.1 (List.getElem_mem hiN) h7]
          exact h8.2
      have hl : ((List.range (rows d.meas f p).length).filter
          fun i => ((rows d.meas f p)[i]?).any (·.2.1)).length ≤ kept.length := by
        have h6 := congrArg List.length hpos
        rw [List.length_map, List.length_map] at h6
        rw [← h6, ← h2, ← hs.wf.coords1, hs.coords1, ← hkc, List.length_map]
      have hnd : kept.Nodup := h1.imp fun h => ne_of_lt h
      have hperm := (List.subperm_of_subset hnd hsub).perm_of_length_le hl
      exact eq_of_pairwise_lt h1 (List.Pairwise.filter _ List.pairwise_lt_range) fun x => hperm.mem_iff
    rw [← rows_kept_column, ← rows_column p hf, List.map_map]
    have h6 := congrArg (List.map (Option.map fun x : Coord × Bool × Rat => x.2.2)) hpos
    rw [List.map_map, List.map_map] at h6
    rw [← hkept] at h6
    have h7 : (some ∘ fun x : Coord × Bool × Rat => x.2.2) = (Option.map (fun x : Coord × Bool × Rat => x.2.2)) ∘ some := by
      funext x; rfl
    rw [h7, h6]
    refine List.map_congr_left fun i _ => ?_
    rw [List.getElem?_map]
    rfl
  · intro a b ha hb
    have h6 := h5 a b ha hb
    have h7 := (elem_values hs.wf (i := a) (j := b) (by omega) (by omega)).1
    have h8 := (elem_values hd.wf (i := kept[a]) (j := kept[b]) (h3 _ (List.getElem_mem _)) (h3 _ (List.getElem_mem _))).1
    rw [h7, h8] at h6
    exact Except.ok.inj h6

end Verif.LoadCov
