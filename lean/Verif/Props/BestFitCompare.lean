/-
C138, comparison tables: each entry is the number of that fit and that parameter.
-/
import Verif.Spec.BestFit
import Mathlib.Tactic.Linarith
import Mathlib.Tactic.NormNum
import Mathlib.Data.List.Pairwise

namespace Verif.BestFit

open Spec

noncomputable section

/-- the rows of a set under the names with which they appear -/
def shown (N : Names) (s : PSet) : List (String × PRow) := s.rows.map fun r => (N.format r.1 r.2.scale, r.2)

/-- a row without its name in LaTeX -/
def PRow.bare (r : PRow) : PRow := { r with tex := none }

lemma addScale_eq (N : Names) (s : PSet) : addScale N s = shown N s := by
  unfold addScale shown
  split_ifs with h
  · rfl
  · conv_lhs => rw [← List.map_id s.rows]
    apply List.map_congr_left
    intro r hr
    have : r.2.scale = 1 := by
      by_contra hc
      exact h (List.any_eq_true.2 ⟨r, hr, by simpa using hc⟩)
    simp [Names.format, this]

lemma shown_addTex (N : Names) (s : PSet) : ∃ g : String × PRow → Option String, shown N (addTex N s) = s.rows.map fun r => (N.format r.1 r.2.scale, { r.2 with tex := g r }) := by
  unfold addTex shown
  split_ifs with h
  · exact ⟨fun r => r.2.tex, rfl⟩
  · refine ⟨fun r => (N.tex r.1).map fun t => N.formatTex t (1 / r.2.scale), ?_⟩
    simp [List.map_map, Function.comp_def]

lemma row?_some {rows : List (String × PRow)} {p : String} {r : PRow} (h : row? rows p = some r) : (p, r) ∈ rows := by
  unfold row? at h
  obtain ⟨q, hq, rfl⟩ := Option.map_eq_some_iff.1 h
  have h1 := List.mem_of_find?_eq_some hq
  have h2 := List.find?_some hq
  have h3 : q.1 = p := by simpa using h2
  rw [← h3]
  exact h1

lemma row?_none {rows : List (String × PRow)} {p : String} (h : row? rows p = none) : ∀ r, (p, r) ∉ rows := by
  intro r hr
  unfold row? at h
  rw [Option.map_eq_none_iff, List.find?_eq_none] at h
  exact h _ hr (by simp)

/-- which rows are selected, by their name -/
lemma mem_select {rows : List (String × PRow)} {sel : Select} {p : String} {r : PRow} (h : (p, r) ∈ select rows sel) : (p, r) ∈ rows ∧ Asked sel p r := by
  cases sel with
  | all => exact ⟨h, trivial⟩
  | free => simpa [select, Asked] using h
  | constrained => simpa [select, Asked] using h
  | these l =>
    simp only [select, List.mem_filterMap, List.mem_filter] at h
    obtain ⟨q, ⟨hq, _⟩, h⟩ := h
    obtain ⟨r', hr', he⟩ := Option.map_eq_some_iff.1 h
    injection he with h1 h2
    subst h1 h2
    exact ⟨row?_some hr', hq⟩

lemma select_mem {rows : List (String × PRow)} {sel : Select} {p : String} {r : PRow} (h : (p, r) ∈ rows) (ha : Asked sel p r) : ∃ r', (p, r') ∈ select rows sel := by
  cases sel with
  | all => exact ⟨r, h⟩
  | free => exact ⟨r, by simpa [select, Asked] using And.intro h ha⟩
  | constrained => exact ⟨r, by simpa [select, Asked] using And.intro h ha⟩
  | these l =>
    cases hr : row? rows p with
    | none => exact absurd h (row?_none hr r)
    | some r' =>
      refine ⟨r', ?_⟩
      simp only [select, List.mem_filterMap, List.mem_filter]
      exact ⟨p, ⟨ha, by simpa using ⟨r, h⟩⟩, by simp [hr]⟩

lemma asked_tex {sel : Select} {p : String} {r : PRow} {t : Option String} : Asked sel p { r with tex := t } ↔ Asked sel p r := by cases sel <;> rfl

lemma mem_prepare {N : Names} {sel : Select} {s : PSet} {p : String} {r : PRow} (h : (p, r) ∈ prepare N sel s) : ∃ r', Has N sel s p r' ∧ r.bare = r'.bare := by
  unfold prepare at h
  obtain ⟨h1, h2⟩ := mem_select h
  obtain ⟨g, hg⟩ := shown_addTex N s
  rw [addScale_eq, hg, List.mem_map] at h1
  obtain ⟨q, hq, he⟩ := h1
  injection he with e1 e2
  refine ⟨q.2, ⟨q, hq, e1, rfl, ?_⟩, by rw [← e2]; rfl⟩
  rw [← e2] at h2
  exact asked_tex.1 h2

lemma prepare_mem {N : Names} {sel : Select} {s : PSet} {p : String} {r : PRow} (h : Has N sel s p r) : ∃ r', (p, r') ∈ prepare N sel s := by
  obtain ⟨q, hq, hp, hr, ha⟩ := h
  obtain ⟨g, hg⟩ := shown_addTex N s
  unfold prepare
  apply select_mem (r := { q.2 with tex := g q })
  · rw [addScale_eq, hg, List.mem_map]
    exact ⟨q, hq, by rw [hp]⟩
  · rw [asked_tex, hr]; exact ha

/-- each set has a name once -/
def Distinct (N : Names) (sel : Select) (s : PSet) : Prop := ∀ p r r', Has N sel s p r → Has N sel s p r' → r = r'

lemma mediansAny {N : Names} {sel : Select} {s : PSet} (hd : Distinct N sel s) : ((prepare N sel s).any fun r => r.2.median.isSome) = true ↔ Medians N sel s := by
  rw [List.any_eq_true]
  constructor
  · rintro ⟨⟨p, r⟩, hr, hm⟩
    obtain ⟨r', hr', hb⟩ := mem_prepare hr
    refine ⟨p, r', hr', ?_⟩
    have : r.median = r'.median := by have := congrArg (fun x : PRow => x.median) hb; exact this
    rw [← this]; exact hm
  · rintro ⟨p, r, hr, hm⟩
    obtain ⟨r', hr'⟩ := prepare_mem hr
    obtain ⟨r'', h'', hb⟩ := mem_prepare hr'
    refine ⟨(p, r'), hr', ?_⟩
    have : r'.median = r''.median := by have := congrArg (fun x : PRow => x.median) hb; exact this
    rw [this, hd p r'' r h'' hr]; exact hm

/-- the column of a set has the right entries -/
lemma right_entry (N : Names) (sel : Select) (s : PSet) (hd : Distinct N sel s) (p : String) : Right N sel s p ((row? (prepare N sel s) p).map (entry (prepare N sel s))) := by
  cases h : row? (prepare N sel s) p with
  | none =>
    intro r hr
    obtain ⟨r', hr'⟩ := prepare_mem hr
    exact row?_none h r' hr'
  | some r =>
    obtain ⟨r', hr', hb⟩ := mem_prepare (row?_some h)
    have e1 : r.median = r'.median := by have := congrArg (fun x : PRow => x.median) hb; exact this
    have e2 : r.upper = r'.upper := by have := congrArg (fun x : PRow => x.upper) hb; exact this
    have e3 : r.lower = r'.lower := by have := congrArg (fun x : PRow => x.lower) hb; exact this
    have e4 : r.best = r'.best := by have := congrArg (fun x : PRow => x.best) hb; exact this
    refine ⟨r', hr', ?_⟩
    by_cases hm : Medians N sel s
    · left
      refine ⟨hm, ?_⟩
      rw [entry, if_pos ((mediansAny hd).2 hm), e1, e2, e3]
    · right
      refine ⟨hm, ?_⟩
      rw [entry, if_neg (fun h => hm ((mediansAny hd).1 h)), e4]

/-! ### Columns -/

lemma find?_zip_reverse {α : Type} (names : List String) (vals : List α) (hl : names.length = vals.length) (hn : names.Nodup) (i : ℕ) (hi : i < names.length) :
    (names.zip vals).reverse.find? (fun c => c.1 == names[i]) = some (names[i], vals[i]'(hl ▸ hi)) := by
  have hmem : (names[i], vals[i]'(hl ▸ hi)) ∈ (names.zip vals).reverse := by
    rw [List.mem_reverse, List.mem_iff_getElem]
    exact ⟨i, by simp [← hl, hi], by simp⟩
  cases h : (names.zip vals).reverse.find? (fun c => c.1 == names[i]) with
  | none =>
    rw [List.find?_eq_none] at h
    exact absurd (by simp) (h _ hmem)
  | some c =>
    have h1 : c.1 = names[i] := by simpa using List.find?_some h
    have h2 := List.mem_reverse.1 (List.mem_of_find?_eq_some h)
    obtain ⟨j, hj, hc⟩ := List.mem_iff_getElem.1 h2
    rw [List.getElem_zip] at hc
    have hj' : j < names.length := by simp at hj; exact hj.1
    have : names[j] = names[i] := by rw [← hc] at h1; exact h1
    have hij : j = i := (List.Nodup.getElem_inj_iff hn).1 this
    subst hij
    rw [← hc]

lemma column_eq (names : List String) (cols : List (String → Option Entry)) (hl : names.length = cols.length) (hn : names.Nodup) (i : ℕ) (hi : i < names.length) :
    column names cols names[i] = cols[i]'(hl ▸ hi) := by
  unfold column
  rw [find?_zip_reverse names cols hl hn i hi]
  rfl

lemma chiColumn_eq (names : List String) (chis : List (Option Entry)) (hl : names.length = chis.length) (hn : names.Nodup) (i : ℕ) (hi : i < names.length) :
    chiColumn names chis names[i] = chis[i]'(hl ▸ hi) := by
  unfold chiColumn
  rw [find?_zip_reverse names chis hl hn i hi]
  rfl

lemma chiEntry_right {s : PSet} {e : Option Entry} (h : chiEntry s.chi2 = .ok e) : RightChi s e := by
  unfold chiEntry at h
  split at h
  · injection h with h; subst h; assumption
  · rename_i l nb np hs
    split_ifs at h with hz
    injection h with h
    subst h
    exact ⟨l, nb, np, hs, hz, rfl⟩

lemma mapM_right (data : List PSet) (chis : List (Option Entry)) (h : (data.map PSet.chi2).mapM chiEntry = .ok chis) : List.Forall₂ RightChi data chis := by
  induction data generalizing chis with
  | nil =>
    simp only [List.map_nil, List.mapM_nil] at h
    injection h with h; subst h; exact .nil
  | cons a l ih =>
    rw [List.map_cons, List.mapM_cons] at h
    cases h1 : chiEntry a.chi2 with
    | error e => rw [h1] at h; cases h
    | ok v =>
      cases h2 : (l.map PSet.chi2).mapM chiEntry with
      | error e => rw [h1, h2] at h; cases h
      | ok vs =>
        rw [h1, h2] at h
        injection h with h
        subst h
        exact .cons (chiEntry_right h1) (ih vs h2)

/-- **C138.** A comparison table of any number of fits with distinct names has, after the row of χ², one row for each parameter of the first fit that is asked for, in the order of the names, or in that of the list which was
given, and in each row, for each fit, the median and errors of this parameter in this fit, or its best-fit value if the fit has no medians, or nothing if the fit does not have it; the row of χ² is there if it was asked for and
there is a fit that has it, with that of each fit. -/
theorem C138_compare_partial (N : Names) (names : List String) (data : List PSet) (sel : Select) (fmt : String) (addChi : Bool) (t : List TRow) (after : List PSet)
    (h : compare N names data sel fmt addChi = .ok (t, after)) (hn : names.Nodup) (hd : ∀ s ∈ data, Distinct N sel s) :
    ∃ (first : PSet) (params : List String) (chi body : List TRow), data.head? = some first ∧ t = chi ++ body ∧
      params.Nodup ∧ (∀ p, p ∈ params ↔ ∃ r, Has N sel first p r) ∧
      (match sel with
        | .these l => params.Sublist l
        | _ => params.Pairwise (· ≤ ·)) ∧
      List.Forall₂ (fun p (row : TRow) => List.Forall₂ (fun s e => Right N sel s p e) data row.entries) params body ∧
      ((addChi = true ∧ ∃ s ∈ data, s.chi2 ≠ none) → ∃ row, chi = [row] ∧ List.Forall₂ RightChi data row.entries) ∧
      (¬ (addChi = true ∧ ∃ s ∈ data, s.chi2 ≠ none) → chi = []) := by
  unfold compare at h
  split_ifs at h with h1 h2 h3 h4
  push Not at h1 h2
  obtain ⟨first, rest, hdata⟩ : ∃ a l, data = a :: l := by
    cases data with
    | nil => simp at h1
    | cons a l => exact ⟨a, l, rfl⟩
  obtain ⟨chis, hchis⟩ : ∃ c, chisOf data addChi = Except.ok c := by
    cases hc : chisOf data addChi with
    | error e => rw [hc] at h; cases h
    | ok c => exact ⟨c, rfl⟩
  rw [hchis] at h
  simp only [Except.bind] at h
  injection h with h
  injection h with ht hafter
  have hhead : (data.map (prepare N sel)).headD [] = prepare N sel first := by rw [hdata]; rfl
  obtain ⟨index, hindex⟩ : ∃ ix : List String, ix = indexOf N data sel := ⟨_, rfl⟩
  rw [assemble, ← hindex] at ht
  unfold indexOf at hindex
  rw [hhead] at hindex
  have hperm : index.Perm ((prepare N sel first).map Prod.fst) := by
    rw [hindex]
    cases sel <;> first | exact List.Perm.refl _ | exact List.mergeSort_perm _ _
  have hnd : ((prepare N sel first).map Prod.fst).Nodup := by
    by_contra hc
    apply h3
    rw [List.any_eq_true]
    exact ⟨prepare N sel first, by rw [hdata]; simp, by simpa using hc⟩
  have hlen : chis.length = data.length := by
    cases addChi with
    | true => exact (mapM_right data chis hchis).length_eq.symm
    | false =>
      injection hchis with hchis
      rw [← hchis]; simp
  refine ⟨first, index, _, _, by rw [hdata]; rfl, ht.symm, hperm.nodup_iff.2 hnd, ?_, ?_, ?_, ?_, ?_⟩
  · intro p
    rw [hperm.mem_iff, List.mem_map]
    constructor
    · rintro ⟨⟨q, r⟩, hr, rfl⟩
      obtain ⟨r', hr', _⟩ := mem_prepare hr
      exact ⟨r', hr'⟩
    · rintro ⟨r, hr⟩
      obtain ⟨r', hr'⟩ := prepare_mem hr
      exact ⟨(p, r'), hr', rfl⟩
  · have hs : ∀ l : List String, (l.mergeSort (fun a b => decide (a ≤ b))).Pairwise (· ≤ ·) := by
      intro l
      have := List.pairwise_mergeSort (le := fun a b : String => decide (a ≤ b)) (by intro a b c; simpa using String.le_trans) (by intro a b; simpa using String.le_total a b) l
      simpa using this
    rw [hindex]
    cases sel with
    | these l =>
      show ((prepare N (.these l) first).map Prod.fst).Sublist l
      have : (prepare N (.these l) first).map Prod.fst = l.filter fun p => p ∈ (addScale N (addTex N first)).map Prod.fst := by
        unfold prepare select
        rw [List.map_filterMap]
        conv_rhs => rw [← List.filterMap_some (l := l.filter _)]
        apply List.filterMap_congr
        intro p hp
        have hp' := (List.mem_filter.1 hp).2
        simp only [decide_eq_true_eq, List.mem_map] at hp'
        obtain ⟨⟨q, r⟩, hq, rfl⟩ := hp'
        cases hr : row? (addScale N (addTex N first)) q with
        | none => exact absurd hq (row?_none hr r)
        | some r' => rfl
      rw [this]
      exact List.filter_sublist
    | all => exact hs _
    | free => exact hs _
    | constrained => exact hs _
  · rw [List.forall₂_map_right_iff, List.forall₂_same]
    intro p _
    dsimp only
    rw [List.forall₂_iff_get]
    refine ⟨by simp [h2], fun i hi1 hi2 => ?_⟩
    simp only [List.get_eq_getElem, List.getElem_map]
    rw [column_eq names _ (by simp [h2, colsOf]) hn i (by omega)]
    have he : ∀ hi', (colsOf N data sel)[i]'hi' = fun p => (row? (prepare N sel (data[i]'hi1)) p).map (entry (prepare N sel (data[i]'hi1))) := by
      intro hi'
      simp [colsOf]
    rw [he]
    exact right_entry N sel _ (hd _ (List.getElem_mem _)) p
  · rintro ⟨hb, s, hs, hc⟩
    subst hb
    have hR := mapM_right data chis hchis
    have hany : chis.any Option.isSome = true := by
      obtain ⟨i, hi, rfl⟩ := List.mem_iff_getElem.1 hs
      have hi' : i < chis.length := by omega
      have := hR.get hi hi'
      rw [List.any_eq_true]
      refine ⟨chis[i], List.getElem_mem _, ?_⟩
      cases hh : chis[i] with
      | none => simp only [List.get_eq_getElem, hh] at this; exact absurd this hc
      | some e => rfl
    refine ⟨_, if_pos hany, ?_⟩
    dsimp only
    rw [List.forall₂_iff_get]
    refine ⟨by simp [h2], fun i hi1 hi2 => ?_⟩
    simp only [List.get_eq_getElem, List.getElem_map]
    rw [chiColumn_eq names chis (by omega) hn i (by omega)]
    exact hR.get hi1 (by omega)
  · intro hno
    have hany : ¬ chis.any Option.isSome = true := by
      intro hc
      apply hno
      cases addChi with
      | true =>
        refine ⟨rfl, ?_⟩
        have hR := mapM_right data chis hchis
        obtain ⟨e, he, hs⟩ := List.any_eq_true.1 hc
        obtain ⟨i, hi, rfl⟩ := List.mem_iff_getElem.1 he
        have := hR.get (i := i) (by omega) hi
        refine ⟨data[i]'(by omega), List.getElem_mem _, ?_⟩
        cases hh : chis[i] with
        | none => rw [hh] at hs; cases hs
        | some e =>
          simp only [List.get_eq_getElem, hh] at this
          obtain ⟨l, nb, np, hx, _⟩ := this
          rw [hx]; simp
      | false =>
        injection hchis with hchis
        rw [← hchis] at hc
        simp at hc
    exact if_neg hany

/-! ### The labels -/

/-- **C138.** If no fit has names in LaTeX and no parameter has one, each row is labelled with the name of its parameter. -/
theorem C138_compare_labels_partial (N : Names) (names : List String) (data : List PSet) (sel : Select) (fmt : String) (t : List TRow) (after : List PSet)
    (h : compare N names data sel fmt false = .ok (t, after)) (hx : ∀ s ∈ data, s.tex = false ∧ ∀ r ∈ s.rows, N.tex r.1 = none) :
    ∀ row ∈ t, ∃ p, row.label = some p ∧ ∃ s ∈ data.head?, ∃ r, Has N sel s p r := by
  unfold compare at h
  split_ifs at h with h1 h2 h3 h4
  push Not at h1 h2
  obtain ⟨first, rest, hdata⟩ : ∃ a l, data = a :: l := by
    cases data with
    | nil => simp at h1
    | cons a l => exact ⟨a, l, rfl⟩
  simp only [chisOf, Except.bind] at h
  injection h with h
  injection h with ht hafter
  have hhead : (data.map (prepare N sel)).headD [] = prepare N sel first := by rw [hdata]; rfl
  have hany : ((data.map fun _ => (none : Option Entry)).any Option.isSome) = false := by simp
  rw [assemble, hany] at ht
  simp only [Bool.false_eq_true, if_false, List.nil_append] at ht
  have htex : ∀ s ∈ data, (addTex N s).tex = false := by
    intro s hs
    obtain ⟨ha, hb⟩ := hx s hs
    unfold addTex
    rw [if_neg (by simp [ha])]
    simp only [List.any_eq_false]
    intro r hr
    simp [hb r hr]
  have hfind : (texOf N data sel).find? (fun s => s.1) = none := by
    unfold texOf
    rw [List.find?_eq_none]
    rintro ⟨a, b⟩ hab
    have := (List.of_mem_zip hab).1
    simp only [List.mem_map] at this
    obtain ⟨s', ⟨s, hs, rfl⟩, rfl⟩ := this
    simp [htex s hs]
  intro row hrow
  rw [← ht, List.mem_map] at hrow
  obtain ⟨p, hp, rfl⟩ := hrow
  refine ⟨p, ?_, first, by rw [hdata]; rfl, ?_⟩
  · simp only [finalLabel, hfind]
  · have hp' : p ∈ (prepare N sel first).map Prod.fst := by
      unfold indexOf at hp
      rw [hhead] at hp
      cases sel <;> first | exact hp | exact (List.mergeSort_perm _ _).mem_iff.1 hp
    obtain ⟨⟨q, r⟩, hr, rfl⟩ := List.mem_map.1 hp'
    obtain ⟨r', hr', _⟩ := mem_prepare hr
    exact ⟨r', hr'⟩

/-! ### What goes wrong -/

/-- names that have no LaTeX, and names of which `"a"` has one -/
def plainNames : Names := ⟨fun _ => none, fun n _ => n, fun n _ => n⟩

/-- a name in LaTeX for `"a"` only -/
def oneName : Names := ⟨fun n => if n = "a" then some "$a$" else none, fun n _ => n, fun n _ => n⟩

/-- a best-fit value -/
def bestRow (x : ℝ) : PRow := ⟨some x, none, none, none, true, 1, none⟩

/-- **C138, counterexample.** A parameter that the first fit does not have is not in the table, whatever the other fits found for it. -/
theorem C138_compare_dropped_counterexample (x y : ℝ) :
    ((compare plainNames ["A", "B"] [⟨[("a", bestRow x)], false, none⟩, ⟨[("b", bestRow y)], false, none⟩] .all "ipynb" false).toOption.map fun r => r.1) =
      some [⟨some "a", [some (.best (some x)), none]⟩] := by
  simp [compare, assemble, indexOf, texOf, colsOf, chisOf, prepare, addScale, addTex, plainNames, bestRow, select, row?, entry, fmtOk, column, finalLabel, Except.toOption, Except.bind]

/-- **C138, counterexample.** Two fits that are given the same name are shown with the values of the last one, twice. -/
theorem C138_compare_same_name_counterexample (x y : ℝ) :
    ((compare plainNames ["A", "A"] [⟨[("a", bestRow x)], false, none⟩, ⟨[("a", bestRow y)], false, none⟩] .all "ipynb" false).toOption.map fun r => r.1) =
      some [⟨some "a", [some (.best (some y)), some (.best (some y))]⟩] := by
  simp [compare, assemble, indexOf, texOf, colsOf, chisOf, prepare, addScale, addTex, plainNames, bestRow, select, row?, entry, fmtOk, column, finalLabel, Except.toOption, Except.bind]

/-- **C138, counterexample.** If one parameter has a name in LaTeX, those without one are shown without a name; and the sets of the caller have got a column of such names. -/
theorem C138_compare_label_counterexample (x y : ℝ) :
    ∃ after, compare oneName ["A", "B"] [⟨[("a", bestRow x), ("b", bestRow y)], false, none⟩, ⟨[("a", bestRow x)], false, none⟩] .all "ipynb" false =
      .ok ([⟨some "$a$", [some (.best (some x)), some (.best (some x))]⟩, ⟨none, [some (.best (some y)), none]⟩], after) ∧ after.map PSet.tex = [true, true] := by
  have hs : (["a", "b"] : List String).mergeSort (fun a b => decide (a ≤ b)) = ["a", "b"] := by
    apply List.mergeSort_of_pairwise
    simp
  refine ⟨[addTex oneName ⟨[("a", bestRow x), ("b", bestRow y)], false, none⟩, addTex oneName ⟨[("a", bestRow x)], false, none⟩], ?_, ?_⟩
  · simp [compare, assemble, indexOf, texOf, colsOf, chisOf, prepare, addScale, addTex, oneName, bestRow, select, row?, entry, fmtOk, column, finalLabel, Except.bind, Names.formatTex, hs]
  · simp [addTex, oneName]

/-- **C138, counterexample.** A fit with as many parameters as data points has no reduced χ²: the table is an error, whatever the other fits are. -/
theorem C138_compare_zero_counterexample (N : Names) (names : List String) (data : List PSet) (sel : Select) (fmt : String) (s : PSet) (l : ℝ) (n : ℤ) (hs : s ∈ data) (hc : s.chi2 = some (l, n, n)) :
    ∃ e, compare N names data sel fmt true = .error e := by
  cases h : compare N names data sel fmt true with
  | error e => exact ⟨e, rfl⟩
  | ok r =>
    exfalso
    unfold compare at h
    split_ifs at h with h1 h2 h3 h4
    cases hm : (data.map PSet.chi2).mapM chiEntry with
    | error e => simp only [chisOf, hm, Except.bind] at h; cases h
    | ok chis =>
      have hR := mapM_right data chis hm
      obtain ⟨i, hi, rfl⟩ := List.mem_iff_getElem.1 hs
      have hi' : i < chis.length := by rw [← hR.length_eq]; exact hi
      have := hR.get hi hi'
      cases hh : chis[i] with
      | none => simp only [List.get_eq_getElem, hh, RightChi] at this; rw [this] at hc; cases hc
      | some e =>
        simp only [List.get_eq_getElem, hh, RightChi] at this
        obtain ⟨l', nb, np, hx, hne, _⟩ := this
        rw [hx] at hc
        injection hc with hc
        injection hc with _ hc
        injection hc with e1 e2
        exact hne (e1.trans e2.symm)

/-- **C138, inhabited.** Two fits, one with medians, and χ²: the table exists, with three rows. -/
theorem C138_compare_inhabited : ∃ (data : List PSet) (t : List TRow) (after : List PSet), compare plainNames ["A", "B"] data (.these ["b", "a"]) "latex" true = .ok (t, after) ∧ t.length = 3 ∧
    ∀ s ∈ data, Distinct plainNames (.these ["b", "a"]) s := by
  refine ⟨[⟨[("a", ⟨some 1, some 2, some (-0.5), some 0.5, true, 1, none⟩), ("b", bestRow 3)], false, some (10, 20, 2)⟩, ⟨[("b", bestRow 4), ("c", bestRow 5)], false, none⟩], _, _,
    by simp [compare, assemble, indexOf, texOf, colsOf, chisOf, prepare, addScale, addTex, plainNames, bestRow, select, row?, fmtOk, Except.bind, chiEntry, pure, Except.pure, bind]; exact ⟨rfl, rfl⟩, by simp, ?_⟩
  intro s hs p r r' h h'
  obtain ⟨q, hq, hp, rfl, -⟩ := h
  obtain ⟨q', hq', hp', rfl, -⟩ := h'
  simp only [List.mem_cons, List.not_mem_nil, or_false] at hs
  rcases hs with rfl | rfl <;> simp only [List.mem_cons, List.not_mem_nil, or_false] at hq hq' <;> rcases hq with rfl | rfl <;> rcases hq' with rfl | rfl <;>
    first | rfl | (exfalso; simp [Names.format, plainNames, bestRow] at hp hp'; rw [← hp'] at hp; revert hp; decide)

end

end Verif.BestFit
