import Verif.Spec.TheoryVec
import Mathlib.Data.List.GetD
import Mathlib.Tactic.Ring
/-
C140: the theory vector of a fit, for every mode, transfer, selection of statistics and grouping.
-/
namespace Verif.TheoryVec
open Verif.Cov (Err joinK inside)

theorem filterIdents_mem {f : FitData} {g : List Nat} {x : List Ident} (h : filterIdents f g = .ok x) :
    ∀ i ∈ x, i ∈ f.idents := by
  unfold filterIdents at h
  split at h
  · cases h
    intro i hi
    obtain ⟨e, he, h2⟩ := List.mem_filterMap.1 hi
    split at h2
    · cases h2
      exact (List.of_mem_zip he).1
    · cases h2
  · cases h

/-- What a successful `calculateTransfer` returns. -/
theorem calc_ok {f : FitData} {g : List Nat} {x : List Ident} {ids : List (Nat × Ident)}
    (h : calculateTransfer f g = .ok (x, ids)) :
    filterIdents f g = .ok x ∧ checkTransfer f g x = .ok () ∧ ids = g.zip x := by
  unfold calculateTransfer at h
  split at h
  · cases hf : filterIdents f g with
    | error e => rw [hf] at h; cases h
    | ok y =>
      rw [hf] at h
      dsimp only at h
      cases hc : checkTransfer f g y with
      | error e => rw [hc] at h; cases h
      | ok u =>
        rw [hc] at h
        cases h
        exact ⟨rfl, hc, rfl⟩
  · cases h

/-- A group of wedges never yields a theory. -/
theorem group_wedge {f : FitData} (hf : Loaded f) (hm : f.mode = .pkmu) (g : List Nat) :
    ∃ e, groupTheory f g = .error e := by
  unfold groupTheory
  cases hc : calculateTransfer f g with
  | error e => exact ⟨e, rfl⟩
  | ok p =>
    obtain ⟨x, ids⟩ := p
    obtain ⟨h1, -, h3⟩ := calc_ok hc
    dsimp only
    cases ids with
    | nil => exact ⟨_, rfl⟩
    | cons e l =>
      rw [if_neg (by simp)]
      have hx : e.2 ∈ x := by
        have : e ∈ g.zip x := by rw [← h3]; exact List.mem_cons_self ..
        exact (List.of_mem_zip this).2
      have hw := hf.ofMode _ (filterIdents_mem h1 _ hx)
      rw [hm] at hw
      obtain ⟨lo, hi, hw⟩ := hw
      unfold applyIds
      cases measOf f e.1 with
      | error err => exact ⟨_, rfl⟩
      | ok own =>
        dsimp only
        rw [hw]
        unfold selectBin
        dsimp only
        split_ifs <;> exact ⟨_, rfl⟩

theorem groups_nonempty {f : FitData} (hf : Loaded f) {s r : List Nat} (hd : Divides f s r) : groups s r ≠ [] := by
  have hn : 0 < f.names.length := lt_of_lt_of_le (List.length_pos_iff.2 hf.nonempty) hf.names
  obtain ⟨n, hn⟩ := List.exists_mem_of_length_pos hn
  intro h
  unfold groups at h
  rw [List.append_eq_nil_iff, List.map_eq_nil_iff] at h
  have hr : r = [] := by
    by_contra hr
    rw [if_neg hr] at h
    cases h.2
  rcases (hd.cover n).2 hn with h1 | h1
  · rw [h.1] at h1; cases h1
  · rw [hr] at h1; cases h1

/-- C140: wedges `P(k, mu)` never yield a theory vector: for every data object, every kind of transfer, every selection and
every grouping, the fit raises instead, since the bounds of the wedge are looked up among the centres. -/
theorem C140_wedges {f : FitData} (hf : Loaded f) (hm : f.mode = .pkmu) {specific rest : List Nat}
    (hd : Divides f specific rest) : ∃ e, theory f specific rest = .error e := by
  unfold theory
  cases hg : groups specific rest with
  | nil => exact absurd hg (groups_nonempty hf hd)
  | cons g gs =>
    obtain ⟨e, he⟩ := group_wedge hf hm g
    exact ⟨e, by rw [theoryOf, he]⟩

/-! ### a selection with the smooth transfers -/

theorem applyIds_smooth {f : FitData} (hk : f.kind = .smooth) (x : List Ident) (grids : List (List Rat)) :
    ∀ ids : List (Nat × Ident), (∀ e ∈ ids, f.names.idxOf e.1 < f.ks.length ∧ e.2 ∈ x ∧ ∃ l, e.2 = .ell l) →
      ∃ c, applyIds f x grids ids = .ok c
  | [], _ => ⟨_, rfl⟩
  | e :: l, h => by
    obtain ⟨h1, h2, m, h3⟩ := h e (List.mem_cons_self ..)
    obtain ⟨c, hc⟩ := applyIds_smooth hk x grids l fun e' he' => h e' (List.mem_cons_of_mem _ he')
    have hm : measOf f e.1 = .ok f.ks[f.names.idxOf e.1] := by
      unfold measOf
      rw [List.getElem?_eq_getElem h1]
    unfold applyIds
    rw [hm]
    dsimp only
    rw [hc]
    unfold selectBin
    rw [h3] at h2 ⊢
    dsimp only
    rw [hk]
    dsimp only
    rw [if_pos h2]
    exact ⟨_, rfl⟩

theorem filterIdents_ok {f : FitData} (hf : Loaded f) (g : List Nat) :
    filterIdents f g = .ok ((f.idents.zip f.names).filterMap fun e => if e.2 ∈ g then some e.1 else none) := by
  unfold filterIdents
  rw [if_pos (by rw [hf.idents]; exact hf.names)]

/-- With the smooth transfers a group of names either yields a theory or an `IndexError`. -/
theorem group_smooth {f : FitData} (hf : Loaded f) (hk : f.kind = .smooth) (hm : f.mode = .poles) {g : List Nat}
    (hg : ∀ n ∈ g, n ∈ f.names) (hne : g ≠ []) :
    (∃ c, groupTheory f g = .ok c) ∨ groupTheory f g = .error .indexError := by
  have hall : g.all (fun n => decide (n ∈ f.names)) = true := List.all_eq_true.2 fun n hn => by simpa using hg n hn
  obtain ⟨x, hx⟩ : ∃ x, filterIdents f g = .ok x := ⟨_, filterIdents_ok hf g⟩
  unfold groupTheory calculateTransfer
  rw [if_pos hall, hx]
  dsimp only
  unfold checkTransfer
  rw [hk]
  dsimp only
  split_ifs with h1
  · left
    obtain ⟨h1, h2⟩ := h1
    dsimp only
    have hids : g.zip x ≠ [] := by
      intro h0
      have := congrArg List.length h0
      rw [List.length_zip, List.length_nil] at this
      have := List.length_pos_iff.2 hne
      omega
    rw [if_neg hids]
    refine applyIds_smooth hk x _ _ fun e he => ?_
    obtain ⟨h3, h4⟩ := List.of_mem_zip he
    refine ⟨by simpa using List.all_eq_true.1 h1 e.1 h3, h4, ?_⟩
    have := hf.ofMode _ (filterIdents_mem hx _ h4)
    rw [hm] at this
    exact this
  · exact Or.inr rfl

theorem theoryOf_index (f : FitData) : ∀ gs : List (List Nat),
    (∀ g ∈ gs, (∃ c, groupTheory f g = .ok c) ∨ groupTheory f g = .error .indexError) →
    (∃ g ∈ gs, groupTheory f g = .error .indexError) → theoryOf f gs = .error .indexError
  | [], _, h => by obtain ⟨g, hg, -⟩ := h; cases hg
  | g :: gs, h, hex => by
    unfold theoryOf
    rcases h g (List.mem_cons_self ..) with ⟨c, hc⟩ | he
    · rw [hc]
      dsimp only
      have : ∃ g ∈ gs, groupTheory f g = .error .indexError := by
        obtain ⟨g', hg', he'⟩ := hex
        rcases List.mem_cons.1 hg' with h1 | h1
        · rw [h1, hc] at he'; cases he'
        · exact ⟨g', h1, he'⟩
      rw [theoryOf_index f gs (fun g' hg' => h g' (List.mem_cons_of_mem _ hg')) this]
    · rw [he]

theorem mem_groups {specific rest : List Nat} {g : List Nat} (h : g ∈ groups specific rest) :
    g ≠ [] ∧ ∀ n ∈ g, n ∈ specific ∨ n ∈ rest := by
  unfold groups at h
  rcases List.mem_append.1 h with h1 | h1
  · obtain ⟨n, hn, rfl⟩ := List.mem_map.1 h1
    exact ⟨by simp, fun m hm => Or.inl (by rw [List.mem_singleton.1 hm]; exact hn)⟩
  · split at h1
    · cases h1
    · rename_i hr
      rw [List.mem_singleton.1 h1]
      exact ⟨hr, fun m hm => Or.inr hm⟩

/-- C140: without window and grid, using only some of the statistics of the file always ends in an `IndexError`, whichever
ones are used and however the statistics are grouped: the names of the file are not reduced with the measurements. -/
theorem C140_selection_smooth {f : FitData} (hf : Loaded f) (hk : f.kind = .smooth) (hm : f.mode = .poles)
    (hlt : f.ks.length < f.names.length) {specific rest : List Nat} (hd : Divides f specific rest) :
    theory f specific rest = .error .indexError := by
  unfold theory
  have hsub : ∀ g ∈ groups specific rest, ∀ n ∈ g, n ∈ f.names := fun g hg n hn =>
    (hd.cover n).1 ((mem_groups hg).2 n hn)
  refine theoryOf_index f _ (fun g hg => group_smooth hf hk hm (hsub g hg) (mem_groups hg).1) ?_
  have hn : f.names[f.ks.length] ∈ f.names := List.getElem_mem hlt
  have hg : ∃ g ∈ groups specific rest, f.names[f.ks.length] ∈ g := by
    unfold groups
    rcases (hd.cover _).2 hn with h1 | h1
    · exact ⟨[_], List.mem_append_left _ (List.mem_map.2 ⟨_, h1, rfl⟩), List.mem_singleton.2 rfl⟩
    · refine ⟨rest, List.mem_append_right _ ?_, h1⟩
      rw [if_neg (List.ne_nil_of_mem h1)]
      exact List.mem_singleton.2 rfl
  obtain ⟨g, hg, hgn⟩ := hg
  refine ⟨g, hg, ?_⟩
  have hall : g.all (fun n => decide (n ∈ f.names)) = true :=
    List.all_eq_true.2 fun n hn => by simpa using hsub g hg n hn
  unfold groupTheory calculateTransfer
  rw [if_pos hall, filterIdents_ok hf g]
  dsimp only
  unfold checkTransfer
  rw [hk]
  dsimp only
  rw [if_neg]
  rintro ⟨h1, -⟩
  have h2 := List.all_eq_true.1 h1 _ hgn
  rw [hf.distinct.idxOf_getElem] at h2
  simp at h2

/-! ### the window and the grid, all statistics in one group -/

/-- In one group, the identifiers found are all of them, in their own order. -/
theorem filter_all {f : FitData} (hf : Loaded f) {g : List Nat} (hg : ∀ n ∈ f.names, n ∈ g) :
    filterIdents f g = .ok f.idents := by
  rw [filterIdents_ok hf]
  congr 1
  have h1 : (f.idents.zip f.names).filterMap (fun e => if e.2 ∈ g then some e.1 else none) =
      (f.idents.zip f.names).filterMap (some ∘ Prod.fst) := by
    have key : ∀ l : List (Ident × Nat), (∀ e ∈ l, e.2 ∈ g) →
        l.filterMap (fun e => if e.2 ∈ g then some e.1 else none) = l.filterMap (some ∘ Prod.fst) := by
      intro l
      induction l with
      | nil => intro _; rfl
      | cons e l ih =>
        intro h
        rw [List.filterMap_cons, List.filterMap_cons, ih fun e' he' => h e' (List.mem_cons_of_mem _ he'),
          if_pos (h e (List.mem_cons_self ..))]
        rfl
    exact key _ fun e he => hg _ (List.of_mem_zip he).2
  rw [h1, List.filterMap_eq_map, List.map_fst_zip (by rw [hf.idents]; exact hf.names)]

theorem theory_one {f : FitData} {rest : List Nat} (hr : rest ≠ []) : theory f [] rest = groupTheory f rest := by
  unfold theory groups
  rw [if_neg hr, List.map_nil, List.nil_append]
  unfold theoryOf theoryOf
  cases groupTheory f rest with
  | error e => rfl
  | ok c => simp

/-- The loop succeeds exactly when every lookup does, and returns the pieces one after the other. -/
theorem applyIds_ok (f : FitData) (x : List Ident) (grids : List (List Rat)) (P : Nat × Ident → List Cell) :
    ∀ ids : List (Nat × Ident),
      (∀ e ∈ ids, ∃ own, measOf f e.1 = .ok own ∧ selectBin f x grids e.2 own = .ok (P e)) →
      applyIds f x grids ids = .ok (ids.flatMap P)
  | [], _ => rfl
  | e :: l, h => by
    obtain ⟨own, h1, h2⟩ := h e (List.mem_cons_self ..)
    unfold applyIds
    rw [h1]
    dsimp only
    rw [h2, applyIds_ok f x grids P l fun e' he' => h e' (List.mem_cons_of_mem _ he')]
    rfl

theorem flatMap_expected : ∀ (is : List Ident) (ks : List (List Rat)),
    (is.zip ks).flatMap (fun e => e.2.map fun q => (some (e.1, q) : Cell)) = expected is ks
  | [], _ => by cases ‹List (List Rat)› <;> rfl
  | _ :: _, [] => rfl
  | i :: is, k :: ks => by
    rw [List.zip_cons_cons, List.flatMap_cons, flatMap_expected is ks, expected]

/-- Statistic after statistic in the order of the file: the pieces make up the expected vector. -/
theorem file_order {f : FitData} (hf : Loaded f) :
    ((f.names.zip f.idents).flatMap fun e => (f.ks.getD (f.names.idxOf e.1) []).map fun q => (some (e.2, q) : Cell)) =
      expected f.idents f.ks := by
  rw [← flatMap_expected]
  have h : (f.names.zip f.idents).map (fun e => (e.2, f.ks.getD (f.names.idxOf e.1) [])) = f.idents.zip f.ks := by
    have h1 := hf.idents
    have h2 := hf.names
    refine List.ext_getElem (by simp; omega) fun i hi hi' => ?_
    have h3 : i < f.ks.length := by simp at hi'; omega
    have h4 : i < f.names.length := by omega
    rw [List.getElem_map, List.getElem_zip, List.getElem_zip, hf.distinct.idxOf_getElem,
      List.getD_eq_getElem _ _ h3]
  rw [← h, List.flatMap_map]

theorem rest_nonempty {f : FitData} (hf : Loaded f) {rest : List Nat} (hd : Divides f [] rest) : rest ≠ [] := by
  intro h
  have := groups_nonempty hf hd
  unfold groups at this
  rw [h] at this
  exact this rfl

theorem rest_length {f : FitData} (hf : Loaded f) {rest : List Nat} (hd : Divides f [] rest) :
    rest.length = f.names.length := by
  have h1 : rest.Nodup := hd.distinct
  have h2 : rest.Perm f.names := (List.perm_ext_iff_of_nodup h1 hf.distinct).2 fun n => by
    have := hd.cover n
    simpa using this
  exact h2.length_eq

theorem calc_one {f : FitData} (hf : Loaded f) {rest : List Nat} (hd : Divides f [] rest)
    (hc : checkTransfer f rest f.idents = .ok ()) :
    groupTheory f rest = applyIds f f.idents (gridsOf f rest) (rest.zip f.idents) := by
  have hsub : ∀ n, n ∈ rest ↔ n ∈ f.names := fun n => by simpa using hd.cover n
  have hall : rest.all (fun n => decide (n ∈ f.names)) = true :=
    List.all_eq_true.2 fun n hn => by simpa using (hsub n).1 hn
  unfold groupTheory calculateTransfer
  rw [if_pos hall, filter_all hf fun n hn => (hsub n).2 hn]
  dsimp only
  rw [hc]
  dsimp only
  rw [if_neg]
  intro h0
  have := congrArg List.length h0
  rw [List.length_zip, List.length_nil, rest_length hf hd, hf.idents] at this
  have h1 := List.length_pos_iff.2 hf.nonempty
  have h2 := hf.names
  omega

theorem mem_windowElls {t l : Nat} : l ∈ windowElls t ↔ l % 2 = 0 ∧ l ≤ t := by
  unfold windowElls
  rw [List.mem_map]
  constructor
  · rintro ⟨m, hm, rfl⟩
    rw [List.mem_range] at hm
    omega
  · rintro ⟨h1, h2⟩
    exact ⟨l / 2, by rw [List.mem_range]; omega, by omega⟩

theorem maxEll_le {x : List Ident} {t : Nat} : maxEll x ≤ t ↔ ∀ l, Ident.ell l ∈ x → l ≤ t := by
  induction x with
  | nil => simp [maxEll]
  | cons a x ih =>
    unfold maxEll at ih ⊢
    rw [List.map_cons, List.foldr_cons, max_le_iff, ih]
    constructor
    · rintro ⟨h1, h2⟩ l hl
      rcases List.mem_cons.1 hl with h | h
      · rw [← h] at h1; exact h1
      · exact h2 l h
    · intro h
      refine ⟨?_, fun l hl => h l (List.mem_cons_of_mem _ hl)⟩
      cases a with
      | ell l => exact h l (List.mem_cons_self ..)
      | wedge lo hi => exact Nat.zero_le _

/-- The multipoles of a window fit: even, and none above `max_ellprime`. -/
def WindowElls (f : FitData) : Prop := ∀ i ∈ f.idents, ∃ l, i = .ell l ∧ l % 2 = 0 ∧ l ≤ f.maxEllPrime

theorem idents_nonempty {f : FitData} (hf : Loaded f) : f.idents ≠ [] := by
  intro h
  have h1 := hf.idents
  rw [h] at h1
  exact hf.nonempty (List.length_eq_zero_iff.1 h1.symm)

theorem check_window {f : FitData} (hf : Loaded f) (hk : f.kind = .window) (hw : WindowElls f) (g : List Nat) :
    checkTransfer f g f.idents = .ok () := by
  unfold checkTransfer
  rw [hk]
  dsimp only
  rw [if_neg (idents_nonempty hf), if_pos]
  rw [maxEll_le]
  intro l hl
  obtain ⟨m, hm, -, h⟩ := hw _ hl
  cases hm
  exact h

theorem select_window {f : FitData} (hk : f.kind = .window) (hw : WindowElls f) {i : Ident} (hi : i ∈ f.idents)
    (x : List Ident) (grids : List (List Rat)) (own : List Rat) :
    selectBin f x grids i own = .ok (own.map fun k => some (i, k)) := by
  obtain ⟨m, hm, h1, h2⟩ := hw _ hi
  unfold selectBin
  rw [hm]
  dsimp only
  rw [hk]
  dsimp only
  rw [if_pos (mem_windowElls.2 ⟨h1, h2⟩)]

/-- C140: with a window function, the statistics in one group and listed in the order of the file, the theory vector is the
expected one, for every selection of statistics. -/
theorem C140_window_partial {f : FitData} (hf : Loaded f) (hk : f.kind = .window) (hw : WindowElls f) :
    theory f [] f.names = .ok (expected f.idents f.ks) := by
  have hd : Divides f [] f.names := ⟨fun n => by simp, hf.distinct⟩
  rw [theory_one (rest_nonempty hf hd), calc_one hf hd (check_window hf hk hw _), ← file_order hf]
  refine applyIds_ok f _ _ (fun e => (f.ks.getD (f.names.idxOf e.1) []).map fun q => (some (e.2, q) : Cell)) _
    fun e he => ?_
  have h1 := hf.idents
  obtain ⟨i, hi, rfl⟩ := List.getElem_of_mem he
  have hi2 : i < f.ks.length := by simp at hi; omega
  rw [List.getElem_zip]
  refine ⟨f.ks[i], ?_, ?_⟩
  · unfold measOf
    dsimp only
    rw [hf.distinct.idxOf_getElem, List.getElem?_eq_getElem hi2]
  · dsimp only
    rw [select_window hk hw (List.getElem_mem _), hf.distinct.idxOf_getElem, List.getD_eq_getElem _ _ hi2]

/-- C140: with a window function and one group listed in an arbitrary order (the order in which Python lists a set), the
theory exists exactly if the first names listed, as many as there are selected statistics, are the first names of the file;
otherwise the fit ends in an `IndexError`. -/
theorem C140_window_order {f : FitData} (hf : Loaded f) (hk : f.kind = .window) (hw : WindowElls f) {rest : List Nat}
    (hd : Divides f [] rest) :
    (∀ n ∈ rest.take f.ks.length, n ∈ f.names.take f.ks.length) ∧
        theory f [] rest = .ok ((rest.zip f.idents).flatMap fun e =>
          (f.ks.getD (f.names.idxOf e.1) []).map fun q => some (e.2, q)) ∨
      (∃ n ∈ rest.take f.ks.length, n ∉ f.names.take f.ks.length) ∧ theory f [] rest = .error .indexError := by
  rw [theory_one (rest_nonempty hf hd), calc_one hf hd (check_window hf hk hw _)]
  have hsub : ∀ n, n ∈ rest ↔ n ∈ f.names := fun n => by simpa using hd.cover n
  -- membership among the first names is a small position
  have hpos : ∀ n ∈ f.names, (n ∈ f.names.take f.ks.length ↔ f.names.idxOf n < f.ks.length) := by
    intro n hn
    constructor
    · intro h
      obtain ⟨i, hi, rfl⟩ := List.getElem_of_mem h
      rw [List.getElem_take, hf.distinct.idxOf_getElem]
      rw [List.length_take] at hi
      omega
    · intro h
      have h2 : f.names.idxOf n < f.names.length := List.idxOf_lt_length_iff.2 hn
      have h3 : f.names[f.names.idxOf n] = n := List.getElem_idxOf h2
      rw [List.mem_take_iff_getElem]
      exact ⟨f.names.idxOf n, by omega, h3⟩
  have key : ∀ (rs : List Nat) (is : List Ident), (∀ n ∈ rs, n ∈ f.names) → (∀ i ∈ is, i ∈ f.idents) →
      is.length ≤ rs.length →
      (∀ n ∈ rs.take is.length, n ∈ f.names.take f.ks.length) ∧
        applyIds f f.idents (gridsOf f rest) (rs.zip is) = .ok ((rs.zip is).flatMap fun e =>
          (f.ks.getD (f.names.idxOf e.1) []).map fun q => some (e.2, q)) ∨
      (∃ n ∈ rs.take is.length, n ∉ f.names.take f.ks.length) ∧
        applyIds f f.idents (gridsOf f rest) (rs.zip is) = .error .indexError := by
    intro rs
    induction rs with
    | nil =>
      intro is _ _ hl
      left
      exact ⟨by simp, by simp [applyIds]⟩
    | cons n rs ih =>
      intro is h1 h2 hl
      cases is with
      | nil => left; exact ⟨by simp, by simp [applyIds]⟩
      | cons i is =>
        rw [List.zip_cons_cons, List.length_cons, List.take_succ_cons]
        have ih := ih is (fun m hm => h1 m (List.mem_cons_of_mem _ hm)) (fun m hm => h2 m (List.mem_cons_of_mem _ hm))
          (by simpa using hl)
        have hn := h1 n (List.mem_cons_self ..)
        unfold applyIds
        by_cases hlt : f.names.idxOf n < f.ks.length
        · have hm : measOf f n = .ok f.ks[f.names.idxOf n] := by
            unfold measOf
            rw [List.getElem?_eq_getElem hlt]
          dsimp only
          rw [hm]
          dsimp only
          rw [select_window hk hw (h2 i (List.mem_cons_self ..))]
          dsimp only
          rcases ih with ⟨h3, h4⟩ | ⟨⟨m, hm3, hm4⟩, h4⟩
          · left
            refine ⟨?_, ?_⟩
            · intro m hm
              rcases List.mem_cons.1 hm with h | h
              · rw [h]; exact (hpos n hn).2 hlt
              · exact h3 m h
            · rw [h4, List.flatMap_cons, List.getD_eq_getElem _ _ hlt]
          · right
            exact ⟨⟨m, List.mem_cons_of_mem _ hm3, hm4⟩, by rw [h4]⟩
        · right
          have hm : measOf f n = .error .indexError := by
            unfold measOf
            rw [List.getElem?_eq_none (by omega)]
          dsimp only
          rw [hm]
          exact ⟨⟨n, List.mem_cons_self .., fun h => hlt ((hpos n hn).1 h)⟩, rfl⟩
  have := key rest f.idents (fun n hn => (hsub n).1 hn) (fun i hi => hi)
    (by rw [rest_length hf hd, hf.idents]; exact hf.names)
  rw [hf.idents] at this
  exact this

/-- C140: if moreover all the selected measurements share their wavenumbers, then in whatever order the set is listed the
theory vector, when there is one, is the expected one. -/
theorem C140_window_same_bins {f : FitData} (hf : Loaded f) (hk : f.kind = .window) (hw : WindowElls f) {rest : List Nat}
    (hd : Divides f [] rest) {ks : List Rat} (hks : ∀ k ∈ f.ks, k = ks) {v : List Cell}
    (hv : theory f [] rest = .ok v) : v = expected f.idents f.ks := by
  rcases C140_window_order hf hk hw hd with ⟨h1, h2⟩ | ⟨-, h2⟩
  · rw [h2] at hv
    cases hv
    rw [← flatMap_expected]
    have hl := rest_length hf hd
    have h3 := hf.idents
    have h4 := hf.names
    have h : (rest.zip f.idents).map (fun e => (e.2, f.ks.getD (f.names.idxOf e.1) [])) = f.idents.zip f.ks := by
      refine List.ext_getElem (by simp; omega) fun i hi hi' => ?_
      have hik : i < f.ks.length := by simp at hi'; omega
      have hir : i < rest.length := by omega
      rw [List.getElem_map, List.getElem_zip, List.getElem_zip]
      dsimp only
      have h5 := h1 rest[i] (by rw [List.mem_take_iff_getElem]; exact ⟨i, by omega, rfl⟩)
      obtain ⟨j, hj, hje⟩ := List.mem_take_iff_getElem.1 h5
      rw [← hje, hf.distinct.idxOf_getElem, List.getD_eq_getElem _ _ (by omega), hks _ (List.getElem_mem _),
        hks f.ks[i] (List.getElem_mem _)]
    rw [← h, List.flatMap_map]
  · rw [h2] at hv; cases hv

/-- C140: with a window function, a multipole above `max_ellprime` always ends in a `TypeError`. -/
theorem C140_window_high {f : FitData} (hf : Loaded f) (hk : f.kind = .window) {l : Nat} (hl : Ident.ell l ∈ f.idents)
    (hlt : f.maxEllPrime < l) {rest : List Nat} (hd : Divides f [] rest) : theory f [] rest = .error .typeError := by
  have hsub : ∀ n, n ∈ rest ↔ n ∈ f.names := fun n => by simpa using hd.cover n
  have hall : rest.all (fun n => decide (n ∈ f.names)) = true :=
    List.all_eq_true.2 fun n hn => by simpa using (hsub n).1 hn
  rw [theory_one (rest_nonempty hf hd)]
  unfold groupTheory calculateTransfer
  rw [if_pos hall, filter_all hf fun n hn => (hsub n).2 hn]
  dsimp only
  unfold checkTransfer
  rw [hk]
  dsimp only
  rw [if_neg (idents_nonempty hf), if_neg]
  rw [maxEll_le]
  intro h
  have := h l hl
  omega

/-- C140: with a grid, the statistics in one group in the order of the file, and the measured wavenumbers the centres of the
grid's bins within the limits, the theory vector is the expected one, for every selection. -/
theorem C140_grid_partial {f : FitData} (hf : Loaded f) {kcen : List Rat} (hk : f.kind = .grid kcen) (hm : f.mode = .poles)
    (hbins : ∀ i (h : i < f.ks.length), f.ks[i] =
      kcen.filter (inside (f.lims.getD i (none, none)).1 (f.lims.getD i (none, none)).2)) :
    theory f [] f.names = .ok (expected f.idents f.ks) := by
  have hd : Divides f [] f.names := ⟨fun n => by simp, hf.distinct⟩
  have h1 := hf.idents
  have h2 := hf.lims
  have hcheck : checkTransfer f f.names f.idents = .ok () := by
    unfold checkTransfer
    rw [hk]
    dsimp only
    rw [if_pos (Or.inl (by omega))]
  rw [theory_one (rest_nonempty hf hd), calc_one hf hd hcheck, ← file_order hf]
  refine applyIds_ok f _ _ (fun e => (f.ks.getD (f.names.idxOf e.1) []).map fun q => (some (e.2, q) : Cell)) _
    fun e he => ?_
  obtain ⟨i, hi, rfl⟩ := List.getElem_of_mem he
  have hi2 : i < f.ks.length := by simp at hi; omega
  have hi3 : i < f.idents.length := by omega
  rw [List.getElem_zip]
  refine ⟨f.ks[i], ?_, ?_⟩
  · unfold measOf
    dsimp only
    rw [hf.distinct.idxOf_getElem, List.getElem?_eq_getElem hi2]
  · dsimp only
    have h3 := hf.ofMode _ (List.getElem_mem hi3)
    rw [hm] at h3
    obtain ⟨l, hl⟩ := h3
    have hidx : f.idents.idxOf (.ell l) = i := by rw [← hl, hf.identsDistinct.idxOf_getElem]
    have hlim : limOf f i = f.lims.getD i (none, none) := by
      unfold limOf
      split_ifs with h
      · rw [h2] at h
        have : i = 0 := by omega
        rw [this]
      · rfl
    unfold selectBin
    rw [hl]
    dsimp only
    rw [hk]
    dsimp only
    rw [if_pos (by rw [← hl]; exact List.getElem_mem hi3), hidx, hlim, hf.distinct.idxOf_getElem,
      List.getD_eq_getElem _ _ hi2, hbins i hi2]

/-- C140: with a grid, giving one of several statistics parameters of its own always ends in a `ValueError`: the limits of
all the statistics do not fit the transfer of that one. -/
theorem C140_grid_specific {f : FitData} (hf : Loaded f) {kcen : List Rat} (hk : f.kind = .grid kcen)
    (hmany : 1 < f.ks.length) {specific rest : List Nat} (hne : specific ≠ []) (hd : Divides f specific rest) :
    theory f specific rest = .error .valueError := by
  cases specific with
  | nil => exact absurd rfl hne
  | cons n s =>
    have hn : n ∈ f.names := (hd.cover n).1 (Or.inl (List.mem_cons_self ..))
    unfold theory groups
    rw [List.map_cons, List.cons_append]
    unfold theoryOf groupTheory calculateTransfer
    rw [if_pos (by simpa using hn), filterIdents_ok hf]
    dsimp only
    unfold checkTransfer
    rw [hk]
    dsimp only
    rw [if_neg]
    rw [hf.lims]
    rintro (h | h)
    · -- at most one position carries the name
      have key : ∀ (is : List Ident) (ns : List Nat), ns.Nodup →
          ((is.zip ns).filterMap fun e => if e.2 ∈ [n] then some e.1 else none).length ≤ 1 := by
        intro is
        induction is with
        | nil => intro ns _; simp
        | cons i is ih =>
          intro ns hns
          cases ns with
          | nil => simp
          | cons m ns =>
            rw [List.nodup_cons] at hns
            rw [List.zip_cons_cons, List.filterMap_cons]
            by_cases hmn : m = n
            · have : ((is.zip ns).filterMap fun e => if e.2 ∈ [n] then some e.1 else none) = [] := by
                rw [List.filterMap_eq_nil_iff]
                intro e he
                have h3 := (List.of_mem_zip he).2
                rw [if_neg]
                rw [List.mem_singleton]
                intro h4
                rw [h4, ← hmn] at h3
                exact hns.1 h3
              rw [this]
              simp [hmn]
            · have := ih ns hns.2
              simpa [hmn] using this
      have := key f.idents f.names hf.distinct
      omega
    · omega

/-! ### the smooth transfers, all statistics used -/

theorem joinK_same {gs : List (List Rat)} {ks : List Rat} (hne : gs ≠ []) (h : ∀ g ∈ gs, g = ks) : joinK gs = ks := by
  cases gs with
  | nil => exact absurd rfl hne
  | cons g gs =>
    have hg := h g (List.mem_cons_self ..)
    unfold joinK
    dsimp only
    rw [if_pos]
    · exact hg
    · rw [List.all_eq_true]
      intro g' hg'
      rw [h g' (List.mem_cons_of_mem _ hg'), hg]
      simp

/-- C140: without window and grid, all the statistics of the file used in one group, and all on the same wavenumbers, the
theory vector is the expected one, in whatever order the set of statistics is listed. -/
theorem C140_smooth_partial {f : FitData} (hf : Loaded f) (hk : f.kind = .smooth) (hm : f.mode = .poles)
    (hall : f.ks.length = f.names.length) {rest : List Nat} (hd : Divides f [] rest) {ks : List Rat}
    (hks : ∀ k ∈ f.ks, k = ks) : theory f [] rest = .ok (expected f.idents f.ks) := by
  have hsub : ∀ n, n ∈ rest ↔ n ∈ f.names := fun n => by simpa using hd.cover n
  have hpos : ∀ n ∈ rest, f.names.idxOf n < f.ks.length := fun n hn => by
    rw [hall]
    exact List.idxOf_lt_length_iff.2 ((hsub n).1 hn)
  have hl := rest_length hf hd
  have h1 := hf.idents
  have hcheck : checkTransfer f rest f.idents = .ok () := by
    unfold checkTransfer
    rw [hk]
    dsimp only
    rw [if_pos ⟨List.all_eq_true.2 fun n hn => by simpa using hpos n hn, by omega⟩]
  rw [theory_one (rest_nonempty hf hd), calc_one hf hd hcheck]
  have hgrids : ∀ g ∈ gridsOf f rest, g = ks := by
    intro g hg
    unfold gridsOf at hg
    obtain ⟨n, hn, rfl⟩ := List.mem_map.1 hg
    rw [List.getD_eq_getElem _ _ (hpos n hn)]
    exact hks _ (List.getElem_mem _)
  have hjoin : joinK (gridsOf f rest) = ks :=
    joinK_same (by unfold gridsOf; simpa using rest_nonempty hf hd) hgrids
  rw [applyIds_ok f _ _ (fun e => ks.map fun q => (some (e.2, q) : Cell)) _ fun e he => ?_]
  · congr 1
    rw [← flatMap_expected]
    have h : (rest.zip f.idents).map (fun e => (e.2, ks)) = f.idents.zip f.ks := by
      refine List.ext_getElem (by simp; omega) fun i hi hi' => ?_
      have hik : i < f.ks.length := by simp at hi'; omega
      rw [List.getElem_map, List.getElem_zip, List.getElem_zip, hks f.ks[i] (List.getElem_mem _)]
    rw [← h, List.flatMap_map]
  · obtain ⟨h3, h4⟩ := List.of_mem_zip he
    refine ⟨f.ks[f.names.idxOf e.1]'(hpos _ h3), ?_, ?_⟩
    · unfold measOf
      rw [List.getElem?_eq_getElem (hpos _ h3)]
    · have h5 := hf.ofMode _ h4
      rw [hm] at h5
      obtain ⟨l, hl5⟩ := h5
      unfold selectBin
      rw [hl5] at h4 ⊢
      dsimp only
      rw [hk]
      dsimp only
      rw [if_pos h4, hjoin]
      congr 1
      refine List.map_congr_left fun k hkk => ?_
      rw [if_pos]
      have hlt : f.idents.idxOf (.ell l) < (gridsOf f rest).length := by
        have := List.idxOf_lt_length_iff.2 h4
        unfold gridsOf
        rw [List.length_map]
        have := hf.names
        omega
      rw [List.getD_eq_getElem _ _ hlt, hgrids _ (List.getElem_mem _)]
      exact hkk

/-! ### concrete data sets -/

/-- Monopole, quadrupole and hexadecapole on two bins, of a file with three statistics. -/
def three (kind : Kind) : FitData :=
  ⟨.poles, kind, 4, [0, 2, 4], [.ell 0, .ell 2, .ell 4], [[1, 2], [1, 2], [1, 2]],
    [(some 1, some 2), (some 1, some 2), (some 1, some 2)]⟩

theorem three_loaded (kind : Kind) : Loaded (three kind) :=
  ⟨by simp [three], rfl, rfl, le_refl _, by simp [three], by simp [three], by simp [three]⟩

/-- The quadrupole and hexadecapole of that file. -/
theorem two_loaded (kind : Kind) : Loaded (usedata [1, 2] (three kind)) := by
  have : usedata [1, 2] (three kind) = ⟨.poles, kind, 4, [0, 2, 4], [.ell 2, .ell 4], [[1, 2], [1, 2]],
      [(some 1, some 2), (some 1, some 2)]⟩ := rfl
  rw [this]
  exact ⟨by simp, rfl, rfl, by simp, by simp, by simp, by simp⟩

theorem three_divides (kind : Kind) : Divides (three kind) [] [4, 0, 2] :=
  ⟨fun n => by simp [three]; tauto, by simp⟩

example : WindowElls (usedata [1, 2] (three .window)) := by
  intro i hi
  have : i ∈ [Ident.ell 2, Ident.ell 4] := hi
  rcases List.mem_cons.1 this with h | h
  · exact ⟨2, h, rfl, by decide⟩
  · exact ⟨4, List.mem_singleton.1 h, rfl, by decide⟩

example : theory (usedata [1, 2] (three .window)) [] [0, 2, 4] =
    .ok [some (.ell 2, 1), some (.ell 2, 2), some (.ell 4, 1), some (.ell 4, 2)] := by rfl

example : theory (three (.grid [1, 2, 3])) [] [0, 2, 4] = .ok (expected (three (.grid [])).idents (three (.grid [])).ks) :=
  C140_grid_partial (three_loaded _) rfl rfl (by
    intro i h
    have h : i < 3 := h
    match i, h with
    | 0, _ => rfl
    | 1, _ => rfl
    | 2, _ => rfl)

example : theory (three .smooth) [] [4, 0, 2] = .ok (expected (three .smooth).idents (three .smooth).ks) :=
  C140_smooth_partial (three_loaded _) rfl rfl rfl (three_divides _) (ks := [1, 2]) (by simp [three])

example : theory (usedata [1, 2] (three .smooth)) [] [4, 0, 2] = .error .indexError :=
  C140_selection_smooth (two_loaded _) rfl rfl (by decide) ⟨(three_divides .smooth).cover, (three_divides .smooth).distinct⟩

example : theory (three (.grid [1, 2])) [2] [0, 4] = .error .valueError :=
  C140_grid_specific (three_loaded _) rfl (by decide) (by simp) ⟨fun n => by simp [three]; tauto, by simp⟩

example : theory { three .window with maxEllPrime := 2 } [] [4, 0, 2] = .error .typeError :=
  C140_window_high (l := 4) ⟨by simp [three], rfl, rfl, le_refl _, by simp [three], by simp [three], by simp [three]⟩ rfl
    (by simp [three]) (by decide) ⟨fun n => by simp [three]; tauto, by simp⟩

/-- Two wedges. -/
example : ∃ e, theory ⟨.pkmu, .smooth, 4, [0, 1], [.wedge 0 (1/2), .wedge (1/2) 1], [[1], [1]], [(none, none), (none, none)]⟩
    [] [1, 0] = .error e :=
  C140_wedges ⟨by simp, rfl, rfl, le_refl _, by simp, by simp, by simp⟩ rfl ⟨fun n => by simp; tauto, by simp⟩

/-- With a selection and a window the outcome depends on the order in which Python lists a set of strings: the quadrupole
and hexadecapole of a file with three multipoles give a theory in one order and an `IndexError` in another. -/
theorem C140_order_counterexample :
    theory (usedata [1, 2] (three .window)) [] [0, 2, 4] =
        .ok (expected (usedata [1, 2] (three .window)).idents (usedata [1, 2] (three .window)).ks) ∧
      theory (usedata [1, 2] (three .window)) [] [4, 0, 2] = .error .indexError := ⟨rfl, rfl⟩

/-- With that selection, parameters given to the monopole, which is not even used, are those of the quadrupole's
prediction. -/
theorem C140_specific_counterexample :
    groupTheory (usedata [1, 2] (three .window)) [0] = .ok [some (.ell 2, 1), some (.ell 2, 2)] ∧
      theory (usedata [1, 2] (three .window)) [0] [2, 4] =
        .ok (expected (usedata [1, 2] (three .window)).idents (usedata [1, 2] (three .window)).ks) := ⟨rfl, rfl⟩

/-- Without selection, but with different fitting ranges, an order other than that of the file puts the prediction of one
statistic on the wavenumbers of another. -/
theorem C140_ranges_counterexample :
    theory ⟨.poles, .window, 4, [0, 2], [.ell 0, .ell 2], [[1, 2], [1]], [(none, none), (none, some 1)]⟩ [] [2, 0] =
      .ok [some (.ell 0, 1), some (.ell 2, 1), some (.ell 2, 2)] := rfl

end Verif.TheoryVec
