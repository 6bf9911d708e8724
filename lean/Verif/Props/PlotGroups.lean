import Verif.Props.PlotNames
import Mathlib.Data.List.Sublists

/-!
# C149: which parameters are on which figure, and what is known of them
-/

namespace Verif.PlotNames

/-! ### The groups -/

theorem get_push (d : Groups) (k v k' : String) : get (push d k v) k' = if k' = k then get d k ++ [v] else get d k' := by
  induction d with
  | nil =>
    by_cases h : k' = k
    · simp [push, get, h]
    · simp [push, get, h, Ne.symm h]
  | cons p d ih =>
    by_cases hp : p.1 = k
    · by_cases h : k' = k
      · simp [push, get, hp, h]
      · have : ¬ k = k' := fun e => h e.symm
        simp [push, get, hp, h, this]
    · by_cases h : k' = k
      · subst h
        simp only [push, hp, if_false, get, ih, if_true]
      · simp only [push, hp, if_false, get, ih, h]

/-- Every group has an element, and no two have the same name -/
def Tidy (d : Groups) : Prop := (d.map Prod.fst).Nodup ∧ ∀ p ∈ d, p.2 ≠ []

theorem push_keys (d : Groups) (k v : String) : (push d k v).map Prod.fst = if k ∈ d.map Prod.fst then d.map Prod.fst else d.map Prod.fst ++ [k] := by
  induction d with
  | nil => simp [push]
  | cons p d ih =>
    by_cases hp : p.1 = k
    · simp [push, hp]
    · have : ¬ k = p.1 := fun e => hp e.symm
      simp only [push, hp, if_false, List.map_cons, ih, List.mem_cons, this, false_or]
      split_ifs <;> simp

theorem push_tidy {d : Groups} (h : Tidy d) (k v : String) : Tidy (push d k v) := by
  obtain ⟨h1, h2⟩ := h
  refine ⟨?_, ?_⟩
  · rw [push_keys]
    split_ifs with hk
    · exact h1
    · exact List.Nodup.append h1 (by simp) (by simpa using hk)
  · clear h1
    induction d with
    | nil => intro p hp; simp [push] at hp; simp [hp]
    | cons q d ih =>
      intro p hp
      unfold push at hp
      split_ifs at hp with hq
      · rcases List.mem_cons.1 hp with rfl | hp
        · simp
        · exact h2 p (List.mem_cons_of_mem _ hp)
      · rcases List.mem_cons.1 hp with rfl | hp
        · exact h2 _ List.mem_cons_self
        · exact ih (fun p hp => h2 p (List.mem_cons_of_mem _ hp)) p hp

theorem fold_get (f : String → Option String) : ∀ (l : List String) (d : Groups) (k : String),
    get (l.foldl (fun d n => match f n with | some g => push d g n | none => d) d) k = get d k ++ l.filter (fun n => decide (f n = some k)) := by
  intro l
  induction l with
  | nil => intro d k; simp
  | cons n l ih =>
    intro d k
    rw [List.foldl_cons, ih]
    rcases hf : f n with _ | g
    · simp [hf]
    · simp only [get_push]
      by_cases h : k = g
      · subst h
        simp [hf]
      · have h' : ¬ g = k := fun e => h e.symm
        simp [hf, h, h']

theorem fold_tidy (f : String → Option String) : ∀ (l : List String) (d : Groups), Tidy d → Tidy (l.foldl (fun d n => match f n with | some g => push d g n | none => d) d) := by
  intro l
  induction l with
  | nil => intro d h; exact h
  | cons n l ih =>
    intro d h
    rw [List.foldl_cons]
    refine ih _ ?_
    rcases f n with _ | g
    · exact h
    · exact push_tidy h _ _

/-- The one-dimensional figures: without a choice all free parameters are on the figure `free`, all constrained ones on `constrained`, in their order; with a choice those that are chosen are on
`subset`, each once. There are no other figures and none without parameters. -/
theorem C149_figures1 (free cons to1 : List String) (hdis : ∀ n ∈ cons, n ∉ free) (k : String) :
    Tidy (groups1 free (free ++ cons) to1) ∧
    get (groups1 free (free ++ cons) to1) k =
      if to1 = [] then (if k = "free" then free else if k = "constrained" then cons else [])
      else if k = "subset" then (free ++ cons).filter (fun n => decide (n ∈ to1)) else [] := by
  obtain ⟨f, hf⟩ : ∃ f : String → Option String, f = fun n => if to1 = [] then some (if n ∈ free then "free" else "constrained") else if n ∈ to1 then some "subset" else none := ⟨_, rfl⟩
  have hg : groups1 free (free ++ cons) to1 = (free ++ cons).foldl (fun d n => match f n with | some g => push d g n | none => d) [] := by
    unfold groups1
    congr 1
    funext d n
    rw [hf]
    dsimp only
    split_ifs <;> rfl
  rw [hg]
  refine ⟨fold_tidy f _ _ ⟨by simp, by simp⟩, ?_⟩
  rw [fold_get, get, List.nil_append]
  by_cases h1 : to1 = []
  · simp only [hf, h1, if_true, Option.some.injEq, List.filter_append]
    by_cases hk : k = "free"
    · subst hk
      rw [if_pos rfl, List.filter_eq_self.2, List.filter_eq_nil_iff.2, List.append_nil]
      · intro n hn
        simp [hdis n hn]
      · intro n hn
        simp [hn]
    · rw [if_neg hk, List.filter_eq_nil_iff.2, List.nil_append]
      · by_cases hk2 : k = "constrained"
        · subst hk2
          rw [if_pos rfl, List.filter_eq_self]
          intro n hn
          simp [hdis n hn]
        · rw [if_neg hk2, List.filter_eq_nil_iff]
          intro n hn
          have : ¬ "constrained" = k := fun e => hk2 e.symm
          simp [hdis n hn, this]
      · intro n hn
        have : ¬ "free" = k := fun e => hk e.symm
        simp [hn, this]
  · simp only [hf, h1, if_false]
    by_cases hk : k = "subset"
    · subst hk
      rw [if_pos rfl]
      refine List.filter_congr fun n _ => ?_
      by_cases hn : n ∈ to1 <;> simp [hn]
    · rw [if_neg hk, List.filter_eq_nil_iff]
      intro n _
      have : ¬ "subset" = k := fun e => hk e.symm
      by_cases hn : n ∈ to1 <;> simp [hn, this]

theorem mem_pairs {α : Type*} {a b : α} : ∀ {l : List α}, (a, b) ∈ pairs l ↔ [a, b].Sublist l := by
  intro l
  induction l with
  | nil => simp [pairs]
  | cons c l ih =>
    simp only [pairs, List.mem_append, List.mem_map, Prod.mk.injEq, ih]
    constructor
    · rintro (⟨x, hx, rfl, rfl⟩ | h)
      · exact (List.singleton_sublist.2 hx).cons_cons _
      · exact h.cons _
    · intro h
      cases h with
      | cons _ h => exact Or.inr h
      | cons_cons _ h => exact Or.inl ⟨b, List.singleton_sublist.1 h, rfl, rfl⟩

theorem nodup_pairs {α : Type*} : ∀ {l : List α}, l.Nodup → (pairs l).Nodup := by
  intro l
  induction l with
  | nil => simp [pairs]
  | cons c l ih =>
    intro h
    obtain ⟨h1, h2⟩ := List.nodup_cons.1 h
    refine List.Nodup.append (h2.map fun x y e => by simpa using e) (ih h2) ?_
    rintro ⟨x, y⟩ hx hy
    simp only [List.mem_map, Prod.mk.injEq] at hx
    obtain ⟨_, _, rfl, _⟩ := hx
    exact h1 ((mem_pairs.1 hy).subset (by simp))

/-- The name of the figure of two groups -/
def tag (a b : String × List String) : String := a.1 ++ "_vs_" ++ b.1

theorem pairs_fold (params : List String) (k : String) : ∀ (ps : List ((String × List String) × (String × List String))) (d : Groups),
    get (ps.foldl (pairGroup params) d) k = get d k ++ (ps.filter fun p => decide (tag p.1 p.2 = k)).flatMap fun p => (p.1.2 ++ p.2.2).filter fun n => decide (n ∈ params) := by
  intro ps
  induction ps with
  | nil => intro d; simp
  | cons p ps ih =>
    intro d
    rw [List.foldl_cons, ih]
    have h1 : pairGroup params d p = (p.1.2 ++ p.2.2).foldl (fun d n => match (if n ∈ params then some (tag p.1 p.2) else none : Option String) with | some g => push d g n | none => d) d := by
      unfold pairGroup
      congr 1
      funext d n
      split_ifs <;> rfl
    rw [h1, fold_get]
    by_cases hk : tag p.1 p.2 = k
    · rw [List.filter_cons_of_pos (by simpa using hk), List.flatMap_cons, List.append_assoc]
      congr 2
      refine List.filter_congr fun n _ => ?_
      by_cases hn : n ∈ params <;> simp [hn, hk]
    · rw [List.filter_cons_of_neg (by simpa using hk)]
      have : (p.1.2 ++ p.2.2).filter (fun n => decide ((if n ∈ params then some (tag p.1 p.2) else none : Option String) = some k)) = [] := by
        rw [List.filter_eq_nil_iff]
        intro n _
        by_cases hn : n ∈ params <;> simp [hn, hk]
      rw [this, List.append_nil]

/-- The two-dimensional figures: without groups one figure, of the free parameters; with two groups or more, one for every two of them, of the existing parameters of the first and then those of
the second (if no other two groups have the same name of a figure). -/
theorem C149_figures2_partial (free params : List String) (to2 : Groups) :
    (to2 = [] → groups2 free params to2 = .ok [("free", free)]) ∧
    (2 ≤ to2.length → ∃ g, groups2 free params to2 = .ok g ∧ ∀ a b, to2.Nodup → [a, b].Sublist to2 → (∀ c d, [c, d].Sublist to2 → tag c d = tag a b → c = a ∧ d = b) →
      get g (tag a b) = (a.2 ++ b.2).filter fun n => decide (n ∈ params)) := by
  refine ⟨fun h => by rw [groups2, if_pos h], fun h => ⟨_, by rw [groups2, if_neg (by rintro rfl; simp at h), if_neg (by omega)], fun a b hn hab hu => ?_⟩⟩
  rw [pairs_fold, get, List.nil_append]
  have hf : ((pairs to2).filter fun p => decide (tag p.1 p.2 = tag a b)) = [(a, b)] := by
    have h1 : ((pairs to2).filter fun p => decide (tag p.1 p.2 = tag a b)).Nodup := (nodup_pairs hn).filter _
    have h2 : ∀ p, p ∈ ((pairs to2).filter fun p => decide (tag p.1 p.2 = tag a b)) ↔ p = (a, b) := by
      rintro ⟨c, d⟩
      simp only [List.mem_filter, mem_pairs, decide_eq_true_eq, Prod.mk.injEq]
      constructor
      · rintro ⟨h3, h4⟩
        exact hu c d h3 h4
      · rintro ⟨rfl, rfl⟩
        exact ⟨hab, rfl⟩
    exact List.perm_singleton.1 ((List.perm_ext_iff_of_nodup h1 (by simp)).2 fun p => by simp [h2])
  rw [hf]
  simp

/-- Where it fails: one group is a `TypeError`; a parameter in both groups is on the figure twice. -/
theorem C149_figures2_counterexample : (∀ free params g, groups2 free params [g] = .error .type) ∧
    ∃ g, groups2 ["a", "b"] ["a", "b"] [("x", ["a"]), ("y", ["a", "b"])] = .ok g ∧ get g "x_vs_y" = ["a", "a", "b"] := by
  refine ⟨fun free params g => by simp [groups2], _, rfl, by decide⟩

/-! ### The parameters -/

theorem search_some {s : Char} {l : Label} {r : Label × Label} (h : matchAt s l = some r) : ∃ r', search s l = some r' := by
  cases l with
  | nil => simp [matchAt] at h
  | cons c l => exact ⟨r, by simp [search, h]⟩

theorem format_total (name : Label) {x : ℚ} (hx : 0 < x) : ∃ l, format name x = some l := by
  unfold format
  split_ifs with h1 h2
  · exact ⟨_, rfl⟩
  · exact ⟨_, rfl⟩
  · rw [sci, if_neg hx.ne', if_neg (not_lt.2 hx.le), abs_of_pos hx]
    have key : ∀ (m : ℕ) (s : Char) (r : Label), ∃ g, search s ('$' :: (dec m ++ 'e' :: s :: r)) = some g := by
      intro m s r
      refine search_some (r := ((r.dropWhile (· == '0')).takeWhile Char.isDigit, ((r.dropWhile (· == '0')).dropWhile Char.isDigit).takeWhile (· != '\n'))) ?_
      have h1 : (dec m ++ 'e' :: s :: r).dropWhile Char.isDigit = 'e' :: s :: r := drop_digits dec_isDigit fun c hc => by simp at hc; subst hc; rfl
      simp [matchAt, h1]
    simp only [List.nil_append, List.append_assoc, List.cons_append]
    by_cases hs : (mantExp x).2 < 0
    · simp only [hs, if_true]
      obtain ⟨g, hg⟩ := key (mantExp x).1 '-' (expText (mantExp x).2.natAbs ++ (strip name ++ ['$']))
      rw [hg]
      split
      · exact ⟨_, rfl⟩
      · exact ⟨_, rfl⟩
    · simp only [hs, if_false]
      obtain ⟨g, hg⟩ := key (mantExp x).1 '+' (expText (mantExp x).2.natAbs ++ (strip name ++ ['$']))
      rw [hg]
      exact ⟨_, rfl⟩

theorem rows_spec {a : Ask} {free cons : List String} : ∀ {l : List String} {tex : Tex} {rs : List Row} {tex' : Tex}, l.Nodup → rows a free cons tex l = (.ok rs, tex') →
    rs.map Row.name = l ∧ (∀ n, n ∉ l → tex' n = tex n) ∧ (∀ n ∈ l, a.scale n ≠ 0) ∧
      ∀ r ∈ rs, (∃ t, tex r.name = some t ∧ format t (1 / a.scale r.name) = some r.label) ∧ tex' r.name = some r.label ∧ r.scale = a.scale r.name ∧
        r.lower = (a.lower r.name).finite ∧ r.upper = (a.upper r.name).finite ∧ r.index = indexOf free cons r.name := by
  intro l
  induction l with
  | nil =>
    intro tex rs tex' _ h
    simp only [rows, Prod.mk.injEq, Except.ok.injEq] at h
    obtain ⟨rfl, rfl⟩ := h
    simp
  | cons n l ih =>
    intro tex rs tex' hnd h
    obtain ⟨hn, hnd'⟩ := List.nodup_cons.1 hnd
    unfold rows at h
    rcases ht : tex n with _ | t
    · simp [ht] at h
    · simp only [ht] at h
      by_cases h0 : a.scale n = 0
      · simp [h0] at h
      · rw [if_neg h0] at h
        rcases hf : format t (1 / a.scale n) with _ | t'
        · simp only [hf] at h
          cases h
        · simp only [hf] at h
          rcases hr : rows a free cons (Function.update tex n (some t')) l with ⟨e | rs', tex''⟩
          · simp [hr] at h
          · simp only [hr, Prod.mk.injEq, Except.ok.injEq] at h
            obtain ⟨rfl, rfl⟩ := h
            obtain ⟨h1, h2, h3, h4⟩ := ih hnd' hr
            refine ⟨by simp [h1], fun m hm => ?_, fun m hm => ?_, fun r hr' => ?_⟩
            · simp only [List.mem_cons, not_or] at hm
              rw [h2 m hm.2, Function.update_of_ne hm.1]
            · rcases List.mem_cons.1 hm with rfl | hm
              · exact h0
              · exact h3 m hm
            · rcases List.mem_cons.1 hr' with rfl | hr'
              · refine ⟨⟨t, ht, hf⟩, ?_, rfl, rfl, rfl, rfl⟩
                dsimp only
                rw [h2 n hn, Function.update_self]
              · obtain ⟨⟨u, hu, hfu⟩, h5⟩ := h4 r hr'
                have hne : r.name ≠ n := fun e => hn (by rw [← e, ← h1]; exact List.mem_map_of_mem hr')
                rw [Function.update_of_ne hne] at hu
                exact ⟨⟨u, hu, hfu⟩, h5⟩

theorem indexOf_spec {free cons : List String} {n : String} (h : n ∈ free ++ cons) : (free ++ cons)[indexOf free cons n]? = some n := by
  unfold indexOf
  split_ifs with hf
  · rw [List.getElem?_append_left (List.idxOf_lt_length_of_mem hf), List.getElem?_eq_getElem (List.idxOf_lt_length_of_mem hf), List.getElem_idxOf]
  · have hc : n ∈ cons := (List.mem_append.1 h).resolve_left hf
    rw [List.getElem?_append_right (by omega), Nat.add_sub_cancel_left, List.getElem?_eq_getElem (List.idxOf_lt_length_of_mem hc), List.getElem_idxOf]

/-- After the extraction there is one entry for every parameter, in the order of the combined chain: its label is that of the dictionary, for the scale that was asked for (one, if none was); its
finite bounds; and its index finds it. -/
theorem C149_parameters {a : Ask} {free cons : List String} {tex tex' : Tex} {o : Out} (hnd : (free ++ cons).Nodup) (h : extract a free cons tex = (.ok o, tex')) :
    o.rows.map Row.name = free ++ cons ∧ o.plots1 = groups1 free (free ++ cons) a.to1 ∧ groups2 free (free ++ cons) a.to2 = .ok o.plots2 ∧
    (∀ n, n ∉ free ++ cons → tex' n = tex n) ∧
    ∀ r ∈ o.rows, (∃ t, tex r.name = some t ∧ format t (1 / r.scale) = some r.label) ∧ tex' r.name = some r.label ∧ r.scale = (a.scales r.name).getD 1 ∧ r.scale ≠ 0 ∧
      (∀ x, r.lower = some x ↔ a.lower r.name = .at x) ∧ (∀ x, r.upper = some x ↔ a.upper r.name = .at x) ∧ (free ++ cons)[r.index]? = some r.name := by
  unfold extract at h
  rcases hg : groups2 free (free ++ cons) a.to2 with e | g2
  · simp [hg] at h
  · simp only [hg] at h
    rcases hr : rows a free cons tex (free ++ cons) with ⟨e | rs, tex''⟩
    · simp [hr] at h
    · simp only [hr, Prod.mk.injEq, Except.ok.injEq] at h
      obtain ⟨rfl, rfl⟩ := h
      obtain ⟨h1, h2, h3, h4⟩ := rows_spec hnd hr
      refine ⟨h1, rfl, rfl, h2, fun r hr' => ?_⟩
      obtain ⟨h5, h6, h7, h8, h9, h10⟩ := h4 r hr'
      have hm : r.name ∈ free ++ cons := by rw [← h1]; exact List.mem_map_of_mem hr'
      refine ⟨by rw [h7]; exact h5, h6, h7, by rw [h7]; exact h3 _ hm, fun x => ?_, fun x => ?_, by rw [h10]; exact indexOf_spec hm⟩
      · rw [h8]; cases a.lower r.name <;> simp [Bound.finite]
      · rw [h9]; cases a.upper r.name <;> simp [Bound.finite]

/-- If every parameter has a latex name, every scale is positive, and there is not exactly one group, there is no error. -/
theorem C149_no_error_partial {a : Ask} {free cons : List String} {tex : Tex} (ht : ∀ n ∈ free ++ cons, tex n ≠ none) (hs : ∀ n ∈ free ++ cons, 0 < a.scale n) (hg : a.to2.length ≠ 1) :
    ∃ o tex', extract a free cons tex = (.ok o, tex') := by
  have key : ∀ (l : List String) (tex : Tex), (∀ n ∈ l, tex n ≠ none) → (∀ n ∈ l, 0 < a.scale n) → ∃ rs tex', rows a free cons tex l = (.ok rs, tex') := by
    intro l
    induction l with
    | nil => intro tex _ _; exact ⟨_, _, rfl⟩
    | cons n l ih =>
      intro tex h1 h2
      obtain ⟨t, htn⟩ := Option.ne_none_iff_exists'.1 (h1 n List.mem_cons_self)
      have hp := h2 n List.mem_cons_self
      obtain ⟨t', hf⟩ := format_total t (one_div_pos.2 hp)
      obtain ⟨rs, tex', hr⟩ := ih (Function.update tex n (some t')) (fun m hm => by
        by_cases hmn : m = n
        · subst hmn; simp
        · rw [Function.update_of_ne hmn]; exact h1 m (List.mem_cons_of_mem _ hm)) fun m hm => h2 m (List.mem_cons_of_mem _ hm)
      exact ⟨_, _, by simp only [rows, htn, if_neg hp.ne', hf, hr]; rfl⟩
  obtain ⟨rs, tex', hr⟩ := key _ _ ht hs
  have hg2 : ∃ g, groups2 free (free ++ cons) a.to2 = .ok g := by
    unfold groups2
    split_ifs with h1
    · exact ⟨_, rfl⟩
    · exact ⟨_, rfl⟩
  obtain ⟨g, hg2⟩ := hg2
  exact ⟨_, _, by simp only [extract, hg2, hr]; rfl⟩

theorem rows_unscaled {a : Ask} {free cons : List String} {n : String} (hs : a.scale n = 1) : ∀ {l : List String} {tex : Tex}, (rows a free cons tex l).2 n = tex n := by
  intro l
  induction l with
  | nil => intro tex; rfl
  | cons m l ih =>
    intro tex
    unfold rows
    rcases ht : tex m with _ | t
    · rfl
    · dsimp only
      by_cases h0 : a.scale m = 0
      · rw [if_pos h0]
      · rw [if_neg h0]
        rcases hf : format t (1 / a.scale m) with _ | t'
        · rfl
        · dsimp only
          have h2 := ih (tex := Function.update tex m (some t'))
          have h1 : (Function.update tex m (some t')) n = tex n := by
            by_cases hnm : n = m
            · subst hnm
              rw [hs] at hf
              simp [format] at hf
              rw [Function.update_self, ht, hf]
            · rw [Function.update_of_ne hnm]
          rw [h1] at h2
          rcases hr : rows a free cons (Function.update tex m (some t')) l with ⟨e | rs, tex''⟩
          · rw [hr] at h2; exact h2
          · rw [hr] at h2; exact h2

/-- Analyses one after the other in one process: a parameter that none of them scales has the label of its latex name in all of them. -/
theorem C149_history_partial {n : String} : ∀ {l : List (Ask × List String × List String)} {tex : Tex}, (∀ x ∈ l, x.1.scale n = 1 ∧ (x.2.1 ++ x.2.2).Nodup) →
    (analyses l tex).2 n = tex n ∧ ∀ o, .ok o ∈ (analyses l tex).1 → ∀ r ∈ o.rows, r.name = n → tex n = some r.label := by
  intro l
  induction l with
  | nil => intro tex _; exact ⟨rfl, fun o ho => by simp [analyses] at ho⟩
  | cons x l ih =>
    intro tex h
    obtain ⟨a, free, cons⟩ := x
    obtain ⟨hs, hnd⟩ := h _ List.mem_cons_self
    dsimp only at hs hnd
    obtain ⟨h1, h2⟩ := ih (tex := (extract a free cons tex).2) fun y hy => h y (List.mem_cons_of_mem _ hy)
    have h3 : (extract a free cons tex).2 n = tex n := by
      unfold extract
      rcases groups2 free (free ++ cons) a.to2 with e | g
      · rfl
      · dsimp only
        have := rows_unscaled (free := free) (cons := cons) hs (l := free ++ cons) (tex := tex)
        rcases hr : rows a free cons tex (free ++ cons) with ⟨e | rs, tex''⟩
        · rw [hr] at this; exact this
        · rw [hr] at this; exact this
    rw [h3] at h1 h2
    refine ⟨h1, fun o ho r hr hrn => ?_⟩
    simp only [analyses, List.mem_cons] at ho
    rcases ho with ho | ho
    · obtain ⟨_, _, _, _, hrow⟩ := C149_parameters (o := o) (tex' := (extract a free cons tex).2) hnd (Prod.ext ho.symm rfl)
      obtain ⟨⟨t, ht, hf⟩, _, hsc, _⟩ := hrow r hr
      have hsc1 : r.scale = 1 := by
        rw [hsc, hrn]
        exact hs
      rw [hsc1] at hf
      simp [format] at hf
      rw [← hrn, ht, hf]
    · exact h2 o ho r hr hrn

/-! ### Where it fails -/

/-- The latex names -/
def names : Tex := fun n => if n = "f" then some "$f$".toList else none

/-- One parameter, divided by a tenth -/
def tenth : Ask := ⟨[], [], fun n => if n = "f" then some (1 / 10) else none, fun _ => .none, fun _ => .at 1⟩

theorem label_of {t t' : Label} {tex : Tex} (ht : tex "f" = some t) (hf : format t 10 = some t') :
    extract tenth ["f"] [] tex = (.ok ⟨[⟨"f", t', 1 / 10, none, some 1, 0⟩], [("free", ["f"])], [("free", ["f"])]⟩, Function.update tex "f" (some t')) := by
  have hs : tenth.scale "f" = 1 / 10 := rfl
  have h0 : (1 : ℚ) / (1 / 10) = 10 := by norm_num
  have hrows : rows tenth ["f"] [] tex ["f"] = (.ok [⟨"f", t', 1 / 10, none, some 1, 0⟩], Function.update tex "f" (some t')) := by
    simp only [rows, ht, hs, h0, hf]
    rw [if_neg (by norm_num)]
    rfl
  have hg : groups2 ["f"] (["f"] ++ []) tenth.to2 = .ok [("free", ["f"])] := rfl
  have hg1 : groups1 ["f"] (["f"] ++ []) tenth.to1 = [("free", ["f"])] := rfl
  simp only [extract, hg]
  rw [hg1]
  simp only [List.append_nil, hrows]

theorem format_ten {t body : Label} (h : Named t body) : format t 10 = some ("$10~".toList ++ body ++ "$".toList) := by
  have := (C149_integer h (n := 10) (by norm_num) (by norm_num)).1
  have hd : dec 10 = ['1', '0'] := by simp [dec]
  rw [hd] at this
  simpa using this

/-- A case: the label of a parameter divided by a tenth. Where it fails: the same analysis a second time in the same process, with the dictionary of the package, has the factor twice. -/
theorem C149_twice_counterexample : ∃ o1 o2 tex', analyses [(tenth, ["f"], []), (tenth, ["f"], [])] names = ([.ok o1, .ok o2], tex') ∧
    o1.rows.map Row.label = ["$10~f$".toList] ∧ o2.rows.map Row.label = ["$10~10~f$".toList] := by
  have h1 := label_of (tex := names) (t := "$f$".toList) (t' := "$10~f$".toList) (by rfl) (format_ten (body := "f".toList) ⟨by decide, Or.inr (by decide)⟩)
  have h2 := label_of (tex := Function.update names "f" (some "$10~f$".toList)) (t := "$10~f$".toList) (t' := "$10~10~f$".toList) (Function.update_self ..)
    (format_ten (body := "10~f".toList) ⟨by decide, Or.inr (by decide)⟩)
  refine ⟨_, _, _, by simp only [analyses, h1, h2]; rfl, rfl, rfl⟩

/-- Where it fails: a missing latex name is an error also if the parameter is not on a figure, and the parameters before it then have their factor already: after the name is added, it is there twice. -/
theorem C149_missing_counterexample : ∃ tex', extract { tenth with to1 := ["f"] } ["f", "g"] [] names = (.error .value, tex') ∧ tex' "f" = some "$10~f$".toList := by
  have hf := format_ten (t := "$f$".toList) (body := "f".toList) ⟨by decide, Or.inr (by decide)⟩
  have ht : names "f" = some "$f$".toList := rfl
  have h0 : (1 : ℚ) / (1 / 10) = 10 := by norm_num
  have hs : ({ tenth with to1 := ["f"] } : Ask).scale "f" = 1 / 10 := rfl
  have hg : groups2 ["f", "g"] (["f", "g"] ++ []) ({ tenth with to1 := ["f"] } : Ask).to2 = .ok [("free", ["f", "g"])] := rfl
  have hu : (Function.update names "f" (some "$10~f$".toList)) "g" = none := by
    rw [Function.update_of_ne (by decide)]
    rfl
  have hf' : format "$f$".toList 10 = some "$10~f$".toList := hf
  refine ⟨Function.update names "f" (some "$10~f$".toList), ?_, Function.update_self ..⟩
  simp only [extract, hg, List.append_nil, rows, ht, hs, h0, hf', hu]
  rw [if_neg (by norm_num)]
  rfl

end Verif.PlotNames
