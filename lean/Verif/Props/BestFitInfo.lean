/-
C138, info files: what is read after writing.
-/
import Verif.Spec.BestFit
import Mathlib.Tactic.Linarith
import Mathlib.Tactic.IntervalCases

namespace Verif.BestFit

open Spec

/-! ### Metadata -/

lemma readMetas_words (t : List (List Cell)) (m : List (String × Meta)) : readMetas (t.map .words) m = .ok m := by
  induction t with
  | nil => rfl
  | cons a t ih => simpa [readMetas] using ih

lemma readMeta_plain {v : Meta} (h : Plain v) : readMeta (v.words ++ [.cast v.type]) = .ok v := by
  match v, h with
  | .int n, _ => rfl
  | .float x, _ => rfl
  | .str [w], _ => rfl

lemma readMetas_comments (info : List (String × Meta)) (t : List (List Cell)) (m : List (String × Meta)) (hp : ∀ kv ∈ info, Plain kv.2)
    (hd : ((m ++ info).map Prod.fst).Nodup) :
    readMetas (info.map (fun kv => Line.comment kv.1 (kv.2.words ++ [.cast kv.2.type])) ++ t.map .words) m = .ok (m ++ info) := by
  induction info generalizing m with
  | nil => simpa using readMetas_words t m
  | cons a l ih =>
    have ha : a.1 ∉ m.map Prod.fst := by
      intro hc
      rw [List.map_append, List.nodup_append] at hd
      exact hd.2.2 _ hc _ (by simp) rfl
    have hs : setMeta m a.1 a.2 = m ++ [a] := by simp only [setMeta, if_neg ha]
    simp only [List.map_cons, List.cons_append, readMetas, readMeta_plain (hp a (by simp)), Except.bind, hs]
    rw [ih (m ++ [a]) (fun kv h => hp kv (by simp [h])) (by simpa using hd)]
    simp

lemma dataLines_words (t : List (List Cell)) : dataLines (t.map .words) = t := by
  induction t with
  | nil => rfl
  | cons a t ih => simp [dataLines, ih]

lemma dataLines_comments (info : List (String × Meta)) (l : List Line) :
    dataLines (info.map (fun kv => Line.comment kv.1 (kv.2.words ++ [.cast kv.2.type])) ++ l) = dataLines l := by
  induction info with
  | nil => rfl
  | cons a t ih => simp [dataLines, ih]

/-- the words of the lines of a table -/
def table (f : Frame) : List (List Cell) := f.cols.map .text :: f.rows.map fun r => (r.1 :: r.2).filter Cell.there

lemma csv_eq (f : Frame) : csv f = (table f).map .words := by simp [csv, table, Function.comp_def]

/-- reading a file that has the metadata and one table -/
lemma fromInfo_toInfo (L : Look) (f : Frame) (old : List Line) (hi : TidyInfo f.info) (ho : f.info ≠ [] ∨ old = []) :
    fromInfo L (toInfo f old) = (readCsv L (table f)).bind fun t => .ok ⟨t.1, t.2, f.info⟩ := by
  have h : toInfo f old = f.info.map (fun kv => Line.comment kv.1 (kv.2.words ++ [.cast kv.2.type])) ++ (table f).map .words := by
    unfold toInfo
    rw [csv_eq]
    by_cases hn : f.info = []
    · rcases ho with ho | ho
      · exact absurd hn ho
      · simp [hn, ho]
    · rw [if_pos (by simpa using hn)]
  rw [h, fromInfo, readMetas_comments f.info (table f) [] hi.plain (by simpa using hi.distinct), dataLines_comments, dataLines_words]
  rfl

/-! ### The table -/

lemma getD_of_getElem? {α} {l : List α} {i : ℕ} {a d : α} (h : l[i]? = some a) : l.getD i d = a := by simp [h]

lemma inferRows_eq (L : Look) (n : ℕ) (rows out : List (List Cell)) (hr : out.length = rows.length) (hl : ∀ r ∈ out, r.length = n)
    (hc : ∀ j < n, infer L (rows.map fun r => r.getD j .nan) = out.map fun r => r.getD j .nan) : inferRows L n rows = out := by
  unfold inferRows
  apply List.ext_getElem
  · simp [hr]
  · intro i h1 h2
    rw [List.getElem_map, List.getElem_range, List.map_map]
    apply List.ext_getElem
    · simp [hl _ (List.getElem_mem h2)]
    · intro j h3 h4
      have hj : j < n := by simpa using h3
      simp only [List.getElem_map, List.getElem_range, Function.comp_apply]
      rw [hc j hj]
      simp [h2, h4]

lemma infer_num (L : Look) (col : List Cell) (h : ∀ c ∈ col, isNum c = true) : infer L col = col := by
  unfold infer; rw [if_pos (by simpa using h)]

lemma infer_bool (L : Look) (col : List Cell) (h : ∀ c ∈ col, isBool c = true) : infer L col = col := by
  unfold infer; split_ifs <;> first | rfl | (rename_i h1 h2; exact absurd (by simpa using h) h2)

lemma infer_text (L : Look) (col : List Cell) (h : ∀ c ∈ col, ∃ s, c = .text s) : infer L col = col := by
  unfold infer
  split_ifs
  · rfl
  · rfl
  · conv_rhs => rw [← List.map_id col]
    apply List.map_congr_left
    intro c hc
    obtain ⟨s, rfl⟩ := h c hc
    rfl

lemma there_of_tidy {f : Frame} (h : Tidy f) : ∀ r ∈ f.rows, (r.1 :: r.2).filter Cell.there = r.1 :: r.2 := by
  intro r hr
  rw [List.filter_eq_self]
  intro c hc
  rcases List.mem_cons.1 hc with rfl | hc
  · obtain ⟨s, hs⟩ := h.named r hr
    rw [hs]; rfl
  · obtain ⟨j, hj, rfl⟩ := List.mem_iff_getElem.1 hc
    have hl := h.full r hr
    rcases h.column j (by omega) with hh | hh | hh <;> obtain ⟨x, hx⟩ := hh r hr <;> rw [List.getElem?_eq_getElem hj] at hx <;> injection hx with hx <;> rw [hx] <;> rfl

lemma readCsv_tidy (L : Look) {f : Frame} (h : Tidy f) : readCsv L (table f) = .ok (f.cols, f.rows) := by
  have ht : table f = f.cols.map .text :: f.rows.map fun r => r.1 :: r.2 := by
    unfold table
    congr 1
    exact List.map_congr_left fun r hr => there_of_tidy h r hr
  obtain ⟨r0, rs, hrows⟩ := List.exists_cons_of_ne_nil h.some_row
  have hfirst : (((f.rows.map fun r => r.1 :: r.2).head?.map List.length).getD 0) = f.cols.length + 1 := by
    rw [hrows]; simp [h.full r0 (by rw [hrows]; simp)]
  have hlead : (f.cols.length + 1) - f.cols.length = 1 := by omega
  rw [ht]
  unfold readCsv
  dsimp only
  rw [List.length_map, hfirst, hlead, if_neg (by omega), if_neg]
  · rw [if_pos rfl]
    have hinf : inferRows L (f.cols.length + 1) ((f.rows.map fun r => r.1 :: r.2).map fun r => r ++ List.replicate (f.cols.length + 1 - r.length) .nan) = f.rows.map fun r => r.1 :: r.2 := by
      have hpad : ((f.rows.map fun r => r.1 :: r.2).map fun r => r ++ List.replicate (f.cols.length + 1 - r.length) .nan) = f.rows.map fun r => r.1 :: r.2 := by
        rw [List.map_map]
        apply List.map_congr_left
        intro r hr
        simp [h.full r hr]
      rw [hpad]
      apply inferRows_eq L _ _ _ rfl
      · intro r hr
        obtain ⟨q, hq, rfl⟩ := List.mem_map.1 hr
        simp [h.full q hq]
      · intro j hj
        cases j with
        | zero =>
          apply infer_text
          intro c hc
          simp only [List.map_map, List.mem_map, Function.comp_apply, List.getD_cons_zero] at hc
          obtain ⟨q, hq, rfl⟩ := hc
          exact h.named q hq
        | succ j =>
          rcases h.column j (by omega) with hh | hh | hh
          · apply infer_num
            intro c hc
            simp only [List.map_map, List.mem_map, Function.comp_apply, List.getD_cons_succ] at hc
            obtain ⟨q, hq, rfl⟩ := hc
            obtain ⟨x, hx⟩ := hh q hq
            rw [getD_of_getElem? hx]; rfl
          · apply infer_bool
            intro c hc
            simp only [List.map_map, List.mem_map, Function.comp_apply, List.getD_cons_succ] at hc
            obtain ⟨q, hq, rfl⟩ := hc
            obtain ⟨x, hx⟩ := hh q hq
            rw [getD_of_getElem? hx]; rfl
          · apply infer_text
            intro c hc
            simp only [List.map_map, List.mem_map, Function.comp_apply, List.getD_cons_succ] at hc
            obtain ⟨q, hq, rfl⟩ := hc
            obtain ⟨x, hx⟩ := hh q hq
            exact ⟨x, getD_of_getElem? hx⟩
    rw [hinf]
    simp [List.map_map, Function.comp_def, colName]
  · simp only [List.any_eq_true, decide_eq_true_eq, not_exists, not_and, List.mem_map]
    rintro _ ⟨r, hr, rfl⟩
    simp [h.full r hr]

/-- **C138.** A table that is written to an info file and read again is the same: columns, names, values and attributes, for any number of each, if it is tidy, has attributes with plain values, and the file is new or
there is an attribute. -/
theorem C138_round_trip_partial (L : Look) (f : Frame) (old : List Line) (h : Tidy f) (hi : TidyInfo f.info) (ho : f.info ≠ [] ∨ old = []) :
    fromInfo L (toInfo f old) = .ok f := by
  rw [fromInfo_toInfo L f old hi ho, readCsv_tidy L h]
  rfl

/-! ### What is not read as it was written -/

/-- **C138, counterexample.** The table of any fit with `nlopt` that has a parameter is read as another one: the rows have lost their names, which are in the place of the best-fit values, the values are the medians, and
whether a parameter is free is its lower error. -/
theorem C138_nlopt_counterexample (L : Look) (r : Nlopt) (info : List (String × Meta)) (old : List Line) (hr : r.free ++ r.constrained ≠ []) (hi : TidyInfo info) (ho : info ≠ [] ∨ old = []) :
    fromInfo L (toInfo (fromNlopt r info) old) =
      .ok ⟨(fromNlopt r info).cols,
        (r.free.map (fun p => (p, true)) ++ r.constrained.map (fun p => (p, false))).mapIdx fun i p =>
          (.num i, [.text p.1.1, .num p.1.2, .bool p.2, .num 1, .nan, .nan, .nan, .nan, .nan, .nan, .nan, .nan]), info⟩ := by
  rw [fromInfo_toInfo L _ old hi ho]
  obtain ⟨q, hq⟩ : ∃ q : List ((String × ℝ) × Bool), q = r.free.map (fun p => (p, true)) ++ r.constrained.map (fun p => (p, false)) := ⟨_, rfl⟩
  have hqn : q ≠ [] := by rw [hq]; intro hc; apply hr; simpa using hc
  rw [← hq]
  have ht : table (fromNlopt r info) = (fromNlopt r info).cols.map .text :: q.map fun p => [Cell.text p.1.1, .num p.1.2, .bool p.2, .num 1] := by
    rw [hq]
    simp [table, fromNlopt, List.map_append, Function.comp_def, List.filter_cons, Cell.there]
  have hread : readCsv L (table (fromNlopt r info)) = .ok ((fromNlopt r info).cols, q.mapIdx fun i p =>
      (.num i, [.text p.1.1, .num p.1.2, .bool p.2, .num 1, .nan, .nan, .nan, .nan, .nan, .nan, .nan, .nan])) := by
    rw [ht]
    unfold readCsv
    dsimp only
    have hn : ((fromNlopt r info).cols.map Cell.text).length = 12 := rfl
    have hfirst : ((q.map fun p => [Cell.text p.1.1, .num p.1.2, .bool p.2, .num 1]).head?.map List.length).getD 0 = 4 := by
      obtain ⟨a, l, rfl⟩ := List.exists_cons_of_ne_nil hqn
      rfl
    rw [hn, hfirst, if_neg (by omega), if_neg, if_neg (by omega)]
    · have hinf : inferRows L (12 + (4 - 12)) ((q.map fun p => [Cell.text p.1.1, .num p.1.2, .bool p.2, .num 1]).map fun r => r ++ List.replicate (12 + (4 - 12) - r.length) .nan) =
          q.map fun p => [Cell.text p.1.1, .num p.1.2, .bool p.2, .num 1, .nan, .nan, .nan, .nan, .nan, .nan, .nan, .nan] := by
        have hpad : ((q.map fun p => [Cell.text p.1.1, .num p.1.2, .bool p.2, .num 1]).map fun r => r ++ List.replicate (12 + (4 - 12) - r.length) .nan) =
            q.map fun p => [Cell.text p.1.1, .num p.1.2, .bool p.2, .num 1, .nan, .nan, .nan, .nan, .nan, .nan, .nan, .nan] := by
          rw [List.map_map]; rfl
        rw [hpad]
        apply inferRows_eq L _ _ _ rfl
        · intro x hx
          obtain ⟨p, _, rfl⟩ := List.mem_map.1 hx
          rfl
        · intro j hj
          have hj' : j < 12 := hj
          rw [List.map_map]
          interval_cases j
          · exact infer_text L _ (fun c hc => by obtain ⟨p, _, rfl⟩ := List.mem_map.1 hc; exact ⟨_, rfl⟩)
          · exact infer_num L _ (fun c hc => by obtain ⟨p, _, rfl⟩ := List.mem_map.1 hc; rfl)
          · exact infer_bool L _ (fun c hc => by obtain ⟨p, _, rfl⟩ := List.mem_map.1 hc; rfl)
          all_goals exact infer_num L _ (fun c hc => by obtain ⟨p, _, rfl⟩ := List.mem_map.1 hc; rfl)
      rw [hinf]
      congr 2
      apply List.ext_getElem
      · simp
      · intro i h1 h2
        simp
    · simp
  rw [hread]
  rfl

/-- **C138, counterexample.** A table without attributes that is written twice to the same file is in it twice, with the names of the columns as a row in between, and numbers have become text: here is
what is read for one parameter with two values. -/
theorem C138_append_counterexample (L : Look) (p c d : String) (x y : ℝ) :
    fromInfo L (toInfo ⟨[c, d], [(.text p, [.num x, .num y])], []⟩ (toInfo ⟨[c, d], [(.text p, [.num x, .num y])], []⟩ [])) =
      .ok ⟨[c, d], [(.text p, [.text (L.num x), .num y]), (.text c, [.text d, .nan]), (.text p, [.text (L.num x), .num y])], []⟩ := by
  simp [fromInfo, toInfo, csv, readMetas, dataLines, readCsv, Cell.there, List.filter_cons, Except.bind, inferRows, infer, isNum, isBool, Look.cell, colName, List.range_succ]

/-- **C138, counterexamples.** What is read for the other attributes: a truth value is true, a text of several words is its first one, an empty text is `str`, and there is an error for `None`. -/
theorem C138_meta_counterexample (L : Look) (k p c : String) (x : ℝ) (old : List Line) :
    (∀ b, (fromInfo L (toInfo ⟨[c], [(.text p, [.num x])], [(k, .bool b)]⟩ old)).map Frame.info = .ok [(k, .bool true)]) ∧
    (∀ a w, (fromInfo L (toInfo ⟨[c], [(.text p, [.num x])], [(k, .str (a :: w))]⟩ old)).map Frame.info = .ok [(k, .str [a])]) ∧
    (fromInfo L (toInfo ⟨[c], [(.text p, [.num x])], [(k, .str [])]⟩ old)).map Frame.info = .ok [(k, .str ["str"])] ∧
    fromInfo L (toInfo ⟨[c], [(.text p, [.num x])], [(k, .none)]⟩ old) = .error .typeError := by
  refine ⟨fun b => ?_, fun a w => ?_, ?_, ?_⟩
  · simp [fromInfo, toInfo, csv, readMetas, readMeta, Meta.words, Meta.type, castTo, setMeta, dataLines, readCsv, Cell.there, List.filter_cons, Except.bind, Except.map, inferRows]
  · have h : readMeta ((Meta.str (a :: w)).words ++ [.cast (Meta.str (a :: w)).type]) = .ok (.str [a]) := by
      simp [readMeta, Meta.words, Meta.type, castTo, List.getLast?_cons, List.getLast?_append]
    simp [fromInfo, toInfo, csv, readMetas, h, setMeta, dataLines, readCsv, Cell.there, List.filter_cons, Except.bind, Except.map, inferRows]
  · simp [fromInfo, toInfo, csv, readMetas, readMeta, Meta.words, Meta.type, castTo, setMeta, dataLines, readCsv, Cell.there, List.filter_cons, Except.bind, Except.map, inferRows]
  · simp [fromInfo, toInfo, csv, readMetas, readMeta, Meta.words, Meta.type, castTo, Except.bind]

/-- **C138, inhabited.** A fit of two parameters, one of which is free, with attributes of each plain kind -/
theorem C138_round_trip_inhabited : ∃ f : Frame, f.rows.length = 2 ∧ f.info.length = 3 ∧ Tidy f ∧ TidyInfo f.info := by
  refine ⟨⟨["best_fit", "free"], [(.text "b1_cA", [.num 2, .bool true]), (.text "fs", [.num 0.1, .bool false])], [("Np", .int 4), ("min_minus_lkl", .float 10.5), ("tag", .str ["a"])]⟩, rfl, rfl, ⟨by simp, by simp, by simp, ?_⟩, ⟨by decide, ?_⟩⟩
  · intro j hj
    have hj' : j < 2 := hj
    interval_cases j
    · left; simp
    · right; left; simp
  · simp [Plain]

end Verif.BestFit
