import Verif.Lemmas.ParamFile
/-! From the text of a file to the parameters. -/
namespace Verif.PFile

/-- The lines of a text that say something. -/
def said (t : Txt) : List Txt := (t.splitOn '\n').filter (fun l => decide (¬ Silent l))

theorem said_append (a b : Txt) : said (a ++ '\n' :: b) = said a ++ said b := by
  simp [said, List.splitOn_append_cons_self, List.filter_append]

theorem said_silent {t : Txt} (h : '\n' ∉ t) (hs : Silent t) : said t = [] := by
  rw [said, List.splitOn_eq_singleton h, List.filter_cons_of_neg (by simpa using hs)]; rfl

theorem said_line {t : Txt} (h : '\n' ∉ t) (hs : ¬ Silent t) : said t = [t] := by
  rw [said, List.splitOn_eq_singleton h, List.filter_cons_of_pos (by simpa using hs)]; rfl

theorem said_nil : said [] = [] := said_silent (by simp) (Or.inl rfl)

theorem said_join (ls : List Txt) (h : ∀ l ∈ ls, '\n' ∉ l ∧ ¬ Silent l) : said (joinLines ls) = ls := by
  induction ls with
  | nil => exact said_nil
  | cons l ls ih =>
    cases ls with
    | nil =>
      have e : joinLines [l] = l := by simp [joinLines]
      rw [e]; exact said_line (h l (by simp)).1 (h l (by simp)).2
    | cons m ls =>
      have e : joinLines (l :: m :: ls) = l ++ '\n' :: joinLines (m :: ls) := by
        simp [joinLines, List.intercalate]
      rw [e, said_append, said_line (h l (by simp)).1 (h l (by simp)).2, ih (fun x hx => h x (by simp [hx]))]
      rfl

theorem rule_nl : '\n' ∉ rule := by
  simp [rule]

theorem silent_hash {t : Txt} (h : Trim t) (hh : t.head? = some '#') : Silent t := by
  right; rw [strip_trim h]; exact hh

theorem rule_silent : Silent rule := by
  refine silent_hash ⟨?_, ?_⟩ rfl
  · intro c hc
    have : c = '#' := by simpa [rule] using hc.symm
    subst this; decide
  · intro c hc
    have : c = '-' := by
      have e : rule.getLast? = some '-' := by
        rw [rule, List.getLast?_cons, List.getLast?_replicate]; simp
      rw [e] at hc; simpa using hc.symm
    subst this; decide

theorem said_section {py : Python} {hdr : Txt} (hh : '\n' ∉ hdr ∧ Trim hdr ∧ hdr ≠ []) {asDict : Bool} {tag : Txt} {ps : Params py}
    (h : ∀ l ∈ (sorted ps).map (entry asDict tag), '\n' ∉ l ∧ ¬ Silent l) (rest : Txt) :
    said (section_ hdr asDict tag ps ++ rest) = (sorted ps).map (entry asDict tag) ++ said rest := by
  have e : section_ hdr asDict tag ps ++ rest =
      rule ++ '\n' :: (("# ".toList ++ hdr) ++ '\n' :: (rule ++ '\n' ::
        (joinLines ((sorted ps).map (entry asDict tag)) ++ '\n' :: (rule ++ '\n' :: ([] ++ '\n' :: rest))))) := by
    simp [section_]
  have hs : Silent ("# ".toList ++ hdr) := by
    refine silent_hash ⟨?_, ?_⟩ rfl
    · intro c hc
      have : c = '#' := by
        have : ("# ".toList ++ hdr).head? = some '#' := rfl
        rw [this] at hc; simpa using hc.symm
      subst this; decide
    · intro c hc
      rw [List.getLast?_append_of_ne_nil _ hh.2.2] at hc
      exact hh.2.1.2 c hc
  rw [e, said_append, said_append, said_append, said_append, said_append, said_append, said_silent rule_nl rule_silent,
    said_silent (by simpa using hh.1) hs, said_join _ h, said_nil]
  simp

theorem said_extra (es : List (Txt × Txt)) (rest : Txt)
    (h : ∀ l ∈ es.map (fun nd => "theory_extra.".toList ++ nd.1 ++ " =  '".toList ++ nd.2 ++ ['\'']), '\n' ∉ l ∧ ¬ Silent l) :
    said (extraSection es ++ rest) =
      es.map (fun nd => "theory_extra.".toList ++ nd.1 ++ " =  '".toList ++ nd.2 ++ ['\'']) ++ said rest := by
  have e : extraSection es ++ rest =
      joinLines (es.map (fun nd => "theory_extra.".toList ++ nd.1 ++ " =  '".toList ++ nd.2 ++ ['\''])) ++ '\n' :: ([] ++ '\n' :: rest) := by
    simp [extraSection]
  rw [e, said_append, said_append, said_join _ h, said_nil]
  simp

theorem fromFile_said (py : Python) (env) (tag : Option Txt) (file : Txt) (ls : List (Line py)) (hs : said file = ls.map Line.raw)
    (hok : ∀ l ∈ ls, l.Ok env) (hnd : (ls.map Line.key).Nodup) :
    fromFile py env tag file = collect py tag (origs ls) (vals ls) [] := by
  unfold fromFile
  rw [readLines_filter]
  have := readLines_ok py env ls [] (by simpa using hok) (by simpa using hnd)
  have hs' : (file.splitOn '\n').filter (fun l => decide (¬ Silent l)) = ls.map Line.raw := hs
  rw [hs']
  simp only [vals, origs, List.map_nil, List.filterMap_nil, List.nil_append] at this
  rw [this]
  rfl

/-- One line of a file and the parameter it holds. -/
structure Item (py : Python) where
  tag : Txt
  name : Txt
  line : Line py
  par : Par py

structure Item.Good {py : Python} (env : Txt → Option Txt) (it : Item py) : Prop where
  key : it.line.key = it.tag ++ '.' :: it.name
  tag : IsName it.tag
  name : IsName it.name
  valid : py.validName it.name = true
  text : OneField it.line.text
  reads : ReadsAs py env it.line.text it.line.val it.line.orig
  build : ∀ orig, dget orig it.line.key = it.line.orig →
    ∃ q, build py orig it.line.key it.line.val = .ok q ∧ { q with name := it.name } = it.par

theorem Item.Good.ok {py : Python} {env} {it : Item py} (h : it.Good env) : it.line.Ok env := by
  refine ⟨?_, ?_, h.text, h.reads⟩
  · rw [h.key]; exact isKey_tag h.tag h.name
  · rw [h.key]; simp

theorem collect_items (py : Python) (env) (t : Txt) (ht : '.' ∉ t) (orig : List (Txt × py.Val)) (items : List (Item py)) :
    ∀ out : Params py, (∀ it ∈ items, it.Good env ∧ (it.tag = t ∨ ¬ t <:+ it.tag) ∧ dget orig it.line.key = it.line.orig) →
      (out.map Prod.fst ++ (items.filter (·.tag = t)).map Item.name).Nodup →
      collect py (some t) orig (items.map (fun it => (it.line.key, it.line.val))) out =
        .ok (out ++ (items.filter (·.tag = t)).map (fun it => (it.name, it.par))) := by
  induction items with
  | nil => intro out _ _; simp [collect]
  | cons it items ih =>
    intro out h hnd
    obtain ⟨hg, htag, ho⟩ := h it (by simp)
    obtain ⟨q, hq, hp⟩ := hg.build orig ho
    rw [List.map_cons, collect, hq]
    dsimp only
    rcases htag with htag | htag
    · rw [List.filter_cons_of_pos (by simpa using htag)] at hnd ⊢
      have e : matchTag t it.line.key = some it.name := by
        rw [hg.key, htag]; exact matchTag_self ht hg.name
      rw [e]
      dsimp only
      rw [if_pos hg.valid, hp, dset_new]
      · rw [ih _ (fun x hx => h x (by simp [hx])) (by simpa using hnd)]; simp
      · rw [List.nodup_append] at hnd
        intro hm; exact hnd.2.2 _ hm _ (by simp) rfl
    · have hne : it.tag ≠ t := fun e => htag (e ▸ List.suffix_rfl)
      rw [List.filter_cons_of_neg (by simpa using hne)] at hnd ⊢
      have e : matchTag t it.line.key = none := by
        rw [hg.key]; exact matchTag_other ht hg.tag.dot hg.name htag
      rw [e]
      exact ih _ (fun x hx => h x (by simp [hx])) hnd

theorem key_inj {a n a' n' : Txt} (ha : '.' ∉ a) (ha' : '.' ∉ a') (h : a ++ '.' :: n = a' ++ '.' :: n') : a = a' ∧ n = n' := by
  have hp : ∀ {y : Txt}, '.' ∉ y → ∀ c ∈ y, (c != '.') = true := by
    intro y hy c hc; simp only [bne_iff_ne, ne_eq]; intro e; subst e; exact hy hc
  have h1 := congrArg (List.takeWhile (· != '.')) h
  rw [List.takeWhile_append_of_pos (hp ha), List.takeWhile_append_of_pos (hp ha')] at h1
  simp at h1
  subst h1
  simpa using h

theorem fromFile_items (py : Python) (env) (t : Txt) (ht : '.' ∉ t) (file : Txt) (items : List (Item py))
    (hs : said file = items.map (fun it => it.line.raw))
    (hg : ∀ it ∈ items, it.Good env ∧ (it.tag = t ∨ ¬ t <:+ it.tag))
    (hnd : (items.map (fun it => (it.tag, it.name))).Nodup) :
    fromFile py env (some t) file = .ok ((items.filter (·.tag = t)).map (fun it => (it.name, it.par))) := by
  have hnd' : ((items.map Item.line).map Line.key).Nodup := by
    rw [List.map_map]
    refine List.Nodup.map_on ?_ (List.Nodup.of_map _ hnd)
    intro x hx y hy e
    have ex : x.line.key = x.tag ++ '.' :: x.name := (hg x hx).1.key
    have ey : y.line.key = y.tag ++ '.' :: y.name := (hg y hy).1.key
    have e' : x.tag ++ '.' :: x.name = y.tag ++ '.' :: y.name := by rw [← ex, ← ey]; exact e
    obtain ⟨h1, h2⟩ := key_inj (hg x hx).1.tag.dot (hg y hy).1.tag.dot e'
    exact List.inj_on_of_nodup_map hnd hx hy (by simp [h1, h2])
  rw [fromFile_said py env (some t) file (items.map Item.line) (by rw [hs, List.map_map]; rfl)
    (by intro l hl; obtain ⟨it, hit, rfl⟩ := List.mem_map.1 hl; exact (hg it hit).1.ok) hnd']
  have e : vals (items.map Item.line) = items.map (fun it => (it.line.key, it.line.val)) := by simp [vals, Function.comp_def]
  rw [e, collect_items py env t ht _ items []]
  · simp
  · intro it hit
    exact ⟨(hg it hit).1, (hg it hit).2, origs_get hnd' (List.mem_map.2 ⟨it, hit, rfl⟩)⟩
  · simp only [List.map_nil, List.nil_append]
    have h1 := hnd.sublist ((List.filter_sublist (p := fun it : Item py => it.tag = t) (l := items)).map (fun it => (it.tag, it.name)))
    have h2 : ((items.filter (fun it : Item py => it.tag = t)).map (fun it => (it.tag, it.name))).map Prod.snd =
      (items.filter (fun it : Item py => it.tag = t)).map Item.name := by rw [List.map_map]; rfl
    rw [← h2]
    refine List.Nodup.map_on ?_ h1
    rintro ⟨x1, x2⟩ hx ⟨y1, y2⟩ hy e
    obtain ⟨u, hu, hu'⟩ := List.mem_map.1 hx
    obtain ⟨w, hw, hw'⟩ := List.mem_map.1 hy
    injection hu' with a1 a2
    injection hw' with b1 b2
    have hu2 := (List.mem_filter.1 hu).2
    have hw2 := (List.mem_filter.1 hw).2
    simp only [decide_eq_true_eq] at hu2 hw2
    rw [← a1, ← b1, hu2, hw2]
    rw [Prod.mk.injEq]
    exact ⟨rfl, e⟩

end Verif.PFile
