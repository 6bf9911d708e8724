import Verif.Spec.ParamFile
/-! Lemmas on the parameter files. -/
namespace Verif.PFile

theorem ws_false {c : Char} (h : 32 < c.toNat) : ws c = false := by
  unfold ws
  rw [decide_eq_false_iff_not]
  intro hm
  simp only [List.mem_cons, List.not_mem_nil, or_false] at hm
  rcases hm with h' | h' | h' | h' | h' | h' | h' | h' | h' | h' <;> subst h' <;> revert h <;> decide

theorem name_char {c : Char} (h : c.isAlphanum = true ∨ c = '_') :
    32 < c.toNat ∧ c ≠ '.' ∧ c ≠ '\n' ∧ c ≠ '#' ∧ c ≠ '\\' ∧ c ≠ '=' ∧ c ≠ '$' := by
  have key : ∀ {d : Char}, d.isAlphanum = false → d ≠ '_' → c ≠ d := by
    intro d h1 h2 h3; subst h3
    rcases h with h | h
    · rw [h1] at h; cases h
    · exact h2 h
  refine ⟨?_, key (by decide) (by decide), key (by decide) (by decide), key (by decide) (by decide), key (by decide) (by decide),
    key (by decide) (by decide), key (by decide) (by decide)⟩
  rcases h with h | h
  · simp only [Char.isAlphanum, Char.isAlpha, Char.isUpper, Char.isLower, Char.isDigit, Bool.or_eq_true, Bool.and_eq_true,
      decide_eq_true_eq, ge_iff_le, UInt32.le_iff_toNat_le] at h
    have e : c.toNat = c.val.toNat := rfl
    rw [e]
    have a1 : 'A'.val.toNat = 65 := rfl
    have a2 : 'a'.val.toNat = 97 := rfl
    have a3 : '0'.val.toNat = 48 := rfl
    rw [a1, a2, a3] at h
    omega
  · subst h; decide

theorem strip_trim {t : Txt} (h : Trim t) : strip t = t := by
  obtain ⟨h1, h2⟩ := h
  have e : t.dropWhile ws = t := by
    cases t with
    | nil => rfl
    | cons c r => rw [List.dropWhile_cons_of_neg]; simpa using ws_false (h1 c (by simp))
  rw [strip, e, List.rdropWhile_eq_self_iff]
  intro hl
  simpa using ws_false (h2 _ (by rw [List.getLast?_eq_getLast_of_ne_nil hl]; simp))

theorem strip_space {t : Txt} (h : strip t = t) (n : ℕ) : strip (List.replicate n ' ' ++ t) = t := by
  induction n with
  | zero => simpa using h
  | succ n ih =>
    rw [List.replicate_succ, List.cons_append, strip, List.dropWhile_cons_of_pos (by decide)]
    exact ih

theorem strip_space_right {t : Txt} (h : Trim t) (hn : t ≠ []) : strip (t ++ [' ']) = t := by
  obtain ⟨h1, h2⟩ := h
  have e : (t ++ [' ']).dropWhile ws = t ++ [' '] := by
    cases t with
    | nil => exact absurd rfl hn
    | cons c r =>
      rw [List.cons_append, List.dropWhile_cons_of_neg]; simpa using ws_false (h1 c (by simp))
  rw [strip, e, List.rdropWhile_concat_pos _ _ _ (by decide), List.rdropWhile_eq_self_iff]
  intro hl
  simpa using ws_false (h2 _ (by rw [List.getLast?_eq_getLast_of_ne_nil hl]; simp))

theorem takeWhile_of_not_mem {t : Txt} {d : Char} (h : d ∉ t) : t.takeWhile (· != d) = t := by
  rw [List.takeWhile_eq_self_iff]
  intro c hc
  simp only [bne_iff_ne, ne_eq]
  intro e; subst e; exact h hc

/-- Lines that say nothing. -/
def Silent (l : Txt) : Prop := strip l = [] ∨ (strip l).head? = some '#'

instance (l : Txt) : Decidable (Silent l) := inferInstanceAs (Decidable (_ ∨ _))

theorem readLine_silent (py : Python) (env) (s : Reading py) {l : Txt} (h : Silent l) : readLine py env s l = .ok s := by
  unfold readLine
  dsimp only
  exact if_pos h

theorem readLines_filter (py : Python) (env) (ls : List Txt) : ∀ s : Reading py,
    readLines py env ls s = readLines py env (ls.filter (fun l => decide (¬ Silent l))) s := by
  induction ls with
  | nil => intro s; rfl
  | cons l ls ih =>
    intro s
    by_cases h : Silent l
    · rw [List.filter_cons_of_neg (by simpa using h), readLines, readLine_silent py env s h]
      exact ih s
    · rw [List.filter_cons_of_pos (by simpa using h), readLines, readLines]
      cases readLine py env s l with
      | error e => rfl
      | ok s' => exact ih s'

theorem readLines_append (py : Python) (env) (a b : List Txt) : ∀ s : Reading py,
    readLines py env (a ++ b) s = match readLines py env a s with
      | .error e => .error e
      | .ok s' => readLines py env b s' := by
  induction a with
  | nil => intro s; rfl
  | cons l a ih =>
    intro s
    rw [List.cons_append, readLines, readLines]
    cases readLine py env s l with
    | error e => rfl
    | ok s' => exact ih s'

/-- A line `key = text`, with one or more spaces after the equals sign. -/
def lineOf (k : Txt) (n : ℕ) (t : Txt) : Txt := k ++ ' ' :: '=' :: (List.replicate (n + 1) ' ' ++ t)

theorem getLast?_lineOf {k t : Txt} {n : ℕ} (h : t ≠ []) : (lineOf k n t).getLast? = t.getLast? := by
  have e : lineOf k n t = (k ++ ' ' :: '=' :: List.replicate (n + 1) ' ') ++ t := by simp [lineOf]
  rw [e, List.getLast?_append_of_ne_nil _ h]

theorem head?_lineOf {k t : Txt} {n : ℕ} (h : k ≠ []) : (lineOf k n t).head? = k.head? := by
  cases k with
  | nil => exact absurd rfl h
  | cons c r => rfl

/-- Keys of lines. -/
structure IsKey (k : Txt) : Prop where
  ne : k ≠ []
  trim : Trim k
  hash : '#' ∉ k
  back : '\\' ∉ k
  eq : '=' ∉ k
  line : '\n' ∉ k

theorem lineOf_trim {k t : Txt} {n : ℕ} (hk : IsKey k) (ht : t ≠ []) (htr : Trim t) : Trim (lineOf k n t) := by
  refine ⟨?_, ?_⟩
  · rw [head?_lineOf hk.ne]; exact hk.trim.1
  · rw [getLast?_lineOf ht]; exact htr.2

theorem not_silent_lineOf {k t : Txt} {n : ℕ} (hk : IsKey k) (ht : t ≠ []) (htr : Trim t) : ¬ Silent (lineOf k n t) := by
  unfold Silent
  rw [strip_trim (lineOf_trim hk ht htr), head?_lineOf hk.ne]
  push Not
  refine ⟨by simp [lineOf], ?_⟩
  intro h
  exact hk.hash (List.mem_of_mem_head? h)

theorem not_mem_lineOf {k t : Txt} {n : ℕ} {d : Char} (hk : d ∉ k) (ht : d ∉ t) (h1 : d ≠ ' ') (h2 : d ≠ '=') :
    d ∉ lineOf k n t := by
  simp [lineOf, hk, ht, h1, h2]

theorem readLine_lineOf (py : Python) (env) (s : Reading py) {k t : Txt} {n : ℕ} (hk : IsKey k) (ht : OneField t)
    (hs : s.old = []) : readLine py env s (lineOf k n t) = assign py env s k t := by
  have hsil := not_silent_lineOf (n := n) hk ht.ne ht.trim
  unfold readLine
  dsimp only
  unfold Silent at hsil
  rw [if_neg hsil]
  rw [strip_trim (lineOf_trim hk ht.ne ht.trim), takeWhile_of_not_mem (not_mem_lineOf hk.hash ht.hash (by decide) (by decide)),
    if_neg (not_mem_lineOf hk.back ht.back (by decide) (by decide)), hs]
  have e : ([] : Txt) ++ ' ' :: lineOf k n t = (' ' :: (k ++ [' '])) ++ '=' :: (List.replicate (n + 1) ' ' ++ t) := by
    simp [lineOf]
  rw [e, List.splitOn_append_cons_self, List.splitOn_eq_singleton (by simp [hk.eq]),
    List.splitOn_eq_singleton (by simp [ht.eq])]
  have ek : strip (' ' :: (k ++ [' '])) = k := by
    have h1 := strip_space_right hk.trim hk.ne
    have : strip (' ' :: (k ++ [' '])) = strip (k ++ [' ']) := by
      rw [strip, List.dropWhile_cons_of_pos (by decide)]; rfl
    rw [this, h1]
  have et : strip (List.replicate (n + 1) ' ' ++ t) = t := strip_space (strip_trim ht.trim) _
  simp only [List.singleton_append]
  rw [ek, if_neg hk.ne, et]
  have : ({ D := s.D, orig := s.orig, old := [] } : Reading py) = s := by cases s; simp_all
  rw [this]

theorem dset_new {V : Type} {l : List (Txt × V)} {k : Txt} {v : V} (h : k ∉ l.map Prod.fst) : dset l k v = l ++ [(k, v)] := by
  rw [dset, if_neg h]

theorem dget_append_new {V : Type} {l : List (Txt × V)} {k : Txt} : k ∉ l.map Prod.fst → dget l k = none := by
  intro h
  unfold dget
  rw [Option.map_eq_none_iff, List.find?_eq_none]
  intro x hx
  simp only [decide_eq_true_eq]
  intro e; exact h (List.mem_map.2 ⟨x, hx, e⟩)

theorem dget_some {V : Type} {l : List (Txt × V)} {k : Txt} {v : V} (h : dget l k = some v) : (k, v) ∈ l := by
  unfold dget at h
  rw [Option.map_eq_some_iff] at h
  obtain ⟨x, hx, rfl⟩ := h
  have h1 := List.mem_of_find?_eq_some hx
  have h2 := List.find?_some hx
  simp only [decide_eq_true_eq] at h2
  rw [← h2]; exact h1

theorem dget_mem {V : Type} {l : List (Txt × V)} {k : Txt} {v : V} (hn : (l.map Prod.fst).Nodup) (h : (k, v) ∈ l) :
    dget l k = some v := by
  induction l with
  | nil => simp at h
  | cons x l ih =>
    rw [List.map_cons, List.nodup_cons] at hn
    unfold dget
    rw [List.mem_cons] at h
    by_cases hx : x.1 = k
    · rcases h with h | h
      · rw [List.find?_cons_of_pos (by simpa using hx), ← h]; rfl
      · exact absurd (List.mem_map.2 ⟨_, h, hx.symm⟩) hn.1
    · rcases h with h | h
      · exact absurd (by rw [← h]) hx
      · rw [List.find?_cons_of_neg (by simpa using hx)]; exact ih hn.2 h

/-- What one line says: key, number of further spaces, text, value, value with variables. -/
structure Line (py : Python) where
  key : Txt
  sp : ℕ
  text : Txt
  val : py.Val
  orig : Option py.Val

/-- The line as text. -/
def Line.raw {py : Python} (l : Line py) : Txt := lineOf l.key l.sp l.text

/-- The line can be read. -/
structure Line.Ok {py : Python} (env : Txt → Option Txt) (l : Line py) : Prop where
  key : IsKey l.key
  dot : '.' ∈ l.key
  text : OneField l.text
  reads : ReadsAs py env l.text l.val l.orig

/-- The values after reading. -/
def vals {py : Python} (ls : List (Line py)) : List (Txt × py.Val) := ls.map (fun l => (l.key, l.val))

/-- The values with variables after reading. -/
def origs {py : Python} (ls : List (Line py)) : List (Txt × py.Val) :=
  ls.filterMap (fun l => l.orig.map (fun o => (l.key, o)))

theorem mem_origs_keys {py : Python} {ls : List (Line py)} {k : Txt} (h : k ∈ (origs ls).map Prod.fst) :
    k ∈ ls.map Line.key := by
  obtain ⟨x, hx, rfl⟩ := List.mem_map.1 h
  obtain ⟨l, hl, e⟩ := List.mem_filterMap.1 hx
  rw [Option.map_eq_some_iff] at e
  obtain ⟨o, -, rfl⟩ := e
  exact List.mem_map.2 ⟨l, hl, rfl⟩

theorem vals_keys {py : Python} (ls : List (Line py)) : (vals ls).map Prod.fst = ls.map Line.key := by
  simp [vals, Function.comp_def]

theorem vals_dotted {py : Python} {env} {ls : List (Line py)} (h : ∀ l ∈ ls, l.Ok env) : Dotted (dget (vals ls)) := by
  intro k hk
  obtain ⟨v, hv⟩ := Option.isSome_iff_exists.1 hk
  obtain ⟨l, hl, e⟩ := List.mem_map.1 (dget_some hv)
  cases e
  exact (h l hl).dot

theorem origs_append {py : Python} (a b : List (Line py)) : origs (a ++ b) = origs a ++ origs b := by
  simp [origs]

theorem readLines_ok (py : Python) (env) (ls : List (Line py)) : ∀ done : List (Line py),
    (∀ l ∈ done ++ ls, l.Ok env) → ((done ++ ls).map Line.key).Nodup →
    readLines py env (ls.map Line.raw) ⟨vals done, origs done, []⟩ = .ok ⟨vals (done ++ ls), origs (done ++ ls), []⟩ := by
  induction ls with
  | nil => intro done _ _; simp [readLines]
  | cons l ls ih =>
    intro done hok hnd
    have hl := hok l (by simp)
    have hnew : l.key ∉ done.map Line.key := by
      rw [List.map_append, List.nodup_append] at hnd
      intro hm
      exact hnd.2.2 _ hm _ (List.mem_map.2 ⟨l, by simp, rfl⟩) rfl
    have hdot : Dotted (dget (vals done)) := vals_dotted (fun x hx => hok x (by simp [hx]))
    have hstep : readLine py env ⟨vals done, origs done, []⟩ l.raw =
        .ok ⟨vals (done ++ [l]), origs (done ++ [l]), []⟩ := by
      rw [Line.raw, readLine_lineOf py env _ hl.key hl.text rfl]
      have e1 : dset (vals done) l.key l.val = vals (done ++ [l]) := by
        rw [dset_new (by rw [vals_keys]; exact hnew)]; simp [vals]
      unfold assign
      rcases hl.reads _ hdot with ⟨h1, h2, h3⟩ | ⟨h1, w, t', h2, h3, h4, h5, h6⟩
      · rw [if_neg h1, strip_trim hl.text.trim]
        simp only [h3]
        rw [e1, origs_append]
        simp [origs, h2]
      · rw [if_pos h1]
        simp only [h3, h4, strip_trim h5, h6]
        rw [e1, origs_append, dset_new (fun hm => hnew (mem_origs_keys hm))]
        simp [origs, h2]
    rw [List.map_cons, readLines, hstep]
    have := ih (done ++ [l]) (by simpa using hok) (by simpa using hnd)
    simpa using this

theorem origs_get {py : Python} {ls : List (Line py)} (hnd : (ls.map Line.key).Nodup) {l : Line py} (hl : l ∈ ls) :
    dget (origs ls) l.key = l.orig := by
  cases ho : l.orig with
  | some o =>
    have hm : (l.key, o) ∈ origs ls := List.mem_filterMap.2 ⟨l, hl, by rw [ho]; rfl⟩
    refine dget_mem ?_ hm
    have hsub : ((origs ls).map Prod.fst).Sublist (ls.map Line.key) := by
      unfold origs
      clear hm hl hnd
      induction ls with
      | nil => simp
      | cons x ls ih =>
        cases hx : x.orig with
        | none => 
          have : List.Sublist (List.map Prod.fst (List.filterMap (fun l : Line py => l.orig.map (fun o => (l.key, o))) (x :: ls)))
              (x.key :: ls.map Line.key) := by
            rw [List.filterMap_cons_none (by simp [hx])]; exact ih.cons _
          exact this
        | some y => simp [hx]; simpa using ih
    exact hnd.sublist hsub
  | none =>
    cases hd : dget (origs ls) l.key with
    | none => rfl
    | some v =>
      obtain ⟨x, hx, e⟩ := List.mem_filterMap.1 (dget_some hd)
      rw [Option.map_eq_some_iff] at e
      obtain ⟨o, h1, h2⟩ := e
      injection h2 with h3 h4
      have : x = l := List.inj_on_of_nodup_map hnd hx hl h3
      rw [this, ho] at h1; cases h1

/-- Occurrences of a tag in a key with one dot. -/
theorem cut_tag {t a n : Txt} (ht : '.' ∉ t) (ha : '.' ∉ a) (hn : '.' ∉ n) :
    (∀ b, a = b ++ t → cut (t ++ ['.']) (a ++ '.' :: n) = some (b, n)) ∧
    ((¬ t <:+ a) → cut (t ++ ['.']) (a ++ '.' :: n) = none) := by
  have hpre : ∀ x : Txt, '.' ∉ x → (t ++ ['.'] <+: x ++ '.' :: n ↔ x = t) := by
    intro x hx
    constructor
    · rintro ⟨r, hr⟩
      have h1 := congrArg (List.takeWhile (· != '.')) hr
      have hp : ∀ {y : Txt}, '.' ∉ y → ∀ c ∈ y, (c != '.') = true := by
        intro y hy c hc; simp only [bne_iff_ne, ne_eq]; intro e; subst e; exact hy hc
      rw [List.append_assoc, List.takeWhile_append_of_pos (hp ht), List.takeWhile_append_of_pos (hp hx)] at h1
      simp at h1; exact h1.symm
    · rintro rfl; exact ⟨n, by simp⟩
  have hnone : ∀ x : Txt, '.' ∉ x → cut (t ++ ['.']) x = none := by
    intro x
    induction x with
    | nil => intro _; simp [cut]
    | cons c x ih =>
      intro hx
      rw [cut, if_neg, ih (fun h => hx (List.mem_cons_of_mem _ h))]; · rfl
      rw [List.isPrefixOf_iff_prefix]
      intro hp
      exact hx (hp.subset (by simp))
  induction a with
  | nil =>
    constructor
    · intro b hb
      have : b = [] ∧ t = [] := by simpa using hb.symm
      obtain ⟨rfl, rfl⟩ := this
      simp [cut]
    · intro hs
      have hne : t ≠ [] := by rintro rfl; exact hs (List.nil_suffix)
      rw [List.nil_append, cut, if_neg, hnone n hn]; · rfl
      rw [List.isPrefixOf_iff_prefix]
      intro hp
      exact hne ((hpre [] (by simp)).1 (by simpa using hp)).symm
  | cons c a ih =>
    have ha' : '.' ∉ a := fun h => ha (List.mem_cons_of_mem _ h)
    obtain ⟨ih1, ih2⟩ := ih ha'
    constructor
    · intro b hb
      cases b with
      | nil =>
        rw [List.nil_append] at hb
        rw [List.cons_append, cut, if_pos]
        · rw [← List.cons_append, hb]
          have : t ++ '.' :: n = (t ++ ['.']) ++ n := by simp
          rw [this, List.drop_left]
        · rw [List.isPrefixOf_iff_prefix, ← List.cons_append, hpre _ ha]; exact hb
      | cons d b =>
        injection hb with h1 h2
        subst h1
        rw [List.cons_append, cut, if_neg, ih1 b h2]; · rfl
        rw [List.isPrefixOf_iff_prefix, ← List.cons_append, hpre _ ha]
        intro e
        have := congrArg List.length e
        rw [h2] at this
        simp at this
        omega
    · intro hs
      have hs' : ¬ t <:+ a := fun h => hs (h.trans (List.suffix_cons _ _))
      rw [List.cons_append, cut, if_neg, ih2 hs']; · rfl
      rw [List.isPrefixOf_iff_prefix, ← List.cons_append, hpre _ ha]
      intro e; exact hs (e ▸ List.suffix_rfl)

theorem cut_none {t x : Txt} (hx : '.' ∉ x) : cut (t ++ ['.']) x = none := by
  induction x with
  | nil => simp [cut]
  | cons c x ih =>
    rw [cut, if_neg, ih (fun h => hx (List.mem_cons_of_mem _ h))]; · rfl
    rw [List.isPrefixOf_iff_prefix]
    intro hp
    exact hx (hp.subset (by simp))

theorem IsName.trim {n : Txt} (h : IsName n) : Trim n :=
  ⟨fun c hc => (name_char (h.2 c (List.mem_of_mem_head? hc))).1,
   fun c hc => (name_char (h.2 c (List.mem_of_getLast? hc))).1⟩

theorem IsName.dot {n : Txt} (h : IsName n) : '.' ∉ n := fun hm => (name_char (h.2 _ hm)).2.1 rfl

theorem matchTag_suffix {t b n : Txt} (ht : '.' ∉ t) (hb : '.' ∉ b) (hn : IsName n) :
    matchTag t ((b ++ t) ++ '.' :: n) = some n := by
  unfold matchTag
  have hbt : '.' ∉ b ++ t := by simp [hb, ht]
  rw [(cut_tag ht hbt hn.dot).1 b rfl]
  simp only [cut_none hn.dot, strip_trim hn.trim]

theorem matchTag_self {t n : Txt} (ht : '.' ∉ t) (hn : IsName n) : matchTag t (t ++ '.' :: n) = some n := by
  simpa using matchTag_suffix (b := []) ht (by simp) hn

theorem matchTag_other {t a n : Txt} (ht : '.' ∉ t) (ha : '.' ∉ a) (hn : IsName n) (h : ¬ t <:+ a) :
    matchTag t (a ++ '.' :: n) = none := by
  unfold matchTag
  rw [(cut_tag ht ha hn.dot).2 h]

theorem isKey_tag {t n : Txt} (ht : IsName t) (hn : IsName n) : IsKey (t ++ '.' :: n) := by
  have hmem : ∀ d : Char, (∀ c : Char, (c.isAlphanum = true ∨ c = '_') → c ≠ d) → d ≠ '.' → d ∉ t ++ '.' :: n := by
    intro d h1 h2 hm
    simp only [List.mem_append, List.mem_cons] at hm
    rcases hm with h | h | h
    · exact h1 _ (ht.2 _ h) rfl
    · exact h2 h
    · exact h1 _ (hn.2 _ h) rfl
  refine ⟨by simp, ⟨?_, ?_⟩, ?_, ?_, ?_, ?_⟩
  · intro c hc
    obtain ⟨t0, tr, rfl⟩ := List.exists_cons_of_ne_nil ht.1
    exact ht.trim.1 c (by simpa using hc)
  · intro c hc
    have e : t ++ '.' :: n = (t ++ ['.']) ++ n := by simp
    rw [e, List.getLast?_append_of_ne_nil _ hn.1] at hc
    exact hn.trim.2 c hc
  · exact hmem _ (fun c h => (name_char h).2.2.2.1) (by decide)
  · exact hmem _ (fun c h => (name_char h).2.2.2.2.1) (by decide)
  · exact hmem _ (fun c h => (name_char h).2.2.2.2.2.1) (by decide)
  · exact hmem _ (fun c h => (name_char h).2.2.1) (by decide)

end Verif.PFile
