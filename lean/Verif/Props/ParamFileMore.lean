import Verif.Props.ParamFile
/-!
C125: the second generation of a file, what a file of fit parameters does to the defaults, and the parameters that files do
not hold.
-/
namespace Verif.PFile

theorem sorted_sorted {py : Python} (ps : Params py) : sorted (sorted ps) = sorted ps := by
  unfold sorted
  refine List.mergeSort_of_pairwise (List.pairwise_mergeSort ?_ ?_ ps)
  · intro a b c h1 h2
    simp only [nameLe, decide_eq_true_eq] at h1 h2 ⊢
    exact le_trans h1 h2
  · intro a b
    simp only [nameLe, Bool.or_eq_true, decide_eq_true_eq]
    exact le_total _ _

/-- **C125.** A run that is set up from the file of another run writes the same file again, character by character. -/
theorem C125_stable {py : Python} (hl : Lawful py) (env : Txt → Option Txt) (r : Run py) (h : Writable py env r) :
    ∃ driver data theory model,
      fromFile py env (some "driver".toList) r.text = .ok driver ∧
      fromFile py env (some "data".toList) r.text = .ok data ∧
      fromFile py env (some "theory".toList) r.text = .ok theory ∧
      fromFile py env (some "model".toList) r.text = .ok model ∧
      ({ driver := driver, data := data, theory := theory, extras := r.extras, model := model } : Run py).text = r.text := by
  refine ⟨sorted r.driver, sorted r.data, sorted r.theory, sorted r.model, ?_, ?_, ?_, ?_, ?_⟩
  · exact (read_run hl h).1
  · exact (read_run hl h).2.1
  · exact (read_run hl h).2.2.1
  · exact (read_run hl h).2.2.2.1
  · simp only [Run.text, section_, sorted_sorted]

/-! ### One parameter alone in a file -/

theorem readLine_two_eq (py : Python) (env) (s : Reading py) {k t : Txt} {n : ℕ} (hk : IsKey k) (hne : t ≠ []) (htr : Trim t)
    (hh : '#' ∉ t) (hb : '\\' ∉ t) (he : '=' ∈ t) (hs : s.old = []) : readLine py env s (lineOf k n t) = .error .fields := by
  have hsil := not_silent_lineOf (n := n) hk hne htr
  unfold readLine
  dsimp only
  unfold Silent at hsil
  rw [if_neg hsil, strip_trim (lineOf_trim hk hne htr), takeWhile_of_not_mem (not_mem_lineOf hk.hash hh (by decide) (by decide)),
    if_neg (not_mem_lineOf hk.back hb (by decide) (by decide)), hs]
  have e : ([] : Txt) ++ ' ' :: lineOf k n t = (' ' :: (k ++ [' '])) ++ '=' :: (List.replicate (n + 1) ' ' ++ t) := by
    simp [lineOf]
  have ek : strip (' ' :: (k ++ [' '])) = k := by
    have h1 := strip_space_right hk.trim hk.ne
    have : strip (' ' :: (k ++ [' '])) = strip (k ++ [' ']) := by
      rw [strip, List.dropWhile_cons_of_pos (by decide)]; rfl
    rw [this, h1]
  obtain ⟨a, b, rfl⟩ := List.append_of_mem he
  have e2 : List.replicate (n + 1) ' ' ++ (a ++ '=' :: b) = (List.replicate (n + 1) ' ' ++ a) ++ '=' :: b := by simp
  rw [e, e2, List.splitOn_append_cons_self, List.splitOn_append_cons_self, List.splitOn_eq_singleton (a := '=') (xs := ' ' :: (k ++ [' '])) (by simp [hk.eq])]
  obtain ⟨x, xs, hx⟩ := List.exists_cons_of_ne_nil (List.splitOn_ne_nil '=' (List.replicate (n + 1) ' ' ++ a))
  obtain ⟨y, ys, hy⟩ := List.exists_cons_of_ne_nil (List.splitOn_ne_nil '=' b)
  rw [hx, hy]
  simp only [List.cons_append, List.nil_append]
  rw [ek, if_neg hk.ne]
  cases xs <;> rfl

theorem said_one {py : Python} {hdr : Txt} (hh : '\n' ∉ hdr ∧ Trim hdr ∧ hdr ≠ []) {asDict : Bool} {tag n : Txt} (p : Par py)
    (h : '\n' ∉ entry asDict tag (n, p) ∧ ¬ Silent (entry asDict tag (n, p))) :
    said (section_ hdr asDict tag [(n, p)]) = [entry asDict tag (n, p)] := by
  have := said_section (py := py) hh (asDict := asDict) (tag := tag) (ps := [(n, p)]) (by
    intro l hl
    have : sorted [(n, p)] = [(n, p)] := by simp [sorted]
    rw [this] at hl
    simp only [List.map_cons, List.map_nil, List.mem_singleton] at hl
    rw [hl]; exact h) []
  rw [List.append_nil, said_nil, List.append_nil] at this
  rw [this]
  simp [sorted]

theorem fromFile_of_said (py : Python) (env) (tag : Option Txt) (file : Txt) (ls : List Txt) (h : said file = ls) :
    fromFile py env tag file = match readLines py env ls ⟨[], [], []⟩ with
      | .error e => .error e
      | .ok s => collect py tag s.orig s.D [] := by
  unfold fromFile
  rw [readLines_filter]
  have h' : (file.splitOn '\n').filter (fun l => decide (¬ Silent l)) = ls := h
  rw [h']
  cases readLines py env ls ⟨[], [], []⟩ <;> rfl

/-- **C125, false of the code.** A value whose text has an equals sign - a string like `a=b` - makes the whole file
unreadable, whatever tag is asked for. -/
theorem C125_equals_counterexample (py : Python) (env) (tg : Option Txt) (hdr tag n : Txt) (p : Par py)
    (hh : '\n' ∉ hdr ∧ Trim hdr ∧ hdr ≠ []) (ht : IsName tag) (hn : IsName n)
    (t : Txt) (hp : py.repr (p.output.getD p.value) = t) (hne : t ≠ []) (htr : Trim t) (hl : '\n' ∉ t) (hhash : '#' ∉ t)
    (hb : '\\' ∉ t) (he : '=' ∈ t) :
    fromFile py env tg (section_ hdr false tag [(n, p)]) = .error .fields := by
  have hk := isKey_tag ht hn
  have e : entry false tag (n, p) = lineOf (tag ++ '.' :: n) 0 t := by
    rw [entry_plain]; simp [plainItem, Line.raw, hp]
  rw [fromFile_of_said py env tg _ _ (said_one hh p (by
    rw [e]; exact ⟨not_mem_lineOf hk.line hl (by decide) (by decide), not_silent_lineOf hk hne htr⟩)), e]
  rw [readLines, readLine_two_eq py env _ hk hne htr hhash hb he rfl]

/-- **C125, false of the code.** A value whose text has a backslash - any string with a backslash, a quotation mark that
is escaped, a LaTeX name - is taken as a line that goes on: alone in a file it is lost without a word. -/
theorem C125_backslash_counterexample (py : Python) (env) (tg : Option Txt) (hdr tag n : Txt) (p : Par py)
    (hh : '\n' ∉ hdr ∧ Trim hdr ∧ hdr ≠ []) (ht : IsName tag) (hn : IsName n)
    (t : Txt) (hp : py.repr (p.output.getD p.value) = t) (hne : t ≠ []) (htr : Trim t) (hl : '\n' ∉ t) (hhash : '#' ∉ t)
    (hb : '\\' ∈ t) :
    fromFile py env tg (section_ hdr false tag [(n, p)]) = .ok [] := by
  have hk := isKey_tag ht hn
  have e : entry false tag (n, p) = lineOf (tag ++ '.' :: n) 0 t := by
    rw [entry_plain]; simp [plainItem, Line.raw, hp]
  have hsil := not_silent_lineOf (n := 0) hk hne htr
  rw [fromFile_of_said py env tg _ _ (said_one hh p (by
    rw [e]; exact ⟨not_mem_lineOf hk.line hl (by decide) (by decide), hsil⟩)), e]
  have : readLine py env ⟨[], [], []⟩ (lineOf (tag ++ '.' :: n) 0 t) =
      .ok ⟨[], [], ' ' :: (lineOf (tag ++ '.' :: n) 0 t).takeWhile (· != '\\')⟩ := by
    unfold readLine
    dsimp only
    unfold Silent at hsil
    rw [if_neg hsil, strip_trim (lineOf_trim hk hne htr), takeWhile_of_not_mem (not_mem_lineOf hk.hash hhash (by decide) (by decide)),
      if_pos (by simp [lineOf, hb])]
    rfl
  rw [readLines, this]
  rfl

/-- **C125, false of the code.** The text of a value is cut at a `#`, inside a string too. -/
theorem C125_hash_counterexample (py : Python) (env) (tg : Option Txt) (hdr tag n : Txt) (p : Par py)
    (hh : '\n' ∉ hdr ∧ Trim hdr ∧ hdr ≠ []) (ht : IsName tag) (hn : IsName n)
    (a b : Txt) (hp : py.repr (p.output.getD p.value) = a ++ '#' :: b) (ha : OneField a) (hd : '$' ∉ a)
    (htr : Trim (a ++ '#' :: b)) (hl : '\n' ∉ b) :
    fromFile py env tg (section_ hdr false tag [(n, p)]) =
      match py.eval (fun _ => none) a with
      | none => .error .bad
      | some v => collect py tg [] [(tag ++ '.' :: n, v)] [] := by
  have hk := isKey_tag ht hn
  have hne : a ++ '#' :: b ≠ [] := by simp
  have e : entry false tag (n, p) = lineOf (tag ++ '.' :: n) 0 (a ++ '#' :: b) := by
    rw [entry_plain]; simp [plainItem, Line.raw, hp]
  have hsil := not_silent_lineOf (n := 0) hk hne htr
  rw [fromFile_of_said py env tg _ _ (said_one hh p (by
    rw [e]; exact ⟨not_mem_lineOf hk.line (by simp [ha.line, hl]) (by decide) (by decide), hsil⟩)), e]
  have hcut : (lineOf (tag ++ '.' :: n) 0 (a ++ '#' :: b)).takeWhile (· != '#') = lineOf (tag ++ '.' :: n) 0 a := by
    have e3 : lineOf (tag ++ '.' :: n) 0 (a ++ '#' :: b) = lineOf (tag ++ '.' :: n) 0 a ++ '#' :: b := by simp [lineOf]
    have hnm : '#' ∉ lineOf (tag ++ '.' :: n) 0 a := not_mem_lineOf hk.hash ha.hash (by decide) (by decide)
    rw [e3, List.takeWhile_append_of_pos]
    · simp
    · intro c hc; simp only [bne_iff_ne, ne_eq]; intro h; subst h; exact hnm hc
  have h1 := readLine_lineOf py env (⟨[], [], []⟩ : Reading py) (n := 0) hk ha rfl
  have h2 : readLine py env (⟨[], [], []⟩ : Reading py) (lineOf (tag ++ '.' :: n) 0 (a ++ '#' :: b)) =
      readLine py env (⟨[], [], []⟩ : Reading py) (lineOf (tag ++ '.' :: n) 0 a) := by
    have hsil' := not_silent_lineOf (n := 0) hk ha.ne ha.trim
    unfold Silent at hsil hsil'
    unfold readLine
    dsimp only
    rw [if_neg hsil, if_neg hsil', strip_trim (lineOf_trim hk hne htr), strip_trim (lineOf_trim hk ha.ne ha.trim), hcut,
      takeWhile_of_not_mem (not_mem_lineOf hk.hash ha.hash (by decide) (by decide))]
  rw [readLines, h2, h1]
  unfold assign
  rw [if_neg hd, strip_trim ha.trim]
  have hg : (dget ([] : List (Txt × py.Val))) = fun _ => none := rfl
  dsimp only
  rw [hg]
  cases py.eval (fun _ => none) a with
  | none => rfl
  | some v => simp [readLines, dset]

/-- **C125, false of the code.** An empty dictionary is read as a parameter without a value. -/
theorem C125_empty_dict_counterexample (py : Python) (hl : Lawful py) (orig : List (Txt × py.Val)) (k : Txt) (v : py.Val)
    (hv : py.items v = some []) : ∃ p, build py orig k v = .ok p ∧ p.value = py.none := by
  have : ∀ k : Txt, dget ([] : List (Txt × py.Val)) k = none := fun _ => rfl
  unfold build payload
  rw [hv]
  simp [Par.make, this, hl.prior, clamp]

/-- **C125, false of the code.** A parameter of another tag that ends in the tag asked for is read too. -/
theorem C125_tag_counterexample (b t n : Txt) (ht : IsName t) (hb : IsName b) (hn : IsName n) :
    matchTag t ((b ++ t) ++ '.' :: n) = some n := matchTag_suffix ht.dot hb.dot hn

/-- **C125, false of the code.** Once a value was given with a variable, what is written is that text, whatever is assigned
later. -/
theorem C125_assign_counterexample {py : Python} (subst : py.Val → py.Val) (tag n : Txt) (p : Par py) (o v : py.Val)
    (ho : p.output = some o) (hv : py.dollar v = false) :
    entry false tag (n, p.setAttr subst "value".toList v) = entry false tag (n, p) ∧
    (p.setAttr subst "value".toList v).value = v := by
  unfold Par.setAttr
  rw [if_pos rfl, hv]
  simp [entry, ho]

/-- **C125, false of the code.** A line with a variable that is overridden by a later line without: the value is that of the
later line, but the next file that is written has the earlier one, and a run set up from that file has the earlier value. -/
theorem C125_override_counterexample {py : Python} (hl : Lawful py) (env : Txt → Option Txt) (hdr tag n t1 t2 : Txt) (v1 v2 o : py.Val)
    (hh : '\n' ∉ hdr ∧ Trim hdr ∧ hdr ≠ []) (ht : IsName tag) (hn : IsName n) (hvn : py.validName n = true)
    (h1 : OneField t1) (h2 : OneField t2) (hr1 : ReadsAs py env t1 v1 (some o)) (hr2 : ReadsAs py env t2 v2 none)
    (hi1 : py.items v1 = none) (hi2 : py.items v2 = none) (ho : py.repr o = t1) :
    ∃ p q, fromFile py env (some tag) (tag ++ '.' :: n ++ " = ".toList ++ t1 ++ '\n' :: (tag ++ '.' :: n ++ " = ".toList ++ t2)) =
        .ok [(n, p)] ∧ p.value = v2 ∧
      fromFile py env (some tag) (section_ hdr false tag [(n, p)]) = .ok [(n, q)] ∧ q.value = v1 := by
  have hk := isKey_tag ht hn
  have hdot0 : Dotted (dget ([] : List (Txt × py.Val))) := by intro k hk'; simp [dget] at hk'
  have hdot1 : Dotted (dget [(tag ++ '.' :: n, v1)]) := by
    intro k hk'
    obtain ⟨v, hv⟩ := Option.isSome_iff_exists.1 hk'
    have := dget_some hv
    simp only [List.mem_singleton, Prod.mk.injEq] at this
    rw [this.1]; simp
  have s1 : readLine py env ⟨[], [], []⟩ (lineOf (tag ++ '.' :: n) 0 t1) = .ok ⟨[(tag ++ '.' :: n, v1)], [(tag ++ '.' :: n, o)], []⟩ := by
    rw [readLine_lineOf py env _ hk h1 rfl]
    unfold assign
    rcases hr1 _ hdot0 with ⟨_, h, _⟩ | ⟨a1, w, t', a2, a3, a4, a5, a6⟩
    · cases h
    · rw [if_pos a1]
      injection a2 with a2
      subst a2
      simp only [a3, a4, strip_trim a5, a6]
      simp [dset]
  have s2 : readLine py env ⟨[(tag ++ '.' :: n, v1)], [(tag ++ '.' :: n, o)], []⟩ (lineOf (tag ++ '.' :: n) 0 t2) =
      .ok ⟨[(tag ++ '.' :: n, v2)], [(tag ++ '.' :: n, o)], []⟩ := by
    rw [readLine_lineOf py env _ hk h2 rfl]
    unfold assign
    rcases hr2 _ hdot1 with ⟨a1, a2, a3⟩ | ⟨a1, w, t', a2, a3⟩
    · rw [if_neg a1]
      simp only [strip_trim h2.trim, a3]
      simp [dset]
    · cases a2
  have b : ∀ v, py.items v = none → build py [(tag ++ '.' :: n, o)] (tag ++ '.' :: n) v =
      .ok { bare py (tag ++ '.' :: n) v with output := some o } := by
    intro v hv
    unfold build payload
    rw [hv]
    dsimp only
    rw [make_value hl]
    simp [dget, bare]
  have c : ∀ v, py.items v = none → collect py (some tag) [(tag ++ '.' :: n, o)] [(tag ++ '.' :: n, v)] [] =
      .ok [(n, { bare py n v with output := some o })] := by
    intro v hv
    rw [collect, b v hv]
    dsimp only
    rw [matchTag_self ht.dot hn]
    dsimp only
    rw [if_pos hvn]
    rfl
  have nl : ∀ t, OneField t → '\n' ∉ lineOf (tag ++ '.' :: n) 0 t ∧ ¬ Silent (lineOf (tag ++ '.' :: n) 0 t) := by
    intro t h
    exact ⟨not_mem_lineOf hk.line h.line (by decide) (by decide), not_silent_lineOf hk h.ne h.trim⟩
  refine ⟨{ bare py n v2 with output := some o }, { bare py n v1 with output := some o }, ?_, rfl, ?_, rfl⟩
  · have e : tag ++ '.' :: n ++ " = ".toList ++ t1 ++ '\n' :: (tag ++ '.' :: n ++ " = ".toList ++ t2) =
        lineOf (tag ++ '.' :: n) 0 t1 ++ '\n' :: lineOf (tag ++ '.' :: n) 0 t2 := by simp [lineOf]
    rw [fromFile_of_said py env _ _ [lineOf (tag ++ '.' :: n) 0 t1, lineOf (tag ++ '.' :: n) 0 t2] (by
      rw [e, said_append, said_line (nl t1 h1).1 (nl t1 h1).2, said_line (nl t2 h2).1 (nl t2 h2).2]; rfl),
      readLines, s1]
    dsimp only
    rw [readLines, s2]
    dsimp only [readLines]
    exact c v2 hi2
  · have e : entry false tag (n, ({ bare py n v2 with output := some o } : Par py)) = lineOf (tag ++ '.' :: n) 0 t1 := by
      simp [entry, lineOf, ho]
    rw [fromFile_of_said py env _ _ [lineOf (tag ++ '.' :: n) 0 t1] (by
      rw [said_one hh _ (by rw [e]; exact nl t1 h1), e]), readLines, s1]
    dsimp only [readLines]
    exact c v1 hi1

/-! ### Merging a file into the defaults -/

theorem toDict_nodup {py : Python} (p : Par py) (o : Bool) : ((p.toDict o).map Prod.fst).Nodup := by
  unfold Par.toDict
  dsimp only
  rw [List.map_map]
  have e : ∀ l : List (String × py.Val), l.map (Prod.fst ∘ fun kv => (kv.1.toList, kv.2)) = (l.map Prod.fst).map String.toList := by
    intro l; simp [Function.comp_def]
  rw [e]
  refine List.Nodup.map (fun a b hab => String.toList_inj.1 hab) (List.Nodup.sublist (List.filter_sublist.map _) ?_)
  simp only [List.map]
  decide

/-- Setting attributes one after another: an attribute has the value given for it, or the one before. -/
theorem foldl_attr {py : Python} (subst : py.Val → py.Val) {α : Type} (π : Par py → α) (g : py.Val → α) (K : Txt) (l : List (Txt × py.Val))
    (hn : (l.map Prod.fst).Nodup) (hK : ∀ v, (K, v) ∈ l → ∀ p : Par py, π (p.setAttr subst K v) = g v)
    (ho : ∀ kv ∈ l, kv.1 ≠ K → ∀ p : Par py, π (p.setAttr subst kv.1 kv.2) = π p) :
    ∀ d : Par py, π (l.foldl (fun p kv => p.setAttr subst kv.1 kv.2) d) = ((dget l K).map g).getD (π d) := by
  induction l with
  | nil => intro d; rfl
  | cons x l ih =>
    intro d
    rw [List.map_cons, List.nodup_cons] at hn
    rw [List.foldl_cons, ih hn.2 (fun v hv => hK v (List.mem_cons_of_mem _ hv)) (fun kv hkv => ho kv (List.mem_cons_of_mem _ hkv))]
    by_cases h : x.1 = K
    · have h1 : dget l K = none := dget_append_new (h ▸ hn.1)
      have h2 : dget (x :: l) K = some x.2 := by simp [dget, h]
      rw [h1, h2]
      obtain ⟨k, v⟩ := x
      dsimp only at h
      subst h
      exact hK v (by simp) d
    · have h2 : dget (x :: l) K = dget l K := by
        unfold dget; rw [List.find?_cons_of_neg (by simpa using h)]
      rw [h2, ho x (by simp) h d]

/-- What a setting leaves alone. -/
theorem setAttr_frame {py : Python} (subst : py.Val → py.Val) (p : Par py) (k : Txt) (v : py.Val) :
    let q := p.setAttr subst k v
    q.name = p.name ∧ (k ≠ "value".toList → q.value = p.value ∧ q.output = p.output) ∧ (k ≠ "vary".toList → q.vary = p.vary) ∧
    (k ≠ "min".toList → q.min = p.min) ∧ (k ≠ "max".toList → q.max = p.max) ∧ (k ≠ "expr".toList → q.expr = p.expr) ∧
    (k ≠ "fiducial".toList → q.fiducial = p.fiducial) ∧ (k ≠ "prior_name".toList → q.prior = p.prior) ∧
    (k ≠ "lower".toList → q.lower = p.lower) ∧ (k ≠ "upper".toList → q.upper = p.upper) ∧ (k ≠ "mu".toList → q.mu = p.mu) ∧
    (k ≠ "sigma".toList → q.sigma = p.sigma) ∧ (k ≠ "analytic".toList → q.analytic = p.analytic) := by
  unfold Par.setAttr
  by_cases h1 : k = "value".toList
  · rw [if_pos h1]
    split_ifs <;> exact ⟨rfl, fun h => absurd h1 h, fun _ => rfl, fun _ => rfl, fun _ => rfl, fun _ => rfl, fun _ => rfl, fun _ => rfl,
      fun _ => rfl, fun _ => rfl, fun _ => rfl, fun _ => rfl, fun _ => rfl⟩
  rw [if_neg h1]
  by_cases h2 : k = "vary".toList
  · rw [if_pos h2]
    exact ⟨rfl, fun _ => ⟨rfl, rfl⟩, fun h => absurd h2 h, fun _ => rfl, fun _ => rfl, fun _ => rfl, fun _ => rfl, fun _ => rfl,
      fun _ => rfl, fun _ => rfl, fun _ => rfl, fun _ => rfl, fun _ => rfl⟩
  rw [if_neg h2]
  by_cases h3 : k = "min".toList
  · rw [if_pos h3]
    exact ⟨rfl, fun _ => ⟨rfl, rfl⟩, fun _ => rfl, fun h => absurd h3 h, fun _ => rfl, fun _ => rfl, fun _ => rfl, fun _ => rfl,
      fun _ => rfl, fun _ => rfl, fun _ => rfl, fun _ => rfl, fun _ => rfl⟩
  rw [if_neg h3]
  by_cases h4 : k = "max".toList
  · rw [if_pos h4]
    exact ⟨rfl, fun _ => ⟨rfl, rfl⟩, fun _ => rfl, fun _ => rfl, fun h => absurd h4 h, fun _ => rfl, fun _ => rfl, fun _ => rfl,
      fun _ => rfl, fun _ => rfl, fun _ => rfl, fun _ => rfl, fun _ => rfl⟩
  rw [if_neg h4]
  by_cases h5 : k = "expr".toList
  · rw [if_pos h5]
    exact ⟨rfl, fun _ => ⟨rfl, rfl⟩, fun _ => rfl, fun _ => rfl, fun _ => rfl, fun h => absurd h5 h, fun _ => rfl, fun _ => rfl,
      fun _ => rfl, fun _ => rfl, fun _ => rfl, fun _ => rfl, fun _ => rfl⟩
  rw [if_neg h5]
  by_cases h6 : k = "fiducial".toList
  · rw [if_pos h6]
    exact ⟨rfl, fun _ => ⟨rfl, rfl⟩, fun _ => rfl, fun _ => rfl, fun _ => rfl, fun _ => rfl, fun h => absurd h6 h, fun _ => rfl,
      fun _ => rfl, fun _ => rfl, fun _ => rfl, fun _ => rfl, fun _ => rfl⟩
  rw [if_neg h6]
  by_cases h7 : k = "prior_name".toList
  · rw [if_pos h7]
    exact ⟨rfl, fun _ => ⟨rfl, rfl⟩, fun _ => rfl, fun _ => rfl, fun _ => rfl, fun _ => rfl, fun _ => rfl, fun h => absurd h7 h,
      fun _ => rfl, fun _ => rfl, fun _ => rfl, fun _ => rfl, fun _ => rfl⟩
  rw [if_neg h7]
  by_cases h8 : k = "lower".toList
  · rw [if_pos h8]
    exact ⟨rfl, fun _ => ⟨rfl, rfl⟩, fun _ => rfl, fun _ => rfl, fun _ => rfl, fun _ => rfl, fun _ => rfl, fun _ => rfl,
      fun h => absurd h8 h, fun _ => rfl, fun _ => rfl, fun _ => rfl, fun _ => rfl⟩
  rw [if_neg h8]
  by_cases h9 : k = "upper".toList
  · rw [if_pos h9]
    exact ⟨rfl, fun _ => ⟨rfl, rfl⟩, fun _ => rfl, fun _ => rfl, fun _ => rfl, fun _ => rfl, fun _ => rfl, fun _ => rfl,
      fun _ => rfl, fun h => absurd h9 h, fun _ => rfl, fun _ => rfl, fun _ => rfl⟩
  rw [if_neg h9]
  by_cases h10 : k = "mu".toList
  · rw [if_pos h10]
    exact ⟨rfl, fun _ => ⟨rfl, rfl⟩, fun _ => rfl, fun _ => rfl, fun _ => rfl, fun _ => rfl, fun _ => rfl, fun _ => rfl,
      fun _ => rfl, fun _ => rfl, fun h => absurd h10 h, fun _ => rfl, fun _ => rfl⟩
  rw [if_neg h10]
  by_cases h11 : k = "sigma".toList
  · rw [if_pos h11]
    exact ⟨rfl, fun _ => ⟨rfl, rfl⟩, fun _ => rfl, fun _ => rfl, fun _ => rfl, fun _ => rfl, fun _ => rfl, fun _ => rfl,
      fun _ => rfl, fun _ => rfl, fun _ => rfl, fun h => absurd h11 h, fun _ => rfl⟩
  rw [if_neg h11]
  by_cases h12 : k = "analytic".toList
  · rw [if_pos h12]
    exact ⟨rfl, fun _ => ⟨rfl, rfl⟩, fun _ => rfl, fun _ => rfl, fun _ => rfl, fun _ => rfl, fun _ => rfl, fun _ => rfl,
      fun _ => rfl, fun _ => rfl, fun _ => rfl, fun _ => rfl, fun h => absurd h12 h⟩
  rw [if_neg h12]
  exact ⟨rfl, fun _ => ⟨rfl, rfl⟩, fun _ => rfl, fun _ => rfl, fun _ => rfl, fun _ => rfl, fun _ => rfl, fun _ => rfl,
    fun _ => rfl, fun _ => rfl, fun _ => rfl, fun _ => rfl, fun _ => rfl⟩

/-- The attributes after a file is merged into the defaults (no variables in the value): what the file gives, and what is not
given there (or is an infinite bound) stays. -/
theorem C125_merge {py : Python} (subst : py.Val → py.Val) (d f : Par py) (hd : py.dollar f.value = false) :
    let p := Par.merge subst d f
    p.name = d.name ∧ p.output = d.output ∧
    p.value = (if f.value ≠ py.none then f.value else d.value) ∧
    p.vary = (if f.vary ≠ py.none then f.vary else d.vary) ∧
    p.min = (if f.min ≠ py.none ∧ py.finite f.min = true then f.min else d.min) ∧
    p.max = (if f.max ≠ py.none ∧ py.finite f.max = true then f.max else d.max) ∧
    p.expr = (if f.expr ≠ py.none then f.expr else d.expr) ∧
    p.fiducial = (if f.fiducial ≠ py.none then f.fiducial else d.fiducial) ∧
    p.prior = (if f.prior ≠ py.none then f.prior else d.prior) ∧
    p.lower = (if f.lower ≠ py.none then f.lower else d.lower) ∧
    p.upper = (if f.upper ≠ py.none then f.upper else d.upper) ∧
    p.mu = (if f.mu ≠ py.none then f.mu else d.mu) ∧
    p.sigma = (if f.sigma ≠ py.none then f.sigma else d.sigma) ∧
    p.analytic = (if f.analytic ≠ py.none then f.analytic else d.analytic) := by
  have fr := fun (p : Par py) k v => setAttr_frame subst p k v
  have nd := toDict_nodup f false
  have get : ∀ (π : Par py → py.Val) (K : String) (v : py.Val)
      (hm : (K, v) ∈ [("name", py.ofTxt f.name), ("value", if false then f.output.getD f.value else f.value), ("vary", f.vary), ("min", f.min),
        ("max", f.max), ("expr", f.expr), ("fiducial", f.fiducial), ("prior_name", f.prior), ("lower", f.lower), ("upper", f.upper),
        ("mu", f.mu), ("sigma", f.sigma), ("analytic", f.analytic)])
      (h1 : ∀ p : Par py, π (p.setAttr subst K.toList v) = v) (h2 : ∀ (p : Par py) k w, k ≠ K.toList → π (p.setAttr subst k w) = π p),
      π (Par.merge subst d f) = if v ≠ py.none ∧ ((K = "min" ∨ K = "max") → py.finite v = true) then v else π d := by
    intro π K v hm h1 h2
    have hg := toDict_get f false K v hm
    unfold Par.merge
    rw [foldl_attr subst π id K.toList _ nd ?_ (fun kv _ hk p => h2 p _ _ hk) d, hg]
    · split_ifs <;> rfl
    · intro w hw p
      have := dget_mem nd hw
      rw [hg] at this
      split_ifs at this with hc
      · injection this with this
        rw [← this]; exact h1 p
  have fin : ∀ (π : Par py → py.Val) (K : String) (v : py.Val) (x : py.Val), K ≠ "min" → K ≠ "max" →
      (if v ≠ py.none ∧ ((K = "min" ∨ K = "max") → py.finite v = true) then v else x) = if v ≠ py.none then v else x := by
    intro _ K v x h1 h2
    refine if_congr ?_ rfl rfl
    simp [h1, h2]
  have frm : ∀ {α : Type} (π : Par py → α), (∀ (p : Par py) k w, k ≠ "value".toList → π (p.setAttr subst k w) = π p) →
      (∀ p : Par py, π (p.setAttr subst "value".toList f.value) = π p) → π (Par.merge subst d f) = π d := by
    intro α π h1 h2
    unfold Par.merge
    have : ∀ l : List (Txt × py.Val), (∀ kv ∈ l, kv.1 = "value".toList → kv.2 = f.value) → ∀ d : Par py,
        π (l.foldl (fun p kv => p.setAttr subst kv.1 kv.2) d) = π d := by
      intro l
      induction l with
      | nil => intro _ d; rfl
      | cons x l ih =>
        intro h d
        rw [List.foldl_cons, ih (fun kv hkv => h kv (List.mem_cons_of_mem _ hkv))]
        by_cases hx : x.1 = "value".toList
        · rw [hx, h x (by simp) hx]; exact h2 d
        · exact h1 d _ _ hx
    refine this _ ?_ d
    intro kv hkv hk
    have h3 := dget_mem nd (k := kv.1) (v := kv.2) hkv
    rw [hk, toDict_get f false "value" f.value (by simp)] at h3
    split_ifs at h3 with hc
    injection h3 with h3
    exact h3.symm
  have sval : ∀ (p : Par py), p.setAttr subst "value".toList f.value = { p with value := f.value } := fun p => by
    unfold Par.setAttr; rw [if_pos rfl, hd]; rfl
  refine ⟨frm Par.name (fun p k w _ => (fr p k w).1) (fun p => by rw [sval]), frm Par.output (fun p k w h => ((fr p k w).2.1 h).2) (fun p => by rw [sval]),
    ?_, ?_, ?_, ?_, ?_, ?_, ?_, ?_, ?_, ?_, ?_, ?_⟩
  · rw [get Par.value "value" f.value (by simp) (fun p => by rw [sval]) (fun p k w h => ((fr p k w).2.1 h).1)]
    exact fin Par.value _ _ _ (by decide) (by decide)
  · rw [get Par.vary "vary" f.vary (by simp) (fun p => by unfold Par.setAttr; rw [if_neg (by decide), if_pos rfl]) (fun p k w h => (fr p k w).2.2.1 h)]
    exact fin Par.vary _ _ _ (by decide) (by decide)
  · rw [get Par.min "min" f.min (by simp) (fun p => by unfold Par.setAttr; rw [if_neg (by decide), if_neg (by decide), if_pos rfl]) (fun p k w h => (fr p k w).2.2.2.1 h)]
    exact if_congr (by simp) rfl rfl
  · rw [get Par.max "max" f.max (by simp) (fun p => by unfold Par.setAttr; rw [if_neg (by decide), if_neg (by decide), if_neg (by decide), if_pos rfl]) (fun p k w h => (fr p k w).2.2.2.2.1 h)]
    exact if_congr (by simp) rfl rfl
  · rw [get Par.expr "expr" f.expr (by simp) (fun p => by unfold Par.setAttr; rw [if_neg (by decide), if_neg (by decide), if_neg (by decide), if_neg (by decide), if_pos rfl]) (fun p k w h => (fr p k w).2.2.2.2.2.1 h)]
    exact fin Par.expr _ _ _ (by decide) (by decide)
  · rw [get Par.fiducial "fiducial" f.fiducial (by simp) (fun p => by unfold Par.setAttr; rw [if_neg (by decide), if_neg (by decide), if_neg (by decide), if_neg (by decide), if_neg (by decide), if_pos rfl]) (fun p k w h => (fr p k w).2.2.2.2.2.2.1 h)]
    exact fin Par.fiducial _ _ _ (by decide) (by decide)
  · rw [get Par.prior "prior_name" f.prior (by simp) (fun p => by unfold Par.setAttr; rw [if_neg (by decide), if_neg (by decide), if_neg (by decide), if_neg (by decide), if_neg (by decide), if_neg (by decide), if_pos rfl]) (fun p k w h => (fr p k w).2.2.2.2.2.2.2.1 h)]
    exact fin Par.prior _ _ _ (by decide) (by decide)
  · rw [get Par.lower "lower" f.lower (by simp) (fun p => by unfold Par.setAttr; rw [if_neg (by decide), if_neg (by decide), if_neg (by decide), if_neg (by decide), if_neg (by decide), if_neg (by decide), if_neg (by decide), if_pos rfl]) (fun p k w h => (fr p k w).2.2.2.2.2.2.2.2.1 h)]
    exact fin Par.lower _ _ _ (by decide) (by decide)
  · rw [get Par.upper "upper" f.upper (by simp) (fun p => by unfold Par.setAttr; rw [if_neg (by decide), if_neg (by decide), if_neg (by decide), if_neg (by decide), if_neg (by decide), if_neg (by decide), if_neg (by decide), if_neg (by decide), if_pos rfl]) (fun p k w h => (fr p k w).2.2.2.2.2.2.2.2.2.1 h)]
    exact fin Par.upper _ _ _ (by decide) (by decide)
  · rw [get Par.mu "mu" f.mu (by simp) (fun p => by unfold Par.setAttr; rw [if_neg (by decide), if_neg (by decide), if_neg (by decide), if_neg (by decide), if_neg (by decide), if_neg (by decide), if_neg (by decide), if_neg (by decide), if_neg (by decide), if_pos rfl]) (fun p k w h => (fr p k w).2.2.2.2.2.2.2.2.2.2.1 h)]
    exact fin Par.mu _ _ _ (by decide) (by decide)
  · rw [get Par.sigma "sigma" f.sigma (by simp) (fun p => by unfold Par.setAttr; rw [if_neg (by decide), if_neg (by decide), if_neg (by decide), if_neg (by decide), if_neg (by decide), if_neg (by decide), if_neg (by decide), if_neg (by decide), if_neg (by decide), if_neg (by decide), if_pos rfl]) (fun p k w h => (fr p k w).2.2.2.2.2.2.2.2.2.2.2.1 h)]
    exact fin Par.sigma _ _ _ (by decide) (by decide)
  · rw [get Par.analytic "analytic" f.analytic (by simp) (fun p => by unfold Par.setAttr; rw [if_neg (by decide), if_neg (by decide), if_neg (by decide), if_neg (by decide), if_neg (by decide), if_neg (by decide), if_neg (by decide), if_neg (by decide), if_neg (by decide), if_neg (by decide), if_neg (by decide), if_pos rfl]) (fun p k w h => (fr p k w).2.2.2.2.2.2.2.2.2.2.2.2 h)]
    exact fin Par.analytic _ _ _ (by decide) (by decide)

/-- **C125.** Fit parameters merged from a file, written and read again, merge to the same: a chain that is restarted has the
parameters of the first one. -/
theorem C125_merge_again {py : Python} (subst : py.Val → py.Val) (d f : Par py) (hd : py.dollar f.value = false)
    (hdd : py.dollar d.value = false) : Par.merge subst d (Par.merge subst d f) = Par.merge subst d f := by
  have h1 := C125_merge subst d f hd
  have hdp : py.dollar (Par.merge subst d f).value = false := by
    rw [h1.2.2.1]; split_ifs
    exacts [hd, hdd]
  have h2 := C125_merge subst d (Par.merge subst d f) hdp
  have key : ∀ x y : py.Val, (if (if x ≠ py.none then x else y) ≠ py.none then (if x ≠ py.none then x else y) else y) =
      if x ≠ py.none then x else y := by
    intro x y; by_cases h : x = py.none <;> simp [h]
  have keyb : ∀ x y : py.Val, (if (if x ≠ py.none ∧ py.finite x = true then x else y) ≠ py.none ∧
      py.finite (if x ≠ py.none ∧ py.finite x = true then x else y) = true then
      (if x ≠ py.none ∧ py.finite x = true then x else y) else y) = if x ≠ py.none ∧ py.finite x = true then x else y := by
    intro x y
    by_cases h : x ≠ py.none ∧ py.finite x = true
    · simp only [if_pos h]
    · simp only [if_neg h, ite_self]
  obtain ⟨a1, a2, a3, a4, a5, a6, a7, a8, a9, a10, a11, a12, a13, a14⟩ := h1
  obtain ⟨b1, b2, b3, b4, b5, b6, b7, b8, b9, b10, b11, b12, b13, b14⟩ := h2
  have ext : ∀ x y : Par py, x.name = y.name → x.output = y.output → x.value = y.value → x.vary = y.vary → x.min = y.min → x.max = y.max →
      x.expr = y.expr → x.fiducial = y.fiducial → x.prior = y.prior → x.lower = y.lower → x.upper = y.upper → x.mu = y.mu →
      x.sigma = y.sigma → x.analytic = y.analytic → x = y := by
    intro x y; cases x; cases y; simp only [Par.mk.injEq]; tauto
  refine ext _ _ ?_ ?_ ?_ ?_ ?_ ?_ ?_ ?_ ?_ ?_ ?_ ?_ ?_ ?_
  · rw [b1, a1]
  · rw [b2, a2]
  · rw [b3, a3]; exact key _ _
  · rw [b4, a4]; exact key _ _
  · rw [b5, a5]; exact keyb _ _
  · rw [b6, a6]; exact keyb _ _
  · rw [b7, a7]; exact key _ _
  · rw [b8, a8]; exact key _ _
  · rw [b9, a9]; exact key _ _
  · rw [b10, a10]; exact key _ _
  · rw [b11, a11]; exact key _ _
  · rw [b12, a12]; exact key _ _
  · rw [b13, a13]; exact key _ _
  · rw [b14, a14]; exact key _ _

/-- **C125, false of the code.** A line of a parameter file that only gives a lower bound `m` also sets the value to `m`, and
fixes a parameter that is free by default. -/
theorem C125_bound_counterexample {py : Python} (hl : Lawful py) (subst : py.Val → py.Val) (d : Par py) (m : py.Val) (hm : m ≠ py.none)
    (hf : py.finite m = true) (hdm : py.dollar m = false) :
    ∃ f, Par.make py [("min".toList, m)] = .ok f ∧
      (Par.merge subst d f).min = m ∧ (Par.merge subst d f).value = m ∧ (Par.merge subst d f).vary = py.ff := by
  have g : ∀ k : String, k ≠ "min" → dget [("min".toList, m)] k.toList = none := by
    intro k hk
    exact dget_append_new (by simpa using fun e => hk (String.toList_inj.1 e))
  have gm : dget [("min".toList, m)] "min".toList = some m := by simp [dget]
  have e : Par.make py [("min".toList, m)] = .ok { bare py [] m with min := m } := by
    unfold Par.make
    dsimp only
    simp only [gm, g "value" (by decide), g "fiducial" (by decide), g "max" (by decide), g "expr" (by decide), g "prior" (by decide),
      g "prior_name" (by decide), g "vary" (by decide), g "lower" (by decide), g "upper" (by decide), g "mu" (by decide),
      g "sigma" (by decide), g "analytic" (by decide)]
    simp [hl.prior, hm, clamp, bare]
  refine ⟨_, e, ?_⟩
  obtain ⟨-, -, a3, a4, a5, -⟩ := C125_merge subst d ({ bare py [] m with min := m } : Par py) hdm
  refine ⟨?_, ?_, ?_⟩
  · rw [a5]; exact if_pos ⟨hm, hf⟩
  · rw [a3]; exact if_pos hm
  · rw [a4]; exact if_pos hl.none_ff

/-- **C125, false of the code.** No line of a parameter file removes a default prior or a default bound. -/
theorem C125_remove_counterexample {py : Python} (hl : Lawful py) (subst : py.Val → py.Val) (d f : Par py)
    (hd : py.dollar f.value = false) :
    (f.prior = py.none → (Par.merge subst d f).prior = d.prior) ∧ (f.min = py.ninf → (Par.merge subst d f).min = d.min) ∧
    (f.max = py.pinf → (Par.merge subst d f).max = d.max) := by
  obtain ⟨-, -, -, -, a5, a6, -, -, a9, -⟩ := C125_merge subst d f hd
  refine ⟨fun h => ?_, fun h => ?_, fun h => ?_⟩
  · rw [a9, h]; simp
  · rw [a5, h, hl.fin_ninf]; simp
  · rw [a6, h, hl.fin_pinf]; simp

end Verif.PFile
