import Verif.Lemmas.ParamText
/-!
C125: parameter files that are written are read back.
-/
namespace Verif.PFile

/-- Reading from a filtered list of attributes. -/
theorem dget_filter {V : Type} (all : List (String × V)) (P : String × V → Bool) (hn : (all.map Prod.fst).Nodup) (k : String) (v : V)
    (h : (k, v) ∈ all) :
    dget ((all.filter P).map (fun kv => (kv.1.toList, kv.2))) k.toList = if P (k, v) then some v else none := by
  split_ifs with hp
  · refine dget_mem ?_ (List.mem_map.2 ⟨(k, v), List.mem_filter.2 ⟨h, hp⟩, rfl⟩)
    have e : ((all.filter P).map (fun kv => (kv.1.toList, kv.2))).map Prod.fst = ((all.filter P).map Prod.fst).map String.toList := by
      simp [Function.comp_def]
    rw [e]
    refine List.Nodup.map (fun a b hab => String.toList_inj.1 hab) (hn.sublist (List.filter_sublist.map _))
  · cases hd : dget ((all.filter P).map (fun kv => (kv.1.toList, kv.2))) k.toList with
    | none => rfl
    | some w =>
      obtain ⟨x, hx, e⟩ := List.mem_map.1 (dget_some hd)
      injection e with e1 e2
      have e1' := String.toList_inj.1 e1
      have : x = (k, v) := List.inj_on_of_nodup_map hn (List.mem_filter.1 hx).1 h e1'
      rw [this] at hx
      exact absurd (List.mem_filter.1 hx).2 hp

theorem dget_filter_none {V : Type} (all : List (String × V)) (P : String × V → Bool) (k : String) (h : k ∉ all.map Prod.fst) :
    dget ((all.filter P).map (fun kv => (kv.1.toList, kv.2))) k.toList = none := by
  refine dget_append_new ?_
  intro hm
  obtain ⟨y, hy, e⟩ := List.mem_map.1 hm
  obtain ⟨x, hx, rfl⟩ := List.mem_map.1 hy
  exact h (List.mem_map.2 ⟨x, (List.mem_filter.1 hx).1, String.toList_inj.1 e⟩)

/-- The attributes in the dictionary of a parameter. -/
theorem toDict_get {py : Python} (p : Par py) (o : Bool) (k : String) (v : py.Val)
    (h : (k, v) ∈ [("name", py.ofTxt p.name), ("value", if o then p.output.getD p.value else p.value), ("vary", p.vary), ("min", p.min),
      ("max", p.max), ("expr", p.expr), ("fiducial", p.fiducial), ("prior_name", p.prior), ("lower", p.lower), ("upper", p.upper),
      ("mu", p.mu), ("sigma", p.sigma), ("analytic", p.analytic)]) :
    dget (p.toDict o) k.toList = if v ≠ py.none ∧ ((k = "min" ∨ k = "max") → py.finite v = true) then some v else none := by
  unfold Par.toDict
  dsimp only
  rw [dget_filter _ _ (by simp only [List.map]; decide) k v h]
  refine if_congr ?_ rfl rfl
  simp only [Bool.and_eq_true, decide_eq_true_eq, Bool.or_eq_true, Bool.not_eq_true', Bool.or_eq_false_iff, decide_eq_false_iff_not]
  tauto

theorem toDict_prior {py : Python} (p : Par py) (o : Bool) : dget (p.toDict o) "prior".toList = none := by
  unfold Par.toDict
  exact dget_filter_none _ _ _ (by simp only [List.map]; decide)

theorem toDict_valid {py : Python} (p : Par py) (o : Bool) : ∀ kv ∈ p.toDict o, kv.1 ∈ validKeys := by
  intro kv h
  unfold Par.toDict at h
  obtain ⟨x, hx, rfl⟩ := List.mem_map.1 h
  have hx := (List.mem_filter.1 hx).1
  simp only [List.mem_cons, List.not_mem_nil, or_false] at hx
  rcases hx with h | h | h | h | h | h | h | h | h | h | h | h | h <;> subst h <;> simp [validKeys]

/-- A new parameter made of the dictionary of a standard one is that one. -/
theorem make_toDict {py : Python} (hl : Lawful py) (p : Par py) (h : Standard p) :
    Par.make py (p.toDict true) = .ok { p with name := [], output := none } := by
  have hv : p.output.getD p.value = p.value := by rw [h.output]; rfl
  have simple : ∀ (k : String) (v : py.Val), k ≠ "min" → k ≠ "max" →
      ((k, v) ∈ [("name", py.ofTxt p.name), ("value", if true then p.output.getD p.value else p.value), ("vary", p.vary), ("min", p.min),
      ("max", p.max), ("expr", p.expr), ("fiducial", p.fiducial), ("prior_name", p.prior), ("lower", p.lower), ("upper", p.upper),
      ("mu", p.mu), ("sigma", p.sigma), ("analytic", p.analytic)]) →
      (dget (p.toDict true) k.toList).getD py.none = v := by
    intro k v h1 h2 hm
    rw [toDict_get p true k v hm]
    by_cases hn : v = py.none
    · rw [if_neg (by simp [hn])]; exact hn.symm
    · rw [if_pos ⟨hn, fun hh => by rcases hh with hh | hh; exacts [absurd hh h1, absurd hh h2]⟩]; rfl
  have gval := simple "value" p.value (by decide) (by decide) (by simp [hv])
  have gexpr := simple "expr" p.expr (by decide) (by decide) (by simp)
  have gfid := simple "fiducial" p.fiducial (by decide) (by decide) (by simp)
  have gpr := simple "prior_name" p.prior (by decide) (by decide) (by simp)
  have glo := simple "lower" p.lower (by decide) (by decide) (by simp)
  have gup := simple "upper" p.upper (by decide) (by decide) (by simp)
  have gmu := simple "mu" p.mu (by decide) (by decide) (by simp)
  have gsi := simple "sigma" p.sigma (by decide) (by decide) (by simp)
  have gvary : (dget (p.toDict true) "vary".toList).getD py.ff = p.vary := by
    rw [toDict_get p true "vary" p.vary (by simp), if_pos ⟨h.vary, by simp⟩]; rfl
  have gana : (dget (p.toDict true) "analytic".toList).getD py.ff = p.analytic := by
    rw [toDict_get p true "analytic" p.analytic (by simp), if_pos ⟨h.analytic, by simp⟩]; rfl
  have bound : ∀ (k : String) (v inf : py.Val), py.finite inf = false → inf ≠ py.none → (v = inf ∨ py.finite v = true) →
      (k = "min" ∨ k = "max") →
      ((k, v) ∈ [("name", py.ofTxt p.name), ("value", if true then p.output.getD p.value else p.value), ("vary", p.vary), ("min", p.min),
      ("max", p.max), ("expr", p.expr), ("fiducial", p.fiducial), ("prior_name", p.prior), ("lower", p.lower), ("upper", p.upper),
      ("mu", p.mu), ("sigma", p.sigma), ("analytic", p.analytic)]) →
      (v = inf ∧ (dget (p.toDict true) k.toList).getD py.none = py.none) ∨
      (v ≠ py.none ∧ py.finite v = true ∧ (dget (p.toDict true) k.toList).getD py.none = v) := by
    intro k v inf hi hi' hv' hk hm
    rw [toDict_get p true k v hm]
    rcases hv' with e | e
    · left; rw [if_neg (by rw [e, hi]; simp [hk])]; exact ⟨e, rfl⟩
    · right
      have : v ≠ py.none := by rintro rfl; rw [hl.fin_none] at e; cases e
      rw [if_pos ⟨this, fun _ => e⟩]; exact ⟨this, e, rfl⟩
  have gmin := bound "min" p.min py.ninf hl.fin_ninf hl.none_ninf h.min (by simp) (by simp)
  have gmax := bound "max" p.max py.pinf hl.fin_pinf hl.none_pinf h.max (by simp) (by simp)
  have hmin : (if (dget (p.toDict true) "min".toList).getD py.none = py.none then py.ninf
      else (dget (p.toDict true) "min".toList).getD py.none) = p.min := by
    rcases gmin with ⟨h1, h2⟩ | ⟨h1, h2, h3⟩
    · rw [if_pos h2, h1]
    · rw [h3, if_neg h1]
  have hmax : (if (dget (p.toDict true) "max".toList).getD py.none = py.none then py.pinf
      else (dget (p.toDict true) "max".toList).getD py.none) = p.max := by
    rcases gmax with ⟨h1, h2⟩ | ⟨h1, h2, h3⟩
    · rw [if_pos h2, h1]
    · rw [h3, if_neg h1]
  have hcl : clamp py p.value ((dget (p.toDict true) "min".toList).getD py.none) ((dget (p.toDict true) "max".toList).getD py.none) p.expr =
      p.value := by
    unfold clamp
    rw [if_pos h.value]
    dsimp only
    have e1 : (if (dget (p.toDict true) "max".toList).getD py.none ≠ py.none ∧
        py.gt p.value ((dget (p.toDict true) "max".toList).getD py.none) = true then
        (dget (p.toDict true) "max".toList).getD py.none else p.value) = p.value := by
      rcases gmax with ⟨h1, h2⟩ | ⟨h1, h2, h3⟩
      · rw [if_neg (by rw [h2]; simp)]
      · rw [if_neg (by rw [h3, h.below h2]; simp)]
    rw [e1]
    rcases gmin with ⟨h1, h2⟩ | ⟨h1, h2, h3⟩
    · rw [if_neg (by rw [h2]; simp)]
    · rw [if_neg (by rw [h3, h.above h2]; simp)]
  unfold Par.make
  dsimp only
  simp only [gval, gexpr, gfid, gpr, glo, gup, gmu, gsi, gvary, gana, hmin, hmax, toDict_prior, if_neg h.value, hcl, Option.getD_none,
    if_pos h.prior]

/-- The item of a parameter written as a value. -/
def plainItem {py : Python} (tag : Txt) (np : Txt × Par py) : Item py :=
  { tag := tag, name := np.1, par := np.2,
    line := { key := tag ++ '.' :: np.1, sp := 0, text := py.repr (np.2.output.getD np.2.value), val := np.2.value, orig := np.2.output } }

/-- The item of a parameter written as a dictionary. -/
def dictItem {py : Python} (tag : Txt) (np : Txt × Par py) : Item py :=
  { tag := tag, name := np.1, par := np.2,
    line := { key := tag ++ '.' :: np.1, sp := 0, text := py.repr (py.mkDict (np.2.toDict true)),
              val := py.mkDict (np.2.toDict true), orig := none } }

/-- The parameter made of a value alone. -/
def bare (py : Python) (n : Txt) (v : py.Val) : Par py :=
  { name := n, value := v, output := none, vary := py.ff, min := py.ninf, max := py.pinf, expr := py.none, fiducial := py.none,
    prior := py.none, lower := py.none, upper := py.none, mu := py.none, sigma := py.none, analytic := py.ff }

/-- The item of a further name. -/
def extraItem (py : Python) (nd : Txt × Txt) : Item py :=
  { tag := "theory_extra".toList, name := nd.1, par := bare py nd.1 (py.ofTxt nd.2),
    line := { key := "theory_extra".toList ++ '.' :: nd.1, sp := 1, text := '\'' :: nd.2 ++ ['\''], val := py.ofTxt nd.2, orig := none } }

theorem make_value {py : Python} (hl : Lawful py) (v : py.Val) : Par.make py [("value".toList, v)] = .ok (bare py [] v) := by
  have g : ∀ k : String, k ≠ "value" → dget [("value".toList, v)] k.toList = none := by
    intro k hk
    exact dget_append_new (by simpa using fun e => hk (String.toList_inj.1 e))
  have gv : dget [("value".toList, v)] "value".toList = some v := by simp [dget]
  unfold Par.make
  dsimp only
  simp only [gv, g "fiducial" (by decide), g "min" (by decide), g "max" (by decide), g "expr" (by decide), g "prior" (by decide),
    g "prior_name" (by decide), g "vary" (by decide), g "lower" (by decide), g "upper" (by decide), g "mu" (by decide), g "sigma" (by decide),
    g "analytic" (by decide)]
  simp only [Option.getD_none, Option.getD_some, hl.prior, if_true]
  have : (if v = py.none then py.none else v) = v := by split_ifs with h; exacts [h.symm, rfl]
  rw [this]
  have : clamp py v py.none py.none py.none = v := by simp [clamp]
  rw [this]
  rfl

theorem plainItem_good {py : Python} (hl : Lawful py) {env} {tag : Txt} (ht : IsName tag) {ps : Params py} (h : PlainSet py env ps)
    {np : Txt × Par py} (hm : np ∈ ps) : (plainItem tag np).Good env := by
  obtain ⟨h1, h2, h3, h4, h5, h6⟩ := h.each np hm
  refine ⟨rfl, ht, h1, h2, h5, h6, ?_⟩
  intro orig ho
  refine ⟨{ bare py (tag ++ '.' :: np.1) np.2.value with output := np.2.output }, ?_, ?_⟩
  · have e : payload py np.2.value = .ok (bare py [] np.2.value) := by
      unfold payload
      cases hi : py.items np.2.value with
      | none => exact make_value hl _
      | some its =>
        obtain ⟨kv, hk, hk'⟩ := h4.dict its hi
        dsimp only
        rw [if_neg, make_value hl]
        rw [List.all_eq_true]
        intro hall
        exact hk' (by simpa using hall kv hk)
    unfold build
    dsimp only [plainItem] at ho ⊢
    rw [e]
    dsimp only
    rw [ho]
    rfl
  · rcases np with ⟨n, p⟩
    cases p
    simp only at h3
    obtain ⟨a1, a2, a3, a4, a5, a6, a7, a8, a9, a10, a11, a12⟩ := h4
    simp_all [bare, plainItem]

theorem dictItem_good {py : Python} (hl : Lawful py) {env} {tag : Txt} (ht : IsName tag) {ps : Params py} (h : DictSet py env ps)
    {np : Txt × Par py} (hm : np ∈ ps) : (dictItem tag np).Good env := by
  obtain ⟨h1, h2, h3, h4, h5, h6⟩ := h.each np hm
  refine ⟨rfl, ht, h1, h2, h5, h6, ?_⟩
  intro orig ho
  refine ⟨{ np.2 with name := tag ++ '.' :: np.1, output := none }, ?_, ?_⟩
  · unfold build payload
    dsimp only [dictItem] at ho ⊢
    rw [hl.items]
    dsimp only
    rw [if_pos, make_toDict hl _ h4]
    · dsimp only; rw [ho]
    · rw [List.all_eq_true]
      intro kv hk
      simpa using toDict_valid _ _ kv hk
  · rcases np with ⟨n, p⟩
    have := h4.output
    cases p
    simp_all [dictItem]

theorem extraItem_good {py : Python} (hl : Lawful py) {env} {es : List (Txt × Txt)} (h : ExtraSet py env es)
    {nd : Txt × Txt} (hm : nd ∈ es) : (extraItem py nd).Good env := by
  obtain ⟨h1, h2, h3, h4, h5⟩ := h.each nd hm
  have ht : IsName "theory_extra".toList := ⟨by decide, by decide⟩
  refine ⟨rfl, ht, h1, h2, h3, h5, ?_⟩
  intro orig ho
  refine ⟨bare py ("theory_extra".toList ++ '.' :: nd.1) (py.ofTxt nd.2), ?_, rfl⟩
  unfold build payload
  dsimp only [extraItem] at ho ⊢
  rw [h4]
  dsimp only
  rw [make_value hl]
  dsimp only
  rw [ho]
  rfl

/-- The items of a run in the order of its file. -/
def runItems {py : Python} (r : Run py) : List (Item py) :=
  (sorted r.driver).map (plainItem "driver".toList) ++ ((sorted r.data).map (plainItem "data".toList) ++
    ((sorted r.theory).map (dictItem "theory".toList) ++ (r.extras.map (extraItem py) ++
      (sorted r.model).map (plainItem "model".toList))))

theorem IsName.tags : IsName "driver".toList ∧ IsName "data".toList ∧ IsName "theory".toList ∧ IsName "theory_extra".toList ∧
    IsName "model".toList := ⟨⟨by decide, by decide⟩, ⟨by decide, by decide⟩, ⟨by decide, by decide⟩, ⟨by decide, by decide⟩,
    ⟨by decide, by decide⟩⟩

theorem sorted_perm {py : Python} (ps : Params py) : (sorted ps).Perm ps := List.mergeSort_perm _ _

theorem entry_plain {py : Python} (tag : Txt) (np : Txt × Par py) : entry false tag np = (plainItem tag np).line.raw := by
  simp [entry, plainItem, Line.raw, lineOf]

theorem entry_dict {py : Python} (tag : Txt) (np : Txt × Par py) : entry true tag np = (dictItem tag np).line.raw := by
  simp [entry, dictItem, Line.raw, lineOf]

theorem raw_good {py : Python} {env} {it : Item py} (h : it.Good env) : '\n' ∉ it.line.raw ∧ ¬ Silent it.line.raw := by
  have hk := h.ok.key
  exact ⟨not_mem_lineOf hk.line h.text.line (by decide) (by decide), not_silent_lineOf hk h.text.ne h.text.trim⟩

/-- Everything the lines of the file of a run say. -/
theorem said_run {py : Python} (hl : Lawful py) {env} {r : Run py} (h : Writable py env r) :
    said r.text = (runItems r).map (fun it => it.line.raw) := by
  have hp : ∀ (tag : Txt), IsName tag → ∀ ps : Params py, PlainSet py env ps →
      ∀ l ∈ (sorted ps).map (entry false tag), '\n' ∉ l ∧ ¬ Silent l := by
    intro tag ht ps hs l hm
    obtain ⟨np, hnp, rfl⟩ := List.mem_map.1 hm
    rw [entry_plain]
    exact raw_good (plainItem_good hl ht hs ((sorted_perm ps).mem_iff.1 hnp))
  have hd : ∀ l ∈ (sorted r.theory).map (entry true "theory".toList), '\n' ∉ l ∧ ¬ Silent l := by
    intro l hm
    obtain ⟨np, hnp, rfl⟩ := List.mem_map.1 hm
    rw [entry_dict]
    exact raw_good (dictItem_good hl ⟨by decide, by decide⟩ h.theory ((sorted_perm _).mem_iff.1 hnp))
  have hraw : ∀ nd : Txt × Txt, "theory_extra.".toList ++ nd.1 ++ " =  '".toList ++ nd.2 ++ ['\''] = (extraItem py nd).line.raw := by
    intro nd
    have e1 : "theory_extra.".toList = "theory_extra".toList ++ ['.'] := by decide
    have e2 : " =  '".toList = [' ', '=', ' ', ' ', '\''] := by decide
    rw [e1, e2]
    unfold extraItem Line.raw lineOf
    generalize "theory_extra".toList = x
    simp
  have he : ∀ l ∈ r.extras.map (fun nd => "theory_extra.".toList ++ nd.1 ++ " =  '".toList ++ nd.2 ++ ['\'']), '\n' ∉ l ∧ ¬ Silent l := by
    intro l hm
    obtain ⟨nd, hnd, rfl⟩ := List.mem_map.1 hm
    rw [hraw]
    exact raw_good (extraItem_good hl h.extras hnd)
  have hdr : ∀ s : Txt, ('\n' ∉ s ∧ Trim s ∧ s ≠ []) → ('\n' ∉ s ∧ Trim s ∧ s ≠ []) := fun _ h => h
  have e : r.text = section_ "driver_params".toList false "driver".toList r.driver ++
      (section_ "data params".toList false "data".toList r.data ++
      (section_ "theory params".toList true "theory".toList r.theory ++
      (extraSection r.extras ++ (section_ "model params".toList false "model".toList r.model ++ [])))) := by
    simp [Run.text]
  have ht : ∀ s : Txt, (∀ c ∈ s.head?, 32 < c.toNat) → (∀ c ∈ s.getLast?, 32 < c.toNat) → Trim s := fun _ a b => ⟨a, b⟩
  rw [e, said_section ⟨by decide, ht _ (by decide) (by decide), by decide⟩ (hp _ ⟨by decide, by decide⟩ _ h.driver),
    said_section ⟨by decide, ht _ (by decide) (by decide), by decide⟩ (hp _ ⟨by decide, by decide⟩ _ h.data),
    said_section ⟨by decide, ht _ (by decide) (by decide), by decide⟩ hd,
    said_extra _ _ he,
    said_section ⟨by decide, ht _ (by decide) (by decide), by decide⟩ (hp _ ⟨by decide, by decide⟩ _ h.model), said_nil]
  simp only [runItems, List.map_append, List.map_map, List.append_nil]
  congr 1
  · exact List.map_congr_left (fun np _ => entry_plain _ np)
  congr 1
  · exact List.map_congr_left (fun np _ => entry_plain _ np)
  congr 1
  · exact List.map_congr_left (fun np _ => entry_dict _ np)
  congr 1
  · exact List.map_congr_left (fun nd _ => hraw nd)
  · exact List.map_congr_left (fun np _ => entry_plain _ np)

theorem run_good {py : Python} (hl : Lawful py) {env} {r : Run py} (h : Writable py env r) : ∀ it ∈ runItems r, it.Good env := by
  intro it hm
  simp only [runItems, List.mem_append, List.mem_map] at hm
  rcases hm with ⟨np, h1, rfl⟩ | ⟨np, h1, rfl⟩ | ⟨np, h1, rfl⟩ | ⟨np, h1, rfl⟩ | ⟨np, h1, rfl⟩
  · exact plainItem_good hl ⟨by decide, by decide⟩ h.driver ((sorted_perm _).mem_iff.1 h1)
  · exact plainItem_good hl ⟨by decide, by decide⟩ h.data ((sorted_perm _).mem_iff.1 h1)
  · exact dictItem_good hl ⟨by decide, by decide⟩ h.theory ((sorted_perm _).mem_iff.1 h1)
  · exact extraItem_good hl h.extras h1
  · exact plainItem_good hl ⟨by decide, by decide⟩ h.model ((sorted_perm _).mem_iff.1 h1)


theorem nodup_sorted {py : Python} {ps : Params py} (h : (ps.map Prod.fst).Nodup) : ((sorted ps).map Prod.fst).Nodup :=
  ((sorted_perm ps).map Prod.fst).nodup_iff.2 h

/-- Every parameter stands once in the file of a run. -/
theorem run_nodup {py : Python} {env} {r : Run py} (h : Writable py env r) :
    ((runItems r).map (fun it => (it.tag, it.name))).Nodup := by
  have one : ∀ (tag : Txt) (names : List Txt), names.Nodup → (names.map (fun n => (tag, n))).Nodup := by
    intro tag names hn
    exact hn.map (fun a b e => by simpa using e)
  have e : (runItems r).map (fun it => (it.tag, it.name)) =
      ((sorted r.driver).map Prod.fst).map (fun n => ("driver".toList, n)) ++ (((sorted r.data).map Prod.fst).map (fun n => ("data".toList, n)) ++
      (((sorted r.theory).map Prod.fst).map (fun n => ("theory".toList, n)) ++ ((r.extras.map Prod.fst).map (fun n => ("theory_extra".toList, n)) ++
      ((sorted r.model).map Prod.fst).map (fun n => ("model".toList, n))))) := by
    simp only [runItems, List.map_append, List.map_map]
    rfl
  rw [e]
  have dis : ∀ (a b : Txt) (l m : List Txt), a ≠ b → ∀ x ∈ l.map (fun n => (a, n)), ∀ y ∈ m.map (fun n => (b, n)), x ≠ y := by
    intro a b l m hab x hx y hy hxy
    obtain ⟨u, -, rfl⟩ := List.mem_map.1 hx
    obtain ⟨w, -, rfl⟩ := List.mem_map.1 hy
    injection hxy with h1
    exact hab h1
  have d1 := nodup_sorted h.driver.nodup
  have d2 := nodup_sorted h.data.nodup
  have d3 := nodup_sorted h.theory.nodup
  have d4 := h.extras.nodup
  have d5 := nodup_sorted h.model.nodup
  have app : ∀ {x y : List (Txt × Txt)}, x.Nodup → y.Nodup → (∀ a ∈ x, ∀ b ∈ y, a ≠ b) → (x ++ y).Nodup := by
    intro x y h1 h2 h3; exact List.nodup_append.2 ⟨h1, h2, h3⟩
  have or : ∀ {x y z : List (Txt × Txt)}, (∀ a ∈ x, ∀ b ∈ y, a ≠ b) → (∀ a ∈ x, ∀ b ∈ z, a ≠ b) → ∀ a ∈ x, ∀ b ∈ y ++ z, a ≠ b := by
    intro x y z h1 h2 a ha b hb
    rcases List.mem_append.1 hb with hb | hb
    exacts [h1 a ha b hb, h2 a ha b hb]
  refine app (one _ _ d1) (app (one _ _ d2) (app (one _ _ d3) (app (one _ _ d4) (one _ _ d5) ?_) ?_) ?_) ?_
  · exact dis _ _ _ _ (by decide)
  · exact or (dis _ _ _ _ (by decide)) (dis _ _ _ _ (by decide))
  · exact or (dis _ _ _ _ (by decide)) (or (dis _ _ _ _ (by decide)) (dis _ _ _ _ (by decide)))
  · exact or (dis _ _ _ _ (by decide)) (or (dis _ _ _ _ (by decide)) (or (dis _ _ _ _ (by decide)) (dis _ _ _ _ (by decide))))

theorem filter_sect {py : Python} {α : Type} (t tag : Txt) (l : List α) (f : α → Item py) (hf : ∀ x, (f x).tag = tag) :
    (l.map f).filter (fun it => it.tag = t) = if tag = t then l.map f else [] := by
  split_ifs with h
  · refine List.filter_eq_self.2 ?_
    intro it hm
    obtain ⟨x, -, rfl⟩ := List.mem_map.1 hm
    simp [hf, h]
  · refine List.filter_eq_nil_iff.2 ?_
    intro it hm
    obtain ⟨x, -, rfl⟩ := List.mem_map.1 hm
    simp [hf, h]

theorem tags_apart : ∀ a ∈ ["driver".toList, "data".toList, "theory".toList, "theory_extra".toList, "model".toList],
    ∀ b ∈ ["driver".toList, "data".toList, "theory".toList, "theory_extra".toList, "model".toList], b = a ∨ ¬ a <:+ b := by
  have e1 : "driver".toList = ['d', 'r', 'i', 'v', 'e', 'r'] := by decide
  have e2 : "data".toList = ['d', 'a', 't', 'a'] := by decide
  have e3 : "theory".toList = ['t', 'h', 'e', 'o', 'r', 'y'] := by decide
  have e4 : "theory_extra".toList = ['t', 'h', 'e', 'o', 'r', 'y', '_', 'e', 'x', 't', 'r', 'a'] := by decide
  have e5 : "model".toList = ['m', 'o', 'd', 'e', 'l'] := by decide
  rw [e1, e2, e3, e4, e5]
  decide

/-- What a reading of a run's file gives, for a tag that is one of the five. -/
theorem fromFile_run {py : Python} (hl : Lawful py) {env} {r : Run py} (h : Writable py env r) (t : Txt)
    (ht : t ∈ ["driver".toList, "data".toList, "theory".toList, "theory_extra".toList, "model".toList]) :
    fromFile py env (some t) r.text = .ok (((runItems r).filter (·.tag = t)).map (fun it => (it.name, it.par))) := by
  refine fromFile_items py env t ?_ _ _ (said_run hl h) ?_ (run_nodup h)
  · revert ht
    simp only [List.mem_cons, List.not_mem_nil, or_false]
    rintro (e | e | e | e | e) <;> rw [e] <;> decide
  · intro it hm
    refine ⟨run_good hl h it hm, ?_⟩
    have hd : ∀ a ∈ ["driver".toList, "data".toList, "theory".toList, "theory_extra".toList, "model".toList],
        ∀ b ∈ ["driver".toList, "data".toList, "theory".toList, "theory_extra".toList, "model".toList], b = a ∨ ¬ a <:+ b := tags_apart
    refine hd t ht it.tag ?_
    simp only [runItems, List.mem_append, List.mem_map] at hm
    rcases hm with ⟨np, h1, rfl⟩ | ⟨np, h1, rfl⟩ | ⟨np, h1, rfl⟩ | ⟨np, h1, rfl⟩ | ⟨np, h1, rfl⟩ <;>
      dsimp only [plainItem, dictItem, extraItem] <;> simp only [List.mem_cons, true_or, or_true]

/-- What the readings of a run's file are. -/
theorem read_run {py : Python} (hl : Lawful py) {env : Txt → Option Txt} {r : Run py} (h : Writable py env r) :
    fromFile py env (some "driver".toList) r.text = .ok (sorted r.driver) ∧
    fromFile py env (some "data".toList) r.text = .ok (sorted r.data) ∧
    fromFile py env (some "theory".toList) r.text = .ok (sorted r.theory) ∧
    fromFile py env (some "model".toList) r.text = .ok (sorted r.model) ∧
    (∃ ps, fromFile py env (some "theory_extra".toList) r.text = .ok ps ∧ ps.map Prod.fst = r.extras.map Prod.fst) := by
  have key : ∀ t ∈ ["driver".toList, "data".toList, "theory".toList, "theory_extra".toList, "model".toList], ∀ l,
      ((runItems r).filter (·.tag = t)).map (fun it => (it.name, it.par)) = l → fromFile py env (some t) r.text = .ok l := by
    intro t ht l hl'
    rw [fromFile_run hl h t ht, hl']
  have fl : ∀ t, (runItems r).filter (·.tag = t) =
      (if "driver".toList = t then (sorted r.driver).map (plainItem "driver".toList) else []) ++
      ((if "data".toList = t then (sorted r.data).map (plainItem "data".toList) else []) ++
      ((if "theory".toList = t then (sorted r.theory).map (dictItem "theory".toList) else []) ++
      ((if "theory_extra".toList = t then r.extras.map (extraItem py) else []) ++
      (if "model".toList = t then (sorted r.model).map (plainItem "model".toList) else [])))) := by
    intro t
    unfold runItems
    rw [List.filter_append, List.filter_append, List.filter_append, List.filter_append, 
      filter_sect t "driver".toList _ (plainItem "driver".toList) (fun _ => rfl),
      filter_sect t "data".toList _ (plainItem "data".toList) (fun _ => rfl),
      filter_sect t "theory".toList _ (dictItem "theory".toList) (fun _ => rfl),
      filter_sect t "theory_extra".toList _ (extraItem py) (fun _ => rfl),
      filter_sect t "model".toList _ (plainItem "model".toList) (fun _ => rfl)]
  have pl : ∀ (tag : Txt) (ps : Params py), ((sorted ps).map (plainItem tag)).map (fun it => (it.name, it.par)) = sorted ps := by
    intro tag ps; rw [List.map_map]; exact List.map_id _
  have dl : ∀ (tag : Txt) (ps : Params py), ((sorted ps).map (dictItem tag)).map (fun it => (it.name, it.par)) = sorted ps := by
    intro tag ps; rw [List.map_map]; exact List.map_id _
  refine ⟨key _ (by decide) _ ?_, key _ (by decide) _ ?_, key _ (by decide) _ ?_, key _ (by decide) _ ?_,
    ⟨(r.extras.map (extraItem py)).map (fun it => (it.name, it.par)), key _ (by decide) _ ?_, ?_⟩⟩
  · rw [fl, if_pos rfl, if_neg (by decide), if_neg (by decide), if_neg (by decide), if_neg (by decide)]
    simp only [List.append_nil]; exact pl _ _
  · rw [fl, if_neg (by decide), if_pos rfl, if_neg (by decide), if_neg (by decide), if_neg (by decide)]
    simp only [List.append_nil, List.nil_append]; exact pl _ _
  · rw [fl, if_neg (by decide), if_neg (by decide), if_pos rfl, if_neg (by decide), if_neg (by decide)]
    simp only [List.append_nil, List.nil_append]; exact dl _ _
  · rw [fl, if_neg (by decide), if_neg (by decide), if_neg (by decide), if_neg (by decide), if_pos rfl]
    simp only [List.nil_append]; exact pl _ _
  · rw [fl, if_neg (by decide), if_neg (by decide), if_neg (by decide), if_pos rfl, if_neg (by decide)]
    simp only [List.append_nil, List.nil_append]
  · rw [List.map_map, List.map_map]; rfl

/-- **C125.** The file of a run gives back its parameters: each section is read by its tag and holds exactly the parameters
written there - value, output with variables, bounds, prior and all. -/
theorem C125_round_trip {py : Python} (hl : Lawful py) (env : Txt → Option Txt) (r : Run py) (h : Writable py env r) :
    (∃ ps, fromFile py env (some "driver".toList) r.text = .ok ps ∧ ps.Perm r.driver) ∧
    (∃ ps, fromFile py env (some "data".toList) r.text = .ok ps ∧ ps.Perm r.data) ∧
    (∃ ps, fromFile py env (some "theory".toList) r.text = .ok ps ∧ ps.Perm r.theory) ∧
    (∃ ps, fromFile py env (some "model".toList) r.text = .ok ps ∧ ps.Perm r.model) ∧
    (∃ ps, fromFile py env (some "theory_extra".toList) r.text = .ok ps ∧ ps.map Prod.fst = r.extras.map Prod.fst) := by
  obtain ⟨h1, h2, h3, h4, h5⟩ := read_run hl h
  exact ⟨⟨_, h1, sorted_perm _⟩, ⟨_, h2, sorted_perm _⟩, ⟨_, h3, sorted_perm _⟩, ⟨_, h4, sorted_perm _⟩, h5⟩

end Verif.PFile
