/-
C129: the points at which a call evaluates, tables with exact rows, several dependent variables.
-/
import Verif.Props.SimFit

namespace Verif.SimFit

noncomputable section

open Classical

/-! ### The points -/

theorem mapM_ok {α β : Type} {f : α → Except Err β} {g : α → β} : ∀ {l : List α}, (∀ a ∈ l, f a = .ok (g a)) → l.mapM f = .ok (l.map g)
  | [], _ => rfl
  | a :: l, h => by
    rw [List.mapM_cons, h a (by simp), mapM_ok (l := l) fun b hb => h b (by simp [hb])]
    rfl

theorem mapM_error {α β : Type} {f : α → Except Err β} {e : Err} : ∀ {l : List α}, (∃ a ∈ l, f a = .error e) → (∀ a ∈ l, ∀ e', f a = .error e' → e' = e) → l.mapM f = .error e
  | [], h, _ => by simp at h
  | a :: l, h, h' => by
    rw [List.mapM_cons]
    cases ha : f a with
    | error e' => rw [h' a (by simp) e' ha]; rfl
    | ok b =>
      have : ∃ a ∈ l, f a = .error e := by
        obtain ⟨c, hc, hce⟩ := h
        rcases List.mem_cons.1 hc with rfl | hc
        · rw [ha] at hce; cases hce
        · exact ⟨c, hc, hce⟩
      rw [mapM_error this fun c hc => h' c (by simp [hc])]
      rfl

theorem lookup_map {α β : Type} (g : α → β) (kw : List (String × α)) (p : String) : (kw.map fun e => (e.1, g e.2)).lookup p = (kw.lookup p).map g := by
  induction kw with
  | nil => rfl
  | cons e kw ih =>
    obtain ⟨k, v⟩ := e
    simp only [List.map_cons, List.lookup_cons]
    by_cases h : p == k
    · rw [h]; rfl
    · simp only [Bool.not_eq_true] at h
      rw [h]
      exact ih

/-- C129: with a number for each of the independent variables there is one point. -/
theorem C129_points_scalar {indep : List String} {kw : List (String × Arg)} {v : String → ℝ} (hs : ∀ e ∈ kw, ∃ x, e.2 = .scalar x)
    (h : ∀ p ∈ indep, kw.lookup p = some (.scalar (v p))) : asked indep [] kw = .ok [indep.map v] := by
  have h1 : kw.filterMap (fun e => e.2.len?) = [] := by
    rw [List.filterMap_eq_nil_iff]
    intro e he
    obtain ⟨x, hx⟩ := hs e he
    rw [hx]; rfl
  have h2 : align kw = .ok kw := by unfold align; rw [h1]
  unfold asked
  rw [h2]
  show (List.mapM _ indep >>= fun vs => Except.ok (points vs)) = _
  rw [mapM_ok (g := fun p => .scalar (v p)) (fun p hp => by rw [h p hp])]
  show Except.ok (points _) = _
  have h3 : (indep.map fun p => Arg.scalar (v p)).filterMap Arg.len? = [] := by
    rw [List.filterMap_eq_nil_iff]
    intro e he
    obtain ⟨p, _, rfl⟩ := List.mem_map.1 he
    rfl
  unfold points
  rw [h3]
  simp [Arg.get]

theorem repeat_get {n i : ℕ} (hi : i < n) (a : Arg) : (a.repeat n).get i = a.get i := by
  cases a with
  | scalar x => simp [Arg.repeat, Arg.get, List.getD, hi]
  | array l => rfl

/-- C129: arrays of one length are taken element by element, and numbers between them belong to every point. -/
theorem C129_points_array {indep : List String} {kw : List (String × Arg)} {n : ℕ} {v : String → ℕ → ℝ} (hne : indep ≠ [])
    (hx : ∃ e ∈ kw, ∃ l, e.2 = .array l) (hn : ∀ e ∈ kw, ∀ l, e.2 = .array l → l.length = n)
    (hv : ∀ p ∈ indep, (∃ x, kw.lookup p = some (.scalar x) ∧ ∀ i < n, v p i = x) ∨ ∃ l, kw.lookup p = some (.array l) ∧ ∀ i < n, l[i]? = some (v p i)) :
    asked indep [] kw = .ok ((List.range n).map fun i => indep.map fun p => v p i) := by
  have h0 : ∀ m ∈ kw.filterMap (fun e => e.2.len?), m = n := by
    intro m hm
    obtain ⟨e, he, h⟩ := List.mem_filterMap.1 hm
    cases h' : e.2 with
    | scalar x => rw [h'] at h; cases h
    | array l => rw [h'] at h; cases h; exact hn e he l h'
  have h1 : align kw = .ok (kw.map fun e => (e.1, e.2.repeat n)) := by
    obtain ⟨e, he, l, hl⟩ := hx
    have : l.length ∈ kw.filterMap (fun e => e.2.len?) := List.mem_filterMap.2 ⟨e, he, by rw [hl]; rfl⟩
    unfold align
    cases hf : kw.filterMap (fun e => e.2.len?) with
    | nil => rw [hf] at this; cases this
    | cons m ms =>
      dsimp only
      rw [hf] at h0
      have hm := h0 m (by simp)
      subst hm
      rw [if_pos]
      rw [List.all_eq_true]
      intro k hk
      simp [h0 k (by simp [hk])]
  unfold asked
  rw [h1]
  show (List.mapM _ indep >>= fun vs => Except.ok (points vs)) = _
  obtain ⟨g, hg⟩ : ∃ g : String → Arg, g = fun p => ((kw.lookup p).getD (.scalar 0)).repeat n := ⟨_, rfl⟩
  have hlook : ∀ p ∈ indep, kw.lookup p ≠ none := by
    intro p hp
    rcases hv p hp with ⟨x, h, _⟩ | ⟨l, h, _⟩ <;> rw [h] <;> simp
  rw [mapM_ok (g := g) fun p hp => by
    rw [lookup_map (Arg.repeat n), hg]
    dsimp only
    cases h : kw.lookup p with
    | none => exact absurd h (hlook p hp)
    | some a => rfl]
  show Except.ok (points _) = _
  have hlen : ∀ p ∈ indep, (g p).len? = some n := by
    intro p hp
    rw [hg]
    dsimp only
    rcases hv p hp with ⟨x, h, _⟩ | ⟨l, h, _⟩
    · rw [h]; simp [Arg.repeat, Arg.len?]
    · rw [h]
      have : (p, Arg.array l) ∈ kw := by
        rw [List.lookup_eq_some_iff] at h
        obtain ⟨l₁, l₂, h, _⟩ := h
        rw [h]; simp
      simp [Arg.repeat, Arg.len?, hn _ this l rfl]
  have hpts : points (indep.map g) = (List.range n).map fun i => (indep.map g).map (Arg.get i) := by
    unfold points
    obtain ⟨p, ps, hp⟩ : ∃ p ps, indep = p :: ps := by
      cases indep with
      | nil => exact absurd rfl hne
      | cons p ps => exact ⟨p, ps, rfl⟩
    have : (indep.map g).filterMap Arg.len? = n :: (ps.map g).filterMap Arg.len? := by
      rw [hp, List.map_cons, List.filterMap_cons, hlen p (by simp [hp])]
    rw [this]
  rw [hpts]
  congr 1
  refine List.map_congr_left fun i hi => ?_
  rw [List.map_map]
  refine List.map_congr_left fun p hp => ?_
  have hi' : i < n := List.mem_range.1 hi
  show (g p).get i = _
  rw [hg]
  dsimp only
  rw [repeat_get hi']
  rcases hv p hp with ⟨x, h, h'⟩ | ⟨l, h, h'⟩
  · rw [h, h' i hi']; rfl
  · rw [h]
    simp [Arg.get, List.getD, h' i hi']

/-- C129: with one independent variable its value can be given without a name. -/
theorem C129_points_positional (p : String) :
    (∀ x, asked [p] [.scalar x] [] = .ok [[x]]) ∧ ∀ l, asked [p] [.array l] [] = .ok (l.map fun x => [x]) := by
  have hl : ∀ a : Arg, ([(p, a)] : List (String × Arg)).lookup p = some a := fun a => by simp
  refine ⟨fun x => ?_, fun l => ?_⟩
  · unfold asked
    show (List.mapM _ [p] >>= fun vs => Except.ok (points vs)) = _
    rw [mapM_ok (g := fun _ => .scalar x) (fun q hq => by rw [List.mem_singleton.1 hq, hl])]
    rfl
  · unfold asked
    show (List.mapM _ [p] >>= fun vs => Except.ok (points vs)) = _
    rw [mapM_ok (g := fun _ => .array l) (fun q hq => by rw [List.mem_singleton.1 hq, hl])]
    show Except.ok ((List.range l.length).map fun i => [l.getD i 0]) = _
    congr 1
    refine List.ext_getElem (by simp) fun i h1 h2 => ?_
    simp only [List.length_map] at h2
    simp [List.getD, h2]

/-- C129: what is refused: arrays of different lengths, an independent variable that is missing, values without names if there is not just one variable. -/
theorem C129_points_refused (indep : List String) (kw : List (String × Arg)) :
    ((∃ e₁ ∈ kw, ∃ e₂ ∈ kw, ∃ l₁ l₂, e₁.2 = .array l₁ ∧ e₂.2 = .array l₂ ∧ l₁.length ≠ l₂.length) → ∀ args, asked indep args kw = .error .valueError) ∧
    ((∃ p ∈ indep, kw.lookup p = none) → asked indep [] kw = .error .valueError) ∧
    (∀ args, args ≠ [] → (indep.length ≠ 1 ∨ args.length ≠ 1) → asked indep args kw = .error .valueError) := by
  have hal : align kw = .error .valueError ∨ ∃ g : Arg → Arg, align kw = .ok (kw.map fun e => (e.1, g e.2)) := by
    unfold align
    split
    · exact Or.inr ⟨id, by simp⟩
    · split_ifs
      · exact Or.inr ⟨_, rfl⟩
      · exact Or.inl rfl
  refine ⟨?_, ?_, ?_⟩
  · rintro ⟨e₁, h₁, e₂, h₂, l₁, l₂, hl₁, hl₂, hne⟩ args
    have : align kw = .error .valueError := by
      have m₁ : l₁.length ∈ kw.filterMap (fun e => e.2.len?) := List.mem_filterMap.2 ⟨e₁, h₁, by rw [hl₁]; rfl⟩
      have m₂ : l₂.length ∈ kw.filterMap (fun e => e.2.len?) := List.mem_filterMap.2 ⟨e₂, h₂, by rw [hl₂]; rfl⟩
      unfold align
      cases hf : kw.filterMap (fun e => e.2.len?) with
      | nil => rw [hf] at m₁; cases m₁
      | cons m ms =>
        dsimp only
        rw [if_neg]
        intro hall
        rw [hf] at m₁ m₂
        rw [List.all_eq_true] at hall
        have hm : ∀ k ∈ m :: ms, k = m := by
          intro k hk
          rcases List.mem_cons.1 hk with rfl | hk
          · rfl
          · simpa using hall k hk
        exact hne ((hm _ m₁).trans (hm _ m₂).symm)
    unfold asked
    rw [this]
    rfl
  · rintro ⟨p, hp, h⟩
    unfold asked
    rcases hal with h1 | ⟨g, h1⟩
    · rw [h1]; rfl
    · rw [h1]
      show (List.mapM _ indep >>= fun vs => Except.ok (points vs)) = _
      rw [mapM_error (e := .valueError) ⟨p, hp, by rw [lookup_map g, h]; rfl⟩]
      · rfl
      · intro q _ e he
        split at he
        · cases he
        · cases he; rfl
  · intro args hne h
    unfold asked
    rcases hal with h1 | ⟨g, h1⟩
    · rw [h1]; rfl
    · rw [h1]
      show (positional indep args _ >>= fun _ => _) = _
      have : ∀ kw', positional indep args kw' = .error .valueError := by
        intro kw'
        match args, indep, hne, h with
        | [], _, hne, _ => exact absurd rfl hne
        | [a], [p], _, h => simp at h
        | [a], [], _, _ => rfl
        | [a], _ :: _ :: _, _, _ => rfl
        | _ :: _ :: _, [], _, _ => rfl
        | _ :: _ :: _, _ :: _, _, _ => rfl
      rw [this]
      rfl

/-- C129: a call for no points is refused. -/
theorem C129_points_none {p : Params} {args : List Arg} {kw : List (String × Arg)} (h : asked p.indep args kw = .ok []) (l : List ℝ) :
    (Fit.evaluate args kw ⟨p, {}⟩).1 ≠ .ok l := by
  rw [(good_evaluate args kw _ (inv_empty p)).1]
  intro h'
  obtain ⟨_, _, _, pts, ha, hne, _⟩ := pEvaluate_ok h'
  rw [h] at ha
  cases ha
  exact hne rfl

/-- C129: what is returned: the number itself for a single point, an array otherwise. -/
theorem C129_number {p : Params} {args : List Arg} {kw : List (String × Arg)} {l : List ℝ} (h : (Fit.evaluate args kw ⟨p, {}⟩).1 = .ok l) :
    (∀ x, l = [x] → (Fit.call args kw ⟨p, {}⟩).1 = .ok (.number x)) ∧ (l.length ≠ 1 → (Fit.call args kw ⟨p, {}⟩).1 = .ok (.array l)) := by
  rw [(good_evaluate args kw _ (inv_empty p)).1] at h
  rw [(good_call args kw _ (inv_empty p)).1]
  unfold pCall
  rw [h]
  refine ⟨fun x hx => by rw [hx]; rfl, fun hl => ?_⟩
  show Except.ok (unpack l) = _
  match l, hl with
  | [], _ => rfl
  | _ :: _ :: _, _ => rfl

/-! ### Rows without errors -/

/-- C129: if errors are used, then at a row whose error is zero the result is the number of the table. -/
theorem C129_table {p : Params} {args : List Arg} {kw : List (String × Arg)} {l : List ℝ} (h : (Fit.evaluate args kw ⟨p, {}⟩).1 = .ok l) (hu : p.useErrors = true)
    {y e : Fin p.data.n → ℝ} (hy : p.data.col p.dep = some y) (he : p.data.col (p.dep ++ "_err") = some e) {i : Fin p.data.n} (hi : e i = 0)
    {pts : List (List ℝ)} (hpts : asked p.indep args kw = .ok pts) {j : ℕ} {t : List ℝ} (hj : pts[j]? = some t)
    (ht : ∀ a : Fin p.indep.length, ∀ x, p.data.col (p.indep.get a) = some x → t[(a : ℕ)]? = some (x i)) : l[j]? = some (y i) := by
  obtain ⟨X, y', σ, k, f, pts', hX, hy', hσ, _, _, hf, ha, hl⟩ := C129_value h
  rw [hy] at hy'
  cases hy'
  rw [hpts] at ha
  cases ha
  obtain ⟨e', he', hσ⟩ := hσ hu
  rw [he] at he'
  cases he'
  have h0 : σ i = 0 := by rw [hσ, hi, zero_div]
  have h1 := C129_through hf h0
  rw [hl, List.getElem?_map, hj]
  show some _ = some _
  congr 1
  have h2 : (fun a : Fin p.indep.length => std (fun i => X i a) (t.getD a 0)) = fun a => std (fun i => X i a) (X i a) := by
    funext a
    have := ht a _ (hX a)
    simp [List.getD, this]
  dsimp only
  rw [h2, h1]
  unfold std
  have := (spread_pos y).ne'
  field_simp
  ring

/-! ### Several dependent variables -/

theorem makeFits_spec {p : Params} : ∀ {l : List (String × List ℝ)} {fs : List (String × Fit)}, makeFits p l = .ok fs →
    fs.length = l.length ∧ ∀ (j : ℕ) (d : String) (t : List ℝ), l[j]? = some (d, t) → ∃ f, fs[j]? = some (d, f) ∧ init { p with dep := d, theta := t } = .ok f
  | [], fs, h => by cases h; exact ⟨rfl, by simp⟩
  | (dep, theta) :: rest, fs, h => by
    unfold makeFits at h
    obtain ⟨f, h1, h⟩ := bind_ok h
    obtain ⟨gs, h2, h⟩ := bind_ok h
    cases h
    obtain ⟨h3, h4⟩ := makeFits_spec h2
    refine ⟨by simp [h3], fun j d t hj => ?_⟩
    cases j with
    | zero => simp only [List.getElem?_cons_zero, Option.some.injEq, Prod.mk.injEq] at hj; obtain ⟨rfl, rfl⟩ := hj; exact ⟨f, rfl, h1⟩
    | succ j => simp only [List.getElem?_cons_succ] at hj ⊢; exact h4 j d t hj

theorem lookup_last {α : Type} : ∀ {l : List (String × α)} {j : ℕ} {d : String} {f : α}, l[j]? = some (d, f) → (∀ k, j < k → ∀ g, l[k]? ≠ some (d, g)) →
    l.reverse.lookup d = some f
  | [], j, d, f, h, _ => by simp at h
  | e :: l, j, d, f, h, hl => by
    rw [List.reverse_cons, List.lookup_append]
    cases j with
    | zero =>
      simp only [List.getElem?_cons_zero, Option.some.injEq] at h
      subst h
      have : l.reverse.lookup d = none := by
        rw [List.lookup_eq_none_iff]
        intro q hq
        rw [List.mem_reverse] at hq
        obtain ⟨k, hk, rfl⟩ := List.mem_iff_getElem.1 hq
        have := hl (k + 1) (by omega) l[k].2
        rw [List.getElem?_cons_succ, List.getElem?_eq_getElem hk] at this
        simp only [ne_eq, bne_iff_ne]
        rintro rfl
        exact this rfl
      rw [this]
      simp
    | succ j =>
      rw [List.getElem?_cons_succ] at h
      rw [lookup_last h fun k hk g => by
        have := hl (k + 1) (by omega) g
        rwa [List.getElem?_cons_succ] at this]
      rfl

/-- C129: a set gives for each of its names what an object of its own gives. -/
theorem C129_set {p : Params} {deps : List String} {thetas : List (List ℝ)} {S : FitSet} (h : initSet p deps thetas = .ok S) (hd : deps.Nodup)
    (args : List Arg) (kw : List (String × Arg)) :
    deps.length = thetas.length ∧
    (∀ (j : ℕ) (d : String) (t : List ℝ), deps[j]? = some d → thetas[j]? = some t → ∃ f, init { p with dep := d, theta := t } = .ok f ∧
      S.call (.one d) args kw = (Fit.call args kw f).1.map fun o => [o]) ∧
    (∀ d, d ∉ deps → S.call (.one d) args kw = .error .keyError) ∧
    (∀ r, S.call .all args kw = .ok r → r.length = deps.length ∧
      ∀ (j : ℕ) (d : String) (t : List ℝ) (f : Fit), deps[j]? = some d → thetas[j]? = some t → init { p with dep := d, theta := t } = .ok f →
        ∃ o, r[j]? = some o ∧ (Fit.call args kw f).1 = .ok o) := by
  unfold initSet at h
  split_ifs at h with hlen
  push Not at hlen
  obtain ⟨fs, hfs, h⟩ := bind_ok h
  cases h
  obtain ⟨h1, h2⟩ := makeFits_spec hfs
  have hzip : ∀ (j : ℕ) (d : String) (t : List ℝ), deps[j]? = some d → thetas[j]? = some t → (deps.zip thetas)[j]? = some (d, t) := by
    intro j d t hj ht
    rw [List.getElem?_zip_eq_some]
    exact ⟨hj, ht⟩
  have hlook : ∀ (j : ℕ) (d : String) (t : List ℝ), deps[j]? = some d → thetas[j]? = some t → ∃ f, fs.reverse.lookup d = some f ∧ init { p with dep := d, theta := t } = .ok f := by
    intro j d t hj ht
    obtain ⟨f, hf, hi⟩ := h2 j d t (hzip j d t hj ht)
    refine ⟨f, lookup_last hf fun k hk g hg => ?_, hi⟩
    have hk' : k < fs.length := (List.getElem?_eq_some_iff.1 hg).1
    rw [h1, List.length_zip, ← hlen, min_self] at hk'
    have hz := hzip k deps[k] thetas[k] (List.getElem?_eq_getElem hk') (List.getElem?_eq_getElem (hlen ▸ hk'))
    obtain ⟨f', hf', _⟩ := h2 k _ _ hz
    rw [hg] at hf'
    simp only [Option.some.injEq, Prod.mk.injEq] at hf'
    have hjd : j < deps.length := (List.getElem?_eq_some_iff.1 hj).1
    have : deps[j] = deps[k] := by
      rw [← hf'.1]
      exact (List.getElem?_eq_some_iff.1 hj).2
    have := (List.Nodup.getElem_inj_iff hd).1 this
    omega
  refine ⟨hlen, ?_, ?_, ?_⟩
  · intro j d t hj ht
    obtain ⟨f, hf, hi⟩ := hlook j d t hj ht
    refine ⟨f, hi, ?_⟩
    unfold FitSet.call
    dsimp only
    rw [hf]
  · intro d hnd
    unfold FitSet.call
    dsimp only
    have : fs.reverse.lookup d = none := by
      rw [List.lookup_eq_none_iff]
      intro q hq
      rw [List.mem_reverse] at hq
      obtain ⟨k, hk, rfl⟩ := List.mem_iff_getElem.1 hq
      have hk' := hk
      rw [h1, List.length_zip, ← hlen, min_self] at hk'
      have hz := hzip k deps[k] thetas[k] (List.getElem?_eq_getElem hk') (List.getElem?_eq_getElem (hlen ▸ hk'))
      obtain ⟨f', hf', _⟩ := h2 k _ _ hz
      rw [List.getElem?_eq_getElem hk] at hf'
      simp only [Option.some.injEq] at hf'
      rw [hf']
      simp only [bne_iff_ne, ne_eq]
      rintro rfl
      exact hnd (List.getElem_mem hk')
    rw [this]
    rfl
  · intro r hr
    unfold FitSet.call at hr
    dsimp only at hr
    refine ⟨mapM_length hr, fun j d t f hj ht hi => ?_⟩
    obtain ⟨f', hf', hi'⟩ := hlook j d t hj ht
    rw [hi] at hi'
    cases hi'
    have key : ∀ {l : List String} {r : List Out} {g : String → Except Err Out}, l.mapM g = .ok r → ∀ (j : ℕ) d, l[j]? = some d → ∃ o, r[j]? = some o ∧ g d = .ok o := by
      intro l
      induction l with
      | nil => intro r g _ j d h; simp at h
      | cons a l ih =>
        intro r g h j d hj
        rw [List.mapM_cons] at h
        obtain ⟨b, hb, h⟩ := bind_ok h
        obtain ⟨bs, hbs, h⟩ := bind_ok h
        cases h
        cases j with
        | zero => simp only [List.getElem?_cons_zero, Option.some.injEq] at hj; subst hj; exact ⟨b, rfl, hb⟩
        | succ j => simp only [List.getElem?_cons_succ] at hj ⊢; exact ih hbs j d hj
    obtain ⟨o, ho, ho'⟩ := key hr j d hj
    refine ⟨o, ho, ?_⟩
    rw [hf'] at ho'
    exact ho'

end

end Verif.SimFit
