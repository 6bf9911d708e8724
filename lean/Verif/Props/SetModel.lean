import Verif.Model.SetModel
import Mathlib.Data.List.Nodup
import Mathlib.Tactic.Linarith
import Mathlib.Tactic.NormNum

/-!
# C145: setting the model of a fit

After the model of a fit has been set, it is of the right class, it has every option of the parameter file, the rest is what it had, its range of `k`
reaches over the range of the data, and it is the one that gets the parameters of the fit.  A model that was not handed over is not touched.
-/

namespace Verif.SetModel

open Classical

variable {Cls : Type}

/-- What the model is made from: the defaults, what is in the file, the object that is handed over -/
def Source (E : Env Cls) (h : List (Obj Cls)) : Value → Obj Cls → Prop
  | .none, o => o = ⟨E.own, E.defaults⟩
  | .file p, o => E.load p = .ok o
  | .inst r, o => h[r]? = some o
  | .other, _ => False

/-- The range of `k` of the model reaches over that of the data -/
def Reaches (g : Given) (o : Obj Cls) : Prop :=
  (∀ a, g.kmin = some a → ∃ a', o.attr "kmin" = .num a' ∧ a' ≤ a) ∧ (∀ b, g.kmax = some b → ∃ b', o.attr "kmax" = .num b' ∧ b ≤ b')

/-! ### Dictionaries and `update` -/

theorem look_put_self (k : String) (v : V) : ∀ l : List (String × V), look k (put k v l) = some v
  | [] => by simp [put, look]
  | (k', v') :: l => by
    by_cases h : k' = k
    · simp [put, look, h]
    · simp [put, look, h, look_put_self k v l]

theorem look_put_ne {k k' : String} (hk : k ≠ k') (v : V) : ∀ l : List (String × V), look k' (put k v l) = look k' l
  | [] => by simp [put, look, hk]
  | (k'', v') :: l => by
    by_cases h : k'' = k
    · subst h; simp [put, look, hk]
    · by_cases h2 : k'' = k'
      · subst h2; simp [put, look, h]
      · simp [put, look, h, h2, look_put_ne hk v l]

theorem put_keys (k : String) (v : V) : ∀ l : List (String × V), (l.map Prod.fst).Nodup → ((put k v l).map Prod.fst).Nodup ∧
    ∀ k', k' ∈ (put k v l).map Prod.fst ↔ k' = k ∨ k' ∈ l.map Prod.fst
  | [], _ => by simp [put]
  | (k'', v') :: l, h => by
    have h' := (List.nodup_cons.mp (by simpa only [List.map_cons] using h))
    obtain ⟨i1, i2⟩ := put_keys k v l h'.2
    by_cases hk : k'' = k
    · subst hk
      refine ⟨by simpa [put] using h, fun k' => ?_⟩
      simp [put]
    · refine ⟨?_, fun k' => ?_⟩
      · simp only [put, if_neg hk, List.map_cons, List.nodup_cons]
        refine ⟨fun hm => ?_, i1⟩
        rcases (i2 k'').mp hm with h1 | h1
        · exact hk h1
        · exact h'.1 h1
      · simp only [put, if_neg hk, List.map_cons, List.mem_cons, i2 k']
        tauto

theorem look_mem {k : String} {v : V} : ∀ {l : List (String × V)}, look k l = some v → (k, v) ∈ l
  | [], h => by simp [look] at h
  | (k', v') :: l, h => by
    by_cases hk : k' = k
    · subst hk; simp [look] at h; simp [h]
    · simp [look, hk] at h; exact List.mem_cons_of_mem _ (look_mem h)

theorem mem_look {k : String} {v : V} : ∀ {l : List (String × V)}, (l.map Prod.fst).Nodup → (k, v) ∈ l → look k l = some v
  | [], _, h => by simp at h
  | (k', v') :: l, hn, h => by
    have h' := (List.nodup_cons.mp (by simpa only [List.map_cons] using hn))
    rcases List.mem_cons.mp h with h1 | h1
    · simp only [Prod.mk.injEq] at h1; simp [look, h1.1, h1.2]
    · have : k' ≠ k := by
        rintro rfl
        exact h'.1 (List.mem_map.mpr ⟨_, h1, rfl⟩)
      simp [look, this, mem_look h'.2 h1]

theorem look_none {k : String} : ∀ {l : List (String × V)}, look k l = none ↔ k ∉ l.map Prod.fst
  | [] => by simp [look]
  | (k', v') :: l => by
    by_cases hk : k' = k
    · simp [look, hk]
    · have hk' : ¬ k = k' := fun h => hk h.symm
      simp [look, hk, hk', look_none (k := k) (l := l)]

theorem update_ok {acc : Cls → String → V → Bool} : ∀ {l : List (String × V)} {o o' : Obj Cls}, (l.map Prod.fst).Nodup → Obj.update acc o l = (o', none) →
    o'.cls = o.cls ∧ ∀ k, o'.attr k = (look k l).getD (o.attr k)
  | [], o, o', _, h => by
    simp only [Obj.update, Prod.mk.injEq] at h
    obtain ⟨rfl, _⟩ := h
    simp [look]
  | (k', v') :: l, o, o', hn, h => by
    have h' := (List.nodup_cons.mp (by simpa only [List.map_cons] using hn))
    simp only [Obj.update] at h
    split_ifs at h with ha
    · obtain ⟨i1, i2⟩ := update_ok h'.2 h
      refine ⟨i1, fun k => ?_⟩
      rw [i2 k]
      by_cases hk : k' = k
      · subst hk
        rw [look_none.mpr h'.1]
        simp [look, Obj.set]
      · have hk' : ¬ k = k' := fun h => hk h.symm
        simp [look, hk, Obj.set, hk']
    · simp at h

theorem update_cls {acc : Cls → String → V → Bool} : ∀ {l : List (String × V)} {o : Obj Cls}, (Obj.update acc o l).1.cls = o.cls
  | [], o => rfl
  | (k', v') :: l, o => by
    simp only [Obj.update]
    split_ifs
    · rw [update_cls]; rfl
    · rfl

/-! ### The keywords for the model -/

theorem lower_spec {x : Option ℝ} {kw kw' : List (String × V)} (hn : (kw.map Prod.fst).Nodup) (h : lower x kw = .ok kw') :
    (kw'.map Prod.fst).Nodup ∧ (∀ k, k ≠ "kmin" → look k kw' = look k kw) ∧
      (x = none → kw' = kw) ∧
      (∀ a, x = some a → ∃ a', look "kmin" kw' = some (.num a') ∧ a' ≤ a ∧ (a' = a ∨ look "kmin" kw = some (.num a')) ∧ ∀ y, look "kmin" kw = some (.num y) → a' ≤ y) := by
  unfold lower at h
  cases x with
  | none => simp at h; subst h; exact ⟨hn, fun _ _ => rfl, fun _ => rfl, by simp⟩
  | some x =>
    dsimp only at h
    have hput : ((put "kmin" (.num x) kw).map Prod.fst).Nodup ∧ ∀ k, k ≠ "kmin" → look k (put "kmin" (.num x) kw) = look k kw :=
      ⟨(put_keys _ _ _ hn).1, fun k hk => look_put_ne (Ne.symm hk) _ _⟩
    cases hl : look "kmin" kw with
    | none =>
      simp only [hl, Except.ok.injEq] at h
      subst h
      exact ⟨hput.1, hput.2, by simp, fun a ha => ⟨x, look_put_self _ _ _, by simp at ha; exact ha.le, by simp at ha; exact Or.inl ha, by simp⟩⟩
    | some v =>
      cases v with
      | num y =>
        simp only [hl, Except.ok.injEq] at h
        split_ifs at h with hxy
        · subst h
          refine ⟨hput.1, hput.2, by simp, fun a ha => ⟨x, look_put_self _ _ _, by simp at ha; exact ha.le, by simp at ha; exact Or.inl ha, ?_⟩⟩
          intro z hz
          simp at hz; subst hz; exact hxy.le
        · subst h
          refine ⟨hn, fun _ _ => rfl, by simp, fun a ha => ⟨y, hl, ?_, Or.inr rfl, ?_⟩⟩
          · simp at ha; subst ha; exact not_lt.mp hxy
          · intro z hz; simp at hz; exact hz.le
      | none => simp [hl] at h
      | other n => simp [hl] at h

theorem upper_spec {x : Option ℝ} {kw kw' : List (String × V)} (hn : (kw.map Prod.fst).Nodup) (h : upper x kw = .ok kw') :
    (kw'.map Prod.fst).Nodup ∧ (∀ k, k ≠ "kmax" → look k kw' = look k kw) ∧
      (x = none → kw' = kw) ∧
      (∀ a, x = some a → ∃ a', look "kmax" kw' = some (.num a') ∧ a ≤ a' ∧ (a' = a ∨ look "kmax" kw = some (.num a')) ∧ ∀ y, look "kmax" kw = some (.num y) → y ≤ a') := by
  unfold upper at h
  cases x with
  | none => simp at h; subst h; exact ⟨hn, fun _ _ => rfl, fun _ => rfl, by simp⟩
  | some x =>
    dsimp only at h
    have hput : ((put "kmax" (.num x) kw).map Prod.fst).Nodup ∧ ∀ k, k ≠ "kmax" → look k (put "kmax" (.num x) kw) = look k kw :=
      ⟨(put_keys _ _ _ hn).1, fun k hk => look_put_ne (Ne.symm hk) _ _⟩
    cases hl : look "kmax" kw with
    | none =>
      simp only [hl, Except.ok.injEq] at h
      subst h
      exact ⟨hput.1, hput.2, by simp, fun a ha => ⟨x, look_put_self _ _ _, by simp at ha; exact ha.ge, by simp at ha; exact Or.inl ha, by simp⟩⟩
    | some v =>
      cases v with
      | num y =>
        simp only [hl, Except.ok.injEq] at h
        split_ifs at h with hxy
        · subst h
          refine ⟨hput.1, hput.2, by simp, fun a ha => ⟨x, look_put_self _ _ _, by simp at ha; exact ha.ge, by simp at ha; exact Or.inl ha, ?_⟩⟩
          intro z hz
          simp at hz; subst hz; exact hxy.le
        · subst h
          refine ⟨hn, fun _ _ => rfl, by simp, fun a ha => ⟨y, hl, ?_, Or.inr rfl, ?_⟩⟩
          · simp at ha; subst ha; exact not_lt.mp hxy
          · intro z hz; simp at hz; exact hz.ge
      | none => simp [hl] at h
      | other n => simp [hl] at h

/-! ### What was set -/

theorem finish_ok {E : Env Cls} {h : List (Obj Cls)} {t t' : Theory} (hf : finish E h t = (t', none)) :
    ∃ o, predictor h t = some o ∧ E.isa o.cls = true ∧ t'.model = t.model ∧ (t.fitModel.isSome → t'.fitModel = t.model) ∧ (t.fitModel = none → t'.fitModel = none) ∧
      t'.asked = t.asked ∧ t'.grad = t.grad := by
  unfold finish at hf
  unfold predictor
  cases ho : t.model.bind (h[·]?) with
  | none => simp [ho] at hf
  | some o =>
    simp only [ho] at hf
    split_ifs at hf with h1 h2
    · simp only [Prod.mk.injEq, and_true] at hf; subst hf
      exact ⟨o, rfl, h1, rfl, fun _ => rfl, fun h => by simp [h] at h2, rfl, rfl⟩
    · simp only [Prod.mk.injEq, and_true] at hf; subst hf
      exact ⟨o, rfl, h1, rfl, fun h => absurd h h2, fun h => h, rfl, rfl⟩
    · simp at hf

theorem setModel_ok {E : Env Cls} {g : Given} {h h' : List (Obj Cls)} {t t' : Theory} {v : Value} (hp : (g.params.map Prod.fst).Nodup)
    (hs : setModel E g h t v = (h', t', none)) :
    ∃ kw src o, kwargs g = .ok kw ∧ Source E h v src ∧ predictor h' t' = some o ∧ E.isa o.cls = true ∧ Obj.update E.accepts src kw = (o, none) ∧
      (t.fitModel.isSome → t'.fitModel = t'.model) ∧ (t.fitModel = none → t'.fitModel = none) ∧ t'.asked = t.asked ∧ t'.grad = t.grad := by
  unfold setModel at hs
  cases hk : kwargs g with
  | error e => simp [hk] at hs
  | ok kw =>
    simp only [hk] at hs
    have assign : ∀ (h0 : List (Obj Cls)) (r : ℕ) (src : Obj Cls), h0[r]? = some src → assignUpdate E kw h0 t r src = (h', t', none) →
        ∃ o, predictor h' t' = some o ∧ E.isa o.cls = true ∧ Obj.update E.accepts src kw = (o, none) ∧
      (t.fitModel.isSome → t'.fitModel = t'.model) ∧ (t.fitModel = none → t'.fitModel = none) ∧ t'.asked = t.asked ∧ t'.grad = t.grad := by
      intro h0 r src hr ha
      unfold assignUpdate at ha
      rcases hu : Obj.update E.accepts src kw with ⟨o', _ | e⟩
      · simp only [hu, Prod.mk.injEq] at ha
        obtain ⟨rfl, hf⟩ := ha
        obtain ⟨o, h1, h2, h3, h4, h5, h6, h7⟩ := finish_ok (t' := t') (by rw [← hf])
        have hr' : r < h0.length := by
          by_contra hc
          rw [List.getElem?_eq_none (by omega)] at hr; cases hr
        have ho : o = o' := by
          simp only [predictor, Option.bind_some, List.getElem?_set_self hr', Option.some.injEq] at h1
          exact h1.symm
        subst ho
        refine ⟨o, ?_, h2, rfl, ?_, h5, h6, h7⟩
        · simp only [predictor] at h1 ⊢; rw [h3]; exact h1
        · intro hh; rw [h4 hh, h3]
      · simp [hu] at ha
    cases v with
    | none =>
      dsimp only at hs
      cases hc : construct E kw with
      | error e => simp [hc] at hs
      | ok o =>
        simp only [hc, Prod.mk.injEq] at hs
        obtain ⟨rfl, hf⟩ := hs
        obtain ⟨o1, h1, h2, h3, h4, h5, h6, h7⟩ := finish_ok (t' := t') (by rw [← hf])
        have ho : o1 = o := by simp [predictor] at h1; exact h1.symm
        subst ho
        refine ⟨kw, ⟨E.own, E.defaults⟩, o1, rfl, rfl, ?_, h2, ?_, ?_, h5, h6, h7⟩
        · simp only [predictor] at h1 ⊢; rw [h3]; exact h1
        · unfold construct at hc
          rcases hu : Obj.update E.accepts ⟨E.own, E.defaults⟩ kw with ⟨o', _ | e⟩
          · simp [hu] at hc; rw [hc]
          · simp [hu] at hc
        · intro hh; rw [h4 hh, h3]
    | file p =>
      dsimp only at hs
      cases hl : E.load p with
      | error e => simp [hl] at hs
      | ok o =>
        simp only [hl] at hs
        obtain ⟨o', h1, h2, h3, h4⟩ := assign _ _ _ (by simp) hs
        exact ⟨kw, o, o', rfl, hl, h1, h2, h3, h4⟩
    | inst r =>
      dsimp only at hs
      cases hr : h[r]? with
      | none => simp [hr] at hs
      | some o =>
        simp only [hr] at hs
        split_ifs at hs with hi
        · obtain ⟨o', h1, h2, h3, h4⟩ := assign _ _ _ hr hs
          exact ⟨kw, o, o', rfl, hr, h1, h2, h3, h4⟩
        · simp at hs
    | other => simp at hs

theorem kwargs_spec {g : Given} {kw : List (String × V)} (hp : (g.params.map Prod.fst).Nodup) (hk : kwargs g = .ok kw) :
    (kw.map Prod.fst).Nodup ∧ (∀ k, k ≠ "kmin" → k ≠ "kmax" → look k kw = look k g.params) ∧
      (g.kmin = none → look "kmin" kw = look "kmin" g.params) ∧ (g.kmax = none → look "kmax" kw = look "kmax" g.params) ∧
      (∀ a, g.kmin = some a → ∃ a', look "kmin" kw = some (.num a') ∧ a' ≤ a ∧ (a' = a ∨ look "kmin" g.params = some (.num a')) ∧ ∀ y, look "kmin" g.params = some (.num y) → a' ≤ y) ∧
      (∀ b, g.kmax = some b → ∃ b', look "kmax" kw = some (.num b') ∧ b ≤ b' ∧ (b' = b ∨ look "kmax" g.params = some (.num b')) ∧ ∀ y, look "kmax" g.params = some (.num y) → y ≤ b') := by
  unfold kwargs at hk
  cases hl : lower g.kmin g.params with
  | error e => simp [hl] at hk
  | ok kw1 =>
    simp only [hl] at hk
    obtain ⟨a1, a2, a3, a4⟩ := lower_spec hp hl
    obtain ⟨b1, b2, b3, b4⟩ := upper_spec a1 hk
    refine ⟨b1, fun k h1 h2 => by rw [b2 k h2, a2 k h1], fun h => by rw [b2 _ (by decide), a3 h], fun h => by rw [b3 h, a2 _ (by decide)], ?_, ?_⟩
    · intro a ha; rw [b2 "kmin" (by decide)]; exact a4 a ha
    · intro b hb; have := b4 b hb; rwa [a2 "kmax" (by decide)] at this

/-- C145: when a model has been set (a new one, one from a file, one that is handed over), it is of the right class; it has the options of the parameter file, and for
the rest what it had before; and it is the model that gets the parameters of the fit. -/
theorem C145_set {E : Env Cls} {g : Given} {h h' : List (Obj Cls)} {t t' : Theory} {v : Value} (hp : (g.params.map Prod.fst).Nodup)
    (hs : setModel E g h t v = (h', t', none)) :
    ∃ src o, Source E h v src ∧ predictor h' t' = some o ∧ o.cls = src.cls ∧ E.isa o.cls = true ∧
      (∀ k x, k ≠ "kmin" → k ≠ "kmax" → (k, x) ∈ g.params → o.attr k = x) ∧
      (∀ k, k ≠ "kmin" → k ≠ "kmax" → (∀ x, (k, x) ∉ g.params) → o.attr k = src.attr k) ∧
      (t.fitModel.isSome → t'.fitModel = t'.model) := by
  obtain ⟨kw, src, o, hk, h1, h2, h3, h4, h5, -⟩ := setModel_ok hp hs
  obtain ⟨k1, k2, -⟩ := kwargs_spec hp hk
  obtain ⟨u1, u2⟩ := update_ok k1 h4
  refine ⟨src, o, h1, h2, u1, h3, ?_, ?_, h5⟩
  · intro k x ha hb hm
    rw [u2, k2 k ha hb, mem_look hp hm]; rfl
  · intro k ha hb hm
    have : look k g.params = none := by
      cases hl : look k g.params with
      | none => rfl
      | some x => exact absurd (look_mem hl) (hm x)
    rw [u2, k2 k ha hb, this]; rfl

/-- C145: whatever model is set, its range of `k` reaches over the range of the data, and over the range which the parameter file asks for. -/
theorem C145_range {E : Env Cls} {g : Given} {h h' : List (Obj Cls)} {t t' : Theory} {v : Value} (hp : (g.params.map Prod.fst).Nodup)
    (hs : setModel E g h t v = (h', t', none)) :
    ∃ o, predictor h' t' = some o ∧ Reaches g o ∧
      (∀ a y, g.kmin = some a → ("kmin", V.num y) ∈ g.params → o.attr "kmin" = .num (min a y)) ∧
      (∀ b y, g.kmax = some b → ("kmax", V.num y) ∈ g.params → o.attr "kmax" = .num (max b y)) ∧
      (g.kmin = none → ∀ x, ("kmin", x) ∈ g.params → o.attr "kmin" = x) ∧ (g.kmax = none → ∀ x, ("kmax", x) ∈ g.params → o.attr "kmax" = x) := by
  obtain ⟨kw, src, o, hk, h1, h2, h3, h4, -⟩ := setModel_ok hp hs
  obtain ⟨k1, k2, k3, k4, k5, k6⟩ := kwargs_spec hp hk
  obtain ⟨u1, u2⟩ := update_ok k1 h4
  refine ⟨o, h2, ⟨?_, ?_⟩, ?_, ?_, ?_, ?_⟩
  · intro a ha
    obtain ⟨a', l1, l2, -⟩ := k5 a ha
    exact ⟨a', by rw [u2, l1]; rfl, l2⟩
  · intro a ha
    obtain ⟨a', l1, l2, -⟩ := k6 a ha
    exact ⟨a', by rw [u2, l1]; rfl, l2⟩
  · intro a y ha hy
    have hy' := mem_look hp hy
    obtain ⟨a', l1, l2, l3, l4⟩ := k5 a ha
    rw [u2, l1]
    have : a' = min a y := by
      rcases l3 with rfl | l3
      · exact (min_eq_left (l4 y hy')).symm
      · rw [hy'] at l3; simp at l3; subst l3; exact (min_eq_right l2).symm
    rw [this]; rfl
  · intro b y hb hy
    have hy' := mem_look hp hy
    obtain ⟨b', l1, l2, l3, l4⟩ := k6 b hb
    rw [u2, l1]
    have : b' = max b y := by
      rcases l3 with rfl | l3
      · exact (max_eq_left (l4 y hy')).symm
      · rw [hy'] at l3; simp at l3; subst l3; exact (max_eq_right l2).symm
    rw [this]; rfl
  · intro hn x hx
    rw [u2, k3 hn, mem_look hp hx]; rfl
  · intro hn x hx
    rw [u2, k4 hn, mem_look hp hx]; rfl

/-! ### What is not touched -/

/-- C145: setting a model, even one that is refused, does not touch any other model of the process. -/
theorem C145_others (E : Env Cls) (g : Given) (h : List (Obj Cls)) (t : Theory) (v : Value) {i : ℕ} {o : Obj Cls} (hi : h[i]? = some o)
    (hv : v ≠ .inst i) : (setModel E g h t v).1[i]? = some o := by
  have hlt : i < h.length := by
    by_contra hc
    rw [List.getElem?_eq_none (by omega)] at hi; cases hi
  have happ : ∀ x : Obj Cls, (h ++ [x])[i]? = some o := fun x => by rw [List.getElem?_append_left hlt]; exact hi
  have hassign : ∀ kw h0 t r src, h0[i]? = some o → r ≠ i → (assignUpdate E kw h0 t r src).1[i]? = some o := by
    intro kw h0 t r src h1 hr
    unfold assignUpdate
    rcases hu : Obj.update E.accepts src kw with ⟨o', _ | e⟩ <;> simp [List.getElem?_set_ne hr, h1]
  unfold setModel
  cases kwargs g with
  | error e => exact hi
  | ok kw =>
    cases v with
    | none =>
      dsimp only
      cases construct E kw with
      | error e => exact hi
      | ok x => exact happ x
    | file p =>
      dsimp only
      cases E.load p with
      | error e => exact hi
      | ok x => exact hassign _ _ _ _ _ (happ x) (by omega)
    | inst r =>
      dsimp only
      have hr : r ≠ i := fun he => hv (by rw [he])
      cases h[r]? with
      | none => exact hi
      | some x =>
        dsimp only
        split_ifs
        · exact hassign _ _ _ _ _ hi hr
        · exact hi
    | other => exact hi

/-- C145: a model that can't be made, a file that can't be read, an object of another class or anything else is refused, and the theory and all models are what
they were (a file with another kind of model: `C145_wrong_file_counterexample`). -/
theorem C145_refused_partial (E : Env Cls) (hE : E.isa E.own = true) (g : Given) (h : List (Obj Cls)) (t : Theory) (v : Value)
    (hv : match v with
      | .none => True
      | .file p => ∃ e, E.load p = .error e
      | .inst r => ∀ o, h[r]? = some o → E.isa o.cls = false
      | .other => True) :
    (∃ e, setModel E g h t v = (h, t, some e)) ∨ (v = .none ∧ ∃ h' t', setModel E g h t v = (h', t', none)) := by
  unfold setModel
  cases kwargs g with
  | error e => exact Or.inl ⟨e, rfl⟩
  | ok kw =>
    cases v with
    | none =>
      dsimp only
      cases hc : construct E kw with
      | error e => exact Or.inl ⟨e, rfl⟩
      | ok x =>
        refine Or.inr ⟨rfl, ?_⟩
        have hx : x.cls = E.own := by
          unfold construct at hc
          have := update_cls (acc := E.accepts) (l := kw) (o := ⟨E.own, E.defaults⟩)
          rcases hu : Obj.update E.accepts ⟨E.own, E.defaults⟩ kw with ⟨o', _ | e⟩
          · simp [hu] at hc this; rw [← hc, this]
          · simp [hu] at hc
        refine ⟨h ++ [x], if t.fitModel.isSome then { t with model := some h.length, fitModel := some h.length } else { t with model := some h.length }, ?_⟩
        simp [finish, hx, hE]
    | file p => obtain ⟨e, he⟩ := hv; exact Or.inl ⟨e, by simp [he]⟩
    | inst r =>
      dsimp only at hv ⊢
      cases hr : h[r]? with
      | none => exact Or.inl ⟨_, rfl⟩
      | some x => exact Or.inl ⟨.configuration, by simp [hv x hr]⟩
    | other => exact Or.inl ⟨_, rfl⟩

/-! ### The parameters of the fit -/

/-- A theory that is in use: its model is there, and the parameters of the fit go to it -/
def Live (h : List (Obj Cls)) (t : Theory) : Prop := t.fitModel = t.model ∧ ∃ o, predictor h t = some o

/-- C145: a theory that is made, and one whose model is set, is in use. -/
theorem C145_create {E : Env Cls} {g : Given} {h h' : List (Obj Cls)} {t : Theory} {v : Value} (hp : (g.params.map Prod.fst).Nodup)
    (hc : create E g h v = (h', .ok t)) : Live h' t ∧ t.asked = t.model ∧ t.grad = none ∧ ∃ o, predictor h' t = some o ∧ E.isa o.cls = true ∧ Reaches g o := by
  unfold create at hc
  obtain ⟨⟨h1, t1, e⟩, hs⟩ : ∃ r, r = setModel E g h ⟨none, none, none, none⟩ v := ⟨_, rfl⟩
  rw [← hs] at hc
  cases e with
  | some e => simp at hc
  | none =>
    simp only [Prod.mk.injEq, Except.ok.injEq] at hc
    obtain ⟨rfl, rfl⟩ := hc
    obtain ⟨kw, src, o, -, -, h2, h3, -, -, -, -, h4⟩ := setModel_ok hp hs.symm
    obtain ⟨o', h5, h6, -⟩ := C145_range hp hs.symm
    rw [h2] at h5
    obtain rfl := Option.some.inj h5
    exact ⟨⟨rfl, o, h2⟩, rfl, h4, o, h2, h3, h6⟩

theorem C145_set_live {E : Env Cls} {g : Given} {h h' : List (Obj Cls)} {t t' : Theory} {v : Value} (hp : (g.params.map Prod.fst).Nodup)
    (hl : Live h t) (hs : setModel E g h t v = (h', t', none)) : Live h' t' := by
  obtain ⟨kw, src, o, -, -, h2, -, -, h4, -⟩ := setModel_ok hp hs
  refine ⟨h4 ?_, o, h2⟩
  rw [hl.1]
  obtain ⟨-, o', ho'⟩ := hl
  unfold predictor at ho'
  cases hm : t.model with
  | none => rw [hm] at ho'; cases ho'
  | some r => rfl

/-- C145: when values of the parameters have been set on a theory in use, the model of the predictions has them all, and for the rest what it had; so the range of
`k` is still the same. -/
theorem C145_fit {E : Env Cls} {h h' : List (Obj Cls)} {t : Theory} (hl : Live h t) {fit : List (String × V)} (hn : (fit.map Prod.fst).Nodup)
    (hs : setFree E h t fit = (h', none)) :
    ∃ o o', predictor h t = some o ∧ predictor h' t = some o' ∧ o'.cls = o.cls ∧ (∀ k x, (k, x) ∈ fit → o'.attr k = x) ∧
      (∀ k, (∀ x, (k, x) ∉ fit) → o'.attr k = o.attr k) ∧ Live h' t := by
  obtain ⟨hm, o, ho⟩ := hl
  unfold setFree at hs
  rw [hm] at hs
  unfold predictor at ho
  cases hr : t.model with
  | none => rw [hr] at ho; cases ho
  | some r =>
    rw [hr] at ho hs
    simp only [Option.bind_some] at ho
    simp only [ho, Prod.mk.injEq] at hs
    obtain ⟨rfl, hu⟩ := hs
    have hlt : r < h.length := by
      by_contra hc
      rw [List.getElem?_eq_none (by omega)] at ho; cases ho
    have hpair : Obj.update E.accepts o fit = ((Obj.update E.accepts o fit).1, none) := Prod.ext rfl hu
    obtain ⟨u1, u2⟩ := update_ok hn hpair
    have hp' : predictor (h.set r (Obj.update E.accepts o fit).1) t = some (Obj.update E.accepts o fit).1 := by
      simp [predictor, hr, List.getElem?_set_self hlt]
    refine ⟨o, _, by simp [predictor, hr, ho], hp', u1, ?_, ?_, hm, _, hp'⟩
    · intro k x hx
      rw [u2, mem_look hn hx]; rfl
    · intro k hx
      have : look k fit = none := by
        cases hl : look k fit with
        | none => rfl
        | some x => exact absurd (look_mem hl) (hx x)
      rw [u2, this]; rfl

/-- C145: with a new model, and values of the parameters, the predictions are made with the same model whatever was done before: after any two histories
the models have the same attributes. -/
theorem C145_new_history {E : Env Cls} {g : Given} (hp : (g.params.map Prod.fst).Nodup) {fit : List (String × V)} (hn : (fit.map Prod.fst).Nodup)
    {h₁ h₁' h₁'' h₂ h₂' h₂'' : List (Obj Cls)} {t₁ t₁' t₂ t₂' : Theory} (hl₁ : Live h₁ t₁) (hl₂ : Live h₂ t₂)
    (hs₁ : setModel E g h₁ t₁ .none = (h₁', t₁', none)) (hs₂ : setModel E g h₂ t₂ .none = (h₂', t₂', none))
    (hf₁ : setFree E h₁' t₁' fit = (h₁'', none)) (hf₂ : setFree E h₂' t₂' fit = (h₂'', none)) :
    ∃ o₁ o₂, predictor h₁'' t₁' = some o₁ ∧ predictor h₂'' t₂' = some o₂ ∧ o₁.cls = o₂.cls ∧ o₁.attr = o₂.attr := by
  obtain ⟨kw, src, o, hk, h1, h2, h3, h4, -⟩ := setModel_ok hp hs₁
  obtain ⟨kw', src', o', hk', h1', h2', h3', h4', -⟩ := setModel_ok hp hs₂
  rw [hk] at hk'
  obtain rfl := Except.ok.inj hk'
  simp only [Source] at h1 h1'
  subst h1 h1'
  rw [h4] at h4'
  simp only [Prod.mk.injEq, and_true] at h4'
  subst h4'
  obtain ⟨a, b, c1, c2, c3, c4, c5, -⟩ := C145_fit (C145_set_live hp hl₁ hs₁) hn hf₁
  obtain ⟨a', b', d1, d2, d3, d4, d5, -⟩ := C145_fit (C145_set_live hp hl₂ hs₂) hn hf₂
  rw [h2] at c1
  rw [h2'] at d1
  obtain rfl := Option.some.inj c1
  obtain rfl := Option.some.inj d1
  refine ⟨b, b', c2, d2, by rw [c3, d3], funext fun k => ?_⟩
  by_cases hx : ∃ x, (k, x) ∈ fit
  · obtain ⟨x, hx⟩ := hx
    rw [c4 k x hx, d4 k x hx]
  · push Not at hx
    rw [c5 k hx, d5 k hx]

/-! ### The gradient and the constraints -/

theorem setModel_grad (E : Env Cls) (g : Given) (h : List (Obj Cls)) (t : Theory) (v : Value) :
    (setModel E g h t v).2.1.grad = t.grad ∧ (setModel E g h t v).2.1.asked = t.asked := by
  have hfin : ∀ h t, (finish E h t).1.grad = t.grad ∧ (finish E h t).1.asked = t.asked := by
    intro h t
    unfold finish
    cases t.model.bind (h[·]?) with
    | none => exact ⟨rfl, rfl⟩
    | some o => dsimp only; split_ifs <;> exact ⟨rfl, rfl⟩
  have hass : ∀ kw h0 r src, (assignUpdate E kw h0 t r src).2.1.grad = t.grad ∧ (assignUpdate E kw h0 t r src).2.1.asked = t.asked := by
    intro kw h0 r src
    unfold assignUpdate
    rcases hu : Obj.update E.accepts src kw with ⟨o', _ | e⟩
    · exact hfin _ _
    · exact ⟨rfl, rfl⟩
  unfold setModel
  cases kwargs g with
  | error e => exact ⟨rfl, rfl⟩
  | ok kw =>
    cases v with
    | none =>
      dsimp only
      cases construct E kw with
      | error e => exact ⟨rfl, rfl⟩
      | ok x => exact hfin _ _
    | file p =>
      dsimp only
      cases E.load p with
      | error e => exact ⟨rfl, rfl⟩
      | ok x => exact hass _ _ _ _
    | inst r =>
      dsimp only
      cases h[r]? with
      | none => exact ⟨rfl, rfl⟩
      | some x =>
        dsimp only
        split_ifs
        · exact hass _ _ _ _
        · exact ⟨rfl, rfl⟩
    | other => exact ⟨rfl, rfl⟩

/-- C145: before a gradient is taken for the first time, the models can be replaced at will: the gradient is that of the model of the predictions (it is not afterwards:
`C145_gradient_counterexample`). -/
theorem C145_gradient_partial (E : Env Cls) (g : Given) (s : List (Obj Cls) × Theory) (hg : s.2.grad = none) (l : List Op) (hl : ∀ op ∈ l, op ≠ .gradient) :
    gradientOf (run E g s l).1 (run E g s l).2 = predictor (run E g s l).1 (run E g s l).2 := by
  have hrun : (run E g s l).2.grad = none := by
    induction l generalizing s with
    | nil => exact hg
    | cons op l ih =>
      refine ih (step E g s op) ?_ fun op' h => hl op' (List.mem_cons_of_mem _ h)
      cases op with
      | setModel v => rw [← hg]; exact (setModel_grad E g s.1 s.2 v).1
      | setFree fit => exact hg
      | gradient => exact absurd rfl (hl _ List.mem_cons_self)
  simp [gradientOf, useGradient, hrun, predictor]

/-- C145: once a gradient has been taken, every later gradient is of the model of that time, whatever is done. -/
theorem C145_gradient_first (E : Env Cls) (g : Given) (s : List (Obj Cls) × Theory) (hg : s.2.grad = none) {r : ℕ} (hm : s.2.model = some r) (l : List Op) :
    gradientOf (run E g s (.gradient :: l)).1 (run E g s (.gradient :: l)).2 = (run E g s (.gradient :: l)).1[r]? := by
  have hrun : ∀ (l : List Op) (s : List (Obj Cls) × Theory), s.2.grad = some r → (run E g s l).2.grad = some r := by
    intro l
    induction l with
    | nil => exact fun _ h => h
    | cons op l ih =>
      intro s h
      refine ih (step E g s op) ?_
      cases op with
      | setModel v => rw [← h]; exact (setModel_grad E g s.1 s.2 v).1
      | setFree fit => exact h
      | gradient => simp [step, useGradient, h]
  have := hrun l (step E g s .gradient) (by simp [step, useGradient, hg, hm])
  simp only [gradientOf, useGradient]
  have h2 : (run E g s (.gradient :: l)).2.grad = some r := this
  simp [h2]

/-- C145: the constraints go on asking the model the theory was made with, whatever is done. -/
theorem C145_asked (E : Env Cls) (g : Given) (s : List (Obj Cls) × Theory) (l : List Op) : (run E g s l).2.asked = s.2.asked := by
  induction l generalizing s with
  | nil => rfl
  | cons op l ih =>
    refine (ih (step E g s op)).trans ?_
    cases op with
    | setModel v => exact (setModel_grad E g s.1 s.2 v).2
    | setFree fit => rfl
    | gradient => simp only [step, useGradient]; split_ifs <;> rfl

/-! ### Cases, and where it fails -/

/-- Two classes: `true` is that of the theory; any value of an option is taken; the file `q` has a model of the theory, any other file one of another class -/
def env : Env Bool where
  own := true
  isa := id
  accepts := fun _ _ _ => true
  defaults := fun k => if k = "kmin" then .num 1 else if k = "kmax" then .num 9 else .none
  load := fun p => if p = "q" then .ok ⟨true, fun _ => .num 5⟩ else .ok ⟨false, fun _ => .num 5⟩

/-- The file asks for an option; the data are at `k` from 2 to 4 -/
def given : Given := ⟨[("z", .num 3)], some 2, some 4⟩

/-- A case: a theory is made, its model is replaced by one from a file, and the parameters are set; hypotheses of the theorems hold. -/
theorem C145_case : (given.params.map Prod.fst).Nodup ∧ ∃ h t h' t' h'', create env given [] .none = (h, .ok t) ∧ setModel env given h t (.file "q") = (h', t', none) ∧
    setFree env h' t' [("f", .num 7)] = (h'', none) ∧ ∃ o, predictor h'' t' = some o ∧ o.attr "z" = .num 3 ∧ o.attr "f" = .num 7 ∧ o.attr "w" = .num 5 ∧
      o.attr "kmin" = .num 2 ∧ o.attr "kmax" = .num 4 := by
  refine ⟨by simp [given], _, _, _, _, _, rfl, rfl, rfl, _, rfl, ?_⟩
  simp [Obj.set, Obj.update, env, given, kwargs, lower, upper, look, put, List.set]

/-- Not so: a gradient that was taken before is not that of the new model. -/
theorem C145_gradient_counterexample : ∃ h t, create env given [] .none = (h, .ok t) ∧ ∃ h' t' o o',
    run env given (h, t) [.gradient, .setModel (.file "q")] = (h', t') ∧ predictor h' t' = some o ∧ gradientOf h' t' = some o' ∧ o.attr "w" = .num 5 ∧ o'.attr "w" = .none := by
  refine ⟨_, _, rfl, _, _, _, _, rfl, rfl, rfl, ?_⟩
  simp [Obj.set, Obj.update, env, given, kwargs, lower, upper, look, put]

/-- Not so: the constraints do not ask the new model. -/
theorem C145_asked_counterexample : ∃ h t, create env given [] .none = (h, .ok t) ∧ ∃ h' t' o o',
    setModel env given h t (.file "q") = (h', t', none) ∧ predictor h' t' = some o ∧ askedOf h' t' = some o' ∧ o.attr "w" = .num 5 ∧ o'.attr "w" = .none := by
  refine ⟨_, _, rfl, _, _, _, _, rfl, rfl, rfl, ?_⟩
  simp [Obj.set, Obj.update, env, given, kwargs, lower, upper, look, put]

/-- Not so: a file with a model of another class is refused only when it has been set: the theory predicts with it, and the parameters of the fit go to the other. -/
theorem C145_wrong_file_counterexample : ∃ h t, create env given [] .none = (h, .ok t) ∧ ∃ h' t' o,
    setModel env given h t (.file "x") = (h', t', some .value) ∧ predictor h' t' = some o ∧ o.cls = false ∧ t'.fitModel ≠ t'.model := by
  refine ⟨_, _, rfl, _, _, _, rfl, rfl, ?_, ?_⟩
  · rfl
  · decide

/-- Not so: a model that is handed over is narrowed to the range of the data, and another theory which has it no longer reaches over its own data. -/
theorem C145_shared_counterexample : ∃ h t r, create env ⟨[], some 1, some 8⟩ [] .none = (h, .ok t) ∧ t.model = some r ∧ (∃ o, predictor h t = some o ∧ Reaches ⟨[], some 1, some 8⟩ o) ∧
    ∃ h' t' o, create env given h (.inst r) = (h', .ok t') ∧ predictor h' t = some o ∧ ¬ Reaches ⟨[], some 1, some 8⟩ o := by
  refine ⟨_, _, _, rfl, rfl, ⟨_, rfl, ?_⟩, _, _, _, rfl, rfl, ?_⟩
  · simp [Reaches, Obj.set, Obj.update, env, kwargs, lower, upper, look, put]
  · simp only [Reaches, not_and_or]
    left
    simp [Obj.set, Obj.update, env, given, kwargs, lower, upper, look, put, List.set]

end Verif.SetModel
