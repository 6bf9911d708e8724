/-
What a workspace held before does not matter: a program that runs on little written memory runs in the same way on more.
-/
import Verif.Lemmas.GKQuad

namespace Verif.GK

/-- Everything that `m` holds, `m'` holds -/
def MLe {α : Type} (m m' : Mem α) : Prop := ∀ i v, m i = some v → m' i = some v

theorem MLe.wr {α : Type} {limit : ℕ} {m m' n : Mem α} {i : ℕ} {v : α} (h : MLe m m') (hw : GK.wr limit m i v = some n) : ∃ n', GK.wr limit m' i v = some n' ∧ MLe n n' := by
  unfold GK.wr at *
  split at hw
  · rename_i hi
    rw [if_pos hi]
    refine ⟨_, rfl, ?_⟩
    cases hw
    intro k u hk
    by_cases hki : k = i
    · subst hki
      simpa using hk
    · rw [Function.update_of_ne hki] at hk ⊢
      exact h k u hk
  · exact absurd hw (by simp)

theorem sortDown_mono {limit : ℕ} {el el' : Mem ℝ} (hel : MLe el el') {errmax : ℝ} {top : ℕ} : ∀ (fuel j : ℕ) (o o' : Mem ℕ) (j2 : ℕ) (p : Mem ℕ), MLe o o' →
    sortDown limit el errmax top fuel j o = some (j2, p) → ∃ p', sortDown limit el' errmax top fuel j o' = some (j2, p') ∧ MLe p p' := by
  intro fuel
  induction fuel with
  | zero =>
    intro j o o' j2 p ho h
    simp only [sortDown, Option.some.injEq, Prod.mk.injEq] at h
    obtain ⟨rfl, rfl⟩ := h
    exact ⟨o', rfl, ho⟩
  | succ fuel ih =>
    intro j o o' j2 p ho h
    simp only [sortDown] at h ⊢
    by_cases hj : j < top
    · simp only [hj, if_true, Option.bind_eq_some_iff] at h ⊢
      obtain ⟨oj, h1, e, h2, h3⟩ := h
      by_cases he : errmax < e
      · simp only [he, if_true, Option.bind_eq_some_iff] at h3
        obtain ⟨n, h4, h5⟩ := h3
        obtain ⟨n', h4', hn⟩ := ho.wr h4
        obtain ⟨p', h6, hp⟩ := ih _ _ _ _ _ hn h5
        refine ⟨p', ⟨oj, ho _ _ h1, e, hel _ _ h2, ?_⟩, hp⟩
        simp only [he, if_true, h4', Option.bind_some, h6]
      · simp only [he, if_false, Option.some.injEq, Prod.mk.injEq] at h3
        obtain ⟨rfl, rfl⟩ := h3
        refine ⟨o', ⟨oj, ho _ _ h1, e, hel _ _ h2, ?_⟩, ho⟩
        simp [he]
    · simp only [hj, if_false, Option.some.injEq, Prod.mk.injEq] at h
      obtain ⟨rfl, rfl⟩ := h
      exact ⟨o', by simp [hj], ho⟩

theorem sortUp_mono {limit : ℕ} {el el' : Mem ℝ} (hel : MLe el el') {errmin : ℝ} {j : ℕ} : ∀ (fuel K : ℕ) (o o' : Mem ℕ) (K2 : ℕ) (p : Mem ℕ), MLe o o' →
    sortUp limit el errmin j fuel K o = some (K2, p) → ∃ p', sortUp limit el' errmin j fuel K o' = some (K2, p') ∧ MLe p p' := by
  intro fuel
  induction fuel with
  | zero =>
    intro K o o' K2 p ho h
    simp only [sortUp, Option.some.injEq, Prod.mk.injEq] at h
    obtain ⟨rfl, rfl⟩ := h
    exact ⟨o', rfl, ho⟩
  | succ fuel ih =>
    intro K o o' K2 p ho h
    simp only [sortUp] at h ⊢
    by_cases hj : j - 1 < K
    · simp only [hj, if_true, Option.bind_eq_some_iff] at h ⊢
      obtain ⟨oj, h1, e, h2, h3⟩ := h
      by_cases he : e ≤ errmin
      · simp only [he, if_true, Option.bind_eq_some_iff] at h3
        obtain ⟨n, h4, h5⟩ := h3
        obtain ⟨n', h4', hn⟩ := ho.wr h4
        obtain ⟨p', h6, hp⟩ := ih _ _ _ _ _ hn h5
        refine ⟨p', ⟨oj, ho _ _ h1, e, hel _ _ h2, ?_⟩, hp⟩
        simp only [he, if_true, h4', Option.bind_some, h6]
      · simp only [he, if_false, Option.some.injEq, Prod.mk.injEq] at h3
        obtain ⟨rfl, rfl⟩ := h3
        refine ⟨o', ⟨oj, ho _ _ h1, e, hel _ _ h2, ?_⟩, ho⟩
        simp [he]
    · simp only [hj, if_false, Option.some.injEq, Prod.mk.injEq] at h
      obtain ⟨rfl, rfl⟩ := h
      exact ⟨o', by simp [hj], ho⟩

/-- A workspace that holds more -/
structure WLe (w w' : WS) : Prop where
  limit : w'.limit = w.limit
  size : w'.size = w.size
  al : MLe w.alist w'.alist
  bl : MLe w.blist w'.blist
  rl : MLe w.rlist w'.rlist
  el : MLe w.elist w'.elist
  order : MLe w.order w'.order

theorem sort_mono {w w' v : WS} (h : WLe w w') (hs : w.sort = some v) : ∃ v', w'.sort = some v' ∧ WLe v v' := by
  unfold WS.sort at hs ⊢
  simp only [h.size, h.limit] at hs ⊢
  by_cases h2 : w.size - 1 < 2
  · simp only [h2, if_true, Option.bind_eq_some_iff, Option.some.injEq] at hs ⊢
    obtain ⟨o1, e1, o2, e2, rfl⟩ := hs
    obtain ⟨o1', e1', m1⟩ := h.order.wr e1
    obtain ⟨o2', e2', m2⟩ := m1.wr e2
    exact ⟨_, ⟨o1', e1', o2', e2', rfl⟩, ⟨rfl, rfl, h.al, h.bl, h.rl, h.el, m2⟩⟩
  · simp only [h2, if_false, Option.bind_eq_some_iff, Option.some.injEq] at hs ⊢
    obtain ⟨im, e1, em, e2, ⟨j, o1⟩, e3, o2, e4, en, e5, ⟨K, o3⟩, e6, o4, e7, rfl⟩ := hs
    obtain ⟨o1', e3', m1⟩ := sortDown_mono h.el _ _ _ _ _ _ h.order e3
    obtain ⟨o2', e4', m2⟩ := m1.wr e4
    obtain ⟨o3', e6', m3⟩ := sortUp_mono h.el _ _ _ _ _ _ m2 e6
    obtain ⟨o4', e7', m4⟩ := m3.wr e7
    exact ⟨_, ⟨im, h.order _ _ e1, em, h.el _ _ e2, ⟨j, o1'⟩, e3', o2', e4', en, h.el _ _ e5, ⟨K, o3'⟩, e6', o4', e7', rfl⟩, ⟨rfl, rfl, h.al, h.bl, h.rl, h.el, m4⟩⟩

theorem update_mono {w w' v : WS} (h : WLe w w') {a1 b1 r1 e1 a2 b2 r2 e2 : ℝ} (hs : w.update a1 b1 r1 e1 a2 b2 r2 e2 = some v) :
    ∃ v', w'.update a1 b1 r1 e1 a2 b2 r2 e2 = some v' ∧ WLe v v' := by
  unfold WS.update at hs ⊢
  simp only [h.size, h.limit, Option.bind_eq_some_iff] at hs ⊢
  obtain ⟨im, hi, hs⟩ := hs
  by_cases hc : e2 > e1
  · simp only [hc, if_true, Option.bind_eq_some_iff] at hs ⊢
    obtain ⟨x1, g1, x2, g2, x3, g3, x4, g4, x5, g5, x6, g6, x7, g7, hs⟩ := hs
    obtain ⟨x1', g1', m1⟩ := h.al.wr g1
    obtain ⟨x2', g2', m2⟩ := h.rl.wr g2
    obtain ⟨x3', g3', m3⟩ := h.el.wr g3
    obtain ⟨x4', g4', m4⟩ := m1.wr g4
    obtain ⟨x5', g5', m5⟩ := h.bl.wr g5
    obtain ⟨x6', g6', m6⟩ := m2.wr g6
    obtain ⟨x7', g7', m7⟩ := m3.wr g7
    obtain ⟨v', hv, hvv⟩ := sort_mono (w := ⟨w.limit, w.size + 1, x4, x5, x6, x7, w.order⟩) (w' := ⟨w'.limit, w.size + 1, x4', x5', x6', x7', w'.order⟩) ⟨h.limit, rfl, m4, m5, m6, m7, h.order⟩ hs
    exact ⟨v', ⟨im, h.order _ _ hi, x1', g1', x2', g2', x3', g3', x4', g4', x5', g5', x6', g6', x7', g7', by rw [← hv, h.limit]⟩, hvv⟩
  · simp only [hc, if_false, Option.bind_eq_some_iff] at hs ⊢
    obtain ⟨x1, g1, x2, g2, x3, g3, x4, g4, x5, g5, x6, g6, x7, g7, hs⟩ := hs
    obtain ⟨x1', g1', m1⟩ := h.bl.wr g1
    obtain ⟨x2', g2', m2⟩ := h.rl.wr g2
    obtain ⟨x3', g3', m3⟩ := h.el.wr g3
    obtain ⟨x4', g4', m4⟩ := h.al.wr g4
    obtain ⟨x5', g5', m5⟩ := m1.wr g5
    obtain ⟨x6', g6', m6⟩ := m2.wr g6
    obtain ⟨x7', g7', m7⟩ := m3.wr g7
    obtain ⟨v', hv, hvv⟩ := sort_mono (w := ⟨w.limit, w.size + 1, x4, x5, x6, x7, w.order⟩) (w' := ⟨w'.limit, w.size + 1, x4', x5', x6', x7', w'.order⟩) ⟨h.limit, rfl, m4, m5, m6, m7, h.order⟩ hs
    exact ⟨v', ⟨im, h.order _ _ hi, x1', g1', x2', g2', x3', g3', x4', g4', x5', g5', x6', g6', x7', g7', by rw [← hv, h.limit]⟩, hvv⟩

theorem maxInterval_mono {w w' : WS} (h : WLe w w') {I : Iv} (hI : w.maxInterval = some I) : w'.maxInterval = some I := by
  unfold WS.maxInterval at hI ⊢
  simp only [Option.bind_eq_some_iff, Option.some.injEq] at hI ⊢
  obtain ⟨i, h1, a, h2, b, h3, r, h4, e, h5, rfl⟩ := hI
  exact ⟨i, h.order _ _ h1, a, h.al _ _ h2, b, h.bl _ _ h3, r, h.rl _ _ h4, e, h.el _ _ h5, rfl⟩

theorem body_mono (gk : ℝ → ℝ → ℝ × ℝ) (epsrel epsabs : ℝ) {s s' t : Loop} (h : WLe s.ws s'.ws) (heq : s' = { s with ws := s'.ws }) (hb : body gk epsrel epsabs s = some t) :
    ∃ t', body gk epsrel epsabs s' = some t' ∧ WLe t.ws t'.ws ∧ t' = { t with ws := t'.ws } := by
  unfold body at hb ⊢
  rw [heq]
  simp only [Option.bind_eq_some_iff, Option.some.injEq] at hb ⊢
  obtain ⟨I, hI, ws, hu, rfl⟩ := hb
  obtain ⟨v', hv, hvv⟩ := update_mono h hu
  exact ⟨_, ⟨I, maxInterval_mono h hI, v', hv, rfl⟩, hvv, by simp only [h.limit]⟩

theorem doWhile_mono (gk : ℝ → ℝ → ℝ × ℝ) (epsrel epsabs : ℝ) : ∀ (fuel : ℕ) (s s' t : Loop), WLe s.ws s'.ws → s' = { s with ws := s'.ws } → doWhile gk epsrel epsabs fuel s = some t →
    ∃ t', doWhile gk epsrel epsabs fuel s' = some t' ∧ WLe t.ws t'.ws ∧ t' = { t with ws := t'.ws } := by
  intro fuel
  induction fuel with
  | zero =>
    intro s s' t h heq hd
    exact body_mono gk epsrel epsabs h heq hd
  | succ fuel ih =>
    intro s s' t h heq hd
    simp only [doWhile, Option.bind_eq_some_iff] at hd
    obtain ⟨u, hb, hd⟩ := hd
    obtain ⟨u', hb', hu, hueq⟩ := body_mono gk epsrel epsabs h heq hb
    have hc : (u'.iteration < u'.ws.limit ∧ u'.code = 0 ∧ u'.errsum > u'.tolerance) ↔ (u.iteration < u.ws.limit ∧ u.code = 0 ∧ u.errsum > u.tolerance) := by
      rw [hu.limit, hueq]
    by_cases hst : u.iteration < u.ws.limit ∧ u.code = 0 ∧ u.errsum > u.tolerance
    · rw [if_pos hst] at hd
      obtain ⟨t', ht, h1, h2⟩ := ih u u' t hu hueq hd
      refine ⟨t', ?_, h1, h2⟩
      simp only [doWhile, hb', Option.bind_some, if_pos (hc.2 hst), ht]
    · rw [if_neg hst] at hd
      cases hd
      refine ⟨u', ?_, hu, hueq⟩
      simp only [doWhile, hb', Option.bind_some, if_neg (fun h => hst (hc.1 h))]

theorem sumMem_mono {m m' : Mem ℝ} (h : MLe m m') : ∀ n s, sumMem m n = some s → sumMem m' n = some s := by
  intro n
  induction n with
  | zero => intro s hs; exact hs
  | succ n ih =>
    intro s hs
    simp only [sumMem, Option.bind_eq_some_iff, Option.some.injEq] at hs ⊢
    obtain ⟨u, h1, x, h2, rfl⟩ := hs
    exact ⟨u, ih u h1, x, h _ _ h2, rfl⟩

/-- What a workspace held does not matter -/
theorem integrate_mono (gk : ℝ → ℝ → ℝ × ℝ) (a b epsrel epsabs : ℝ) {w w' v : WS} {out : Out} (hl : w'.limit = w.limit) (h : MLe w.alist w'.alist ∧ MLe w.blist w'.blist ∧ MLe w.rlist w'.rlist ∧
    MLe w.elist w'.elist ∧ MLe w.order w'.order) (hi : w.integrate gk a b epsrel epsabs = some (out, v)) : ∃ v', w'.integrate gk a b epsrel epsabs = some (out, v') := by
  obtain ⟨h1, h2, h3, h4, h5⟩ := h
  unfold WS.integrate at hi ⊢
  split at hi
  · rename_i hc
    rw [if_pos hc]
    simp only [Option.some.injEq, Prod.mk.injEq] at hi
    exact ⟨w', by rw [hi.1]⟩
  · rename_i hc
    rw [if_neg hc]
    simp only [Option.bind_eq_some_iff, Option.some.injEq, Prod.mk.injEq] at hi ⊢
    obtain ⟨x1, g1, x2, g2, x3, g3, x4, g4, x5, g5, s, hd, r, hr, e, he, ho, _⟩ := hi
    rw [hl]
    obtain ⟨x1', g1', m1⟩ := h1.wr g1
    obtain ⟨x2', g2', m2⟩ := h2.wr g2
    obtain ⟨x3', g3', m3⟩ := h3.wr g3
    obtain ⟨x4', g4', m4⟩ := h4.wr g4
    obtain ⟨x5', g5', m5⟩ := h5.wr g5
    obtain ⟨s', hd', hs, hseq⟩ := doWhile_mono gk epsrel epsabs w.limit ⟨⟨w.limit, 1, x1, x2, x3, x4, x5⟩, _, _, 1, 15, 0, 0⟩
      ⟨⟨w.limit, 1, x1', x2', x3', x4', x5'⟩, _, _, 1, 15, 0, 0⟩ s ⟨rfl, rfl, m1, m2, m3, m4, m5⟩ rfl hd
    refine ⟨s'.ws, x1', g1', x2', g2', x3', g3', x4', g4', x5', g5', s', hd', r, ?_, e, ?_, ?_, rfl⟩
    · rw [hs.size]; exact sumMem_mono hs.rl _ _ hr
    · rw [hs.size]; exact sumMem_mono hs.el _ _ he
    · rw [hseq]; exact ho

end Verif.GK
