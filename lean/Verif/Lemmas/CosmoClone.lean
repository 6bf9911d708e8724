/-
Lemmas for C128: conversion from astropy, and clones.
-/
import Verif.Lemmas.CosmoDict
import Mathlib.Tactic.Linarith

namespace Verif.CosmoDict

noncomputable section

open Classical

variable (A : Astropy)

/-- What is read of an object made by the class. -/
theorem wf_attr {c : Cosmo} {s n : ℝ} (h : Wf A c s n) (k : Key) :
    c.getAttr k = match c.engine.attr k with
      | some v => .ok v
      | Option.none => match c.dict k with
        | some v => .ok v
        | Option.none => .error .attribute := by
  unfold Cosmo.getAttr
  rw [h.own]
  rfl

/-- The dark energy of an object, as a number. -/
theorem wf_w0 {c : Cosmo} {s n : ℝ} (h : Wf A c s n) : c.getAttr .w0 = .ok (.num c.engine.kind.w0) ∧ c.dict .w0 = some (.num c.engine.kind.w0) := by
  rw [wf_attr A h]
  rcases h.kind with ⟨h1, h2⟩ | ⟨x, _, h2, h3⟩
  · simp [Engine.attr, h1, h2, Kind.w0]
  · simp [Engine.attr, h2, h3, Kind.w0]

/-- An attribute of the astropy object is what is read. -/
theorem wf_engine {c : Cosmo} {s n : ℝ} (h : Wf A c s n) {k : Key} {v : V} (hk : c.engine.attr k = some v) : c.getAttr k = .ok v := by
  rw [wf_attr A h, hk]

theorem wf_dict {c : Cosmo} {s n : ℝ} (h : Wf A c s n) {k : Key} {v : V} (hk : c.engine.attr k = Option.none) (hd : c.dict k = some v) : c.getAttr k = .ok v := by
  rw [wf_attr A h, hk, hd]

/-- `from_astropy`, for the classes it is meant for. -/
theorem fromAstropy_ok {e : Engine} (he : EngineOk A e) (hk : e.kind = .lambda ∨ ∃ x, e.kind = .w x) {kw : Dict} (hname : kw .name = Option.none) {c : Cosmo}
    (h : fromAstropy A e kw = .ok c) :
    ∃ s n, Wf A c s n ∧ ((kw .sigma8 = Option.none ∧ s = 0.8159) ∨ kw .sigma8 = some (.num s)) ∧ ((kw .ns = Option.none ∧ n = 0.9667) ∨ kw .ns = some (.num n)) ∧
      c.engine.H0 = e.H0 ∧ c.engine.Om0 = e.Om0 ∧ c.engine.Ob0 = e.Ob0 ∧ c.engine.Ode0 = e.Ode0 ∧ c.engine.Tcmb0 = e.Tcmb0 ∧ c.engine.Neff = e.Neff ∧
      c.engine.mnu = e.mnu ∧ c.engine.name = e.name ∧ c.engine.isFlat = decide (e.Ok0 A = 0) ∧
      ((∃ x, e.kind = .w x ∧ c.engine.kind.w0 = x) ∨ e.kind = .lambda ∧ ((kw .w0 = Option.none ∧ c.engine.kind.w0 = -1) ∨ kw .w0 = some (.num c.engine.kind.w0))) := by
  obtain ⟨a, ha, hen, hd, hw⟩ := initOn_ok A h
  obtain ⟨h1, h2, h3, h4, h5, h6, h7, h8, h9, h10, h11⟩ := make_ok A hen
  have hwf : ∃ s n, Wf A c s n := init_wf A h
  obtain ⟨s, n, hwf⟩ := hwf
  have hs : s = a.sigma8 := by
    have := hwf.sigma8
    rw [hd] at this
    simp only [Dict.update, Args.entries, Option.orElse_some, Option.some.injEq, V.num.injEq] at this
    exact this.symm
  have hn : n = a.ns := by
    have := hwf.ns
    rw [hd] at this
    simp only [Dict.update, Args.entries, Option.orElse_some, Option.some.injEq, V.num.injEq] at this
    exact this.symm
  have hnm : (Dict.set (fun k => if k ∈ validNames then (e.attr k).orElse (fun _ => kw k) else kw k) .flat (.flag (decide (e.Ok0 A = 0)))) .name = Option.none := by
    simp [Dict.set, validNames, hname]
  rw [if_pos hnm] at ha
  have aH0 := ha.H0
  have aOm0 := ha.Om0
  have aOb0 := ha.Ob0
  have aOde0 := ha.Ode0
  have aw0 := ha.w0
  have aT := ha.Tcmb0
  have aN := ha.Neff
  have am := ha.mnu
  have af := ha.flat
  have as := ha.sigma8
  have an := ha.ns
  have anm := ha.name
  simp only [Dict.set, validNames, List.mem_cons, List.not_mem_nil, or_false, reduceCtorEq, if_false, if_true, or_true, true_or, Engine.attr, Option.orElse_some,
    false_and, false_or, Option.some.injEq, V.num.injEq, V.flag.injEq, Option.getD_some] at aH0 aOm0 aOb0 aOde0 aw0 aT aN am af as an anm
  have eOb : a.Ob0 = e.Ob0 := by
    cases h1 : a.Ob0 <;> cases h2 : e.Ob0 <;> simp_all [optNum]
  have enm : a.name = e.name := by
    cases h1 : a.name <;> cases h2 : e.name <;> simp_all [optStr]
  have hm : c.engine.mnu = e.mnu := by
    have e1 := he.masses
    rw [am, ← aT, ← aN, e1] at h1
    exact (Option.some.inj h1).symm
  refine ⟨s, n, hwf, by rw [hs]; exact as, by rw [hn]; exact an, by rw [h4, aH0], by rw [h5, aOm0], by rw [h6, eOb], ?_, by rw [h8, aT], by rw [h9, aN], hm,
    by rw [h10, enm], by rw [h3, af], ?_⟩
  · rw [h7, hm, ← af, ← aH0, ← aOm0, ← aT, ← aN, ← aOde0]
    by_cases h0 : e.Ok0 A = 0
    · rw [if_pos (by simpa using h0)]
      unfold Engine.Ok0 at h0
      split_ifs at h0 with hf
      · exact (he.closed hf).symm
      · linarith
    · rw [if_neg (by simpa using h0)]
  · have hkw : c.engine.kind.w0 = a.w0 := by
      rw [h2]
      split_ifs with h
      · exact h.symm
      · rfl
    rcases hk with hk | ⟨x, hk⟩
    · right
      refine ⟨hk, ?_⟩
      rw [hk] at aw0
      simp only [Option.orElse_none] at aw0
      rw [hkw]; exact aw0
    · left
      refine ⟨x, hk, ?_⟩
      rw [hk] at aw0
      simp only [Option.orElse_some, reduceCtorEq, false_and, false_or, Option.some.injEq, V.num.injEq] at aw0
      rw [hkw]; exact aw0.symm

/-- `clone` of astropy. -/
theorem engine_clone_ok {e e' : Engine} (he : EngineOk A e) {kw : Dict} (h : e.clone A kw = .ok e') :
    EngineOk A e' ∧ e'.isFlat = e.isFlat ∧ (∀ k v, kw k = some v → k ≠ .mnu → e'.attr k = some v) ∧
    (∀ k, kw k = Option.none → k ≠ .name → k ≠ .mnu → (k = .Ode0 → e.isFlat = false) → e'.attr k = e.attr k) ∧
    (kw .mnu = Option.none → kw .Tcmb0 = Option.none → kw .Neff = Option.none → e'.mnu = e.mnu) ∧
    (∀ v, kw .mnu = some v → A.expand e'.Tcmb0 e'.Neff v = some e'.mnu) ∧
    (e.kind = .lambda → e'.kind = .lambda) ∧ (∀ x, e.kind = .w x → ∃ y, e'.kind = .w y) := by
  unfold Engine.clone at h
  by_cases h0 : kw = Dict.empty
  · rw [if_pos h0] at h
    cases h
    subst h0
    refine ⟨he, rfl, fun k v hk => (by cases hk), fun _ _ _ _ _ => rfl, fun _ _ _ => rfl, fun v hv => (by cases hv), id, fun x hx => ⟨x, hx⟩⟩
  · rw [if_neg h0] at h
    split_ifs at h with hbad
    push Not at hbad
    have harg : ∀ k v, kw k = some v → e.isArg k = true := by
      intro k v hk
      have := hbad k (by rw [hk]; simp)
      simpa using this
    obtain ⟨x1, h1, h⟩ := bind_ok h
    obtain ⟨x2, h2, h⟩ := bind_ok h
    obtain ⟨x3, h3, h⟩ := bind_ok h
    obtain ⟨x4, h4, h⟩ := bind_ok h
    obtain ⟨x5, h5, h⟩ := bind_ok h
    obtain ⟨x6, h6, h⟩ := bind_ok h
    obtain ⟨x7, h7, h⟩ := bind_ok h
    obtain ⟨x8, h8, h⟩ := bind_ok h
    rw [getNum_ok] at h1 h2 h4 h5 h6 h7
    obtain ⟨g1, g2, g3, g4, g5, g6, g7, g8, g9, g10, g11⟩ := make_ok A h
    unfold keepNum at h3
    unfold keepStr at h8
    have hob : (kw .Ob0 = Option.none ∧ x3 = e.Ob0) ∨ kw .Ob0 = some (optNum x3) := by
      cases hk : kw .Ob0 with
      | none => rw [hk] at h3; cases h3; exact Or.inl ⟨rfl, rfl⟩
      | some v =>
        rw [hk] at h3
        rcases getOptNum_ok.1 h3 with ⟨h', _⟩ | h'
        · rw [hk] at h'; cases h'
        · right; rw [← hk]; exact h'
    have hnm : ∀ v, kw .name = some v → v = optStr x8 := by
      intro v hk
      rw [hk] at h8
      rcases getStr_ok.1 h8 with ⟨h', _⟩ | h'
      · rw [hk] at h'; cases h'
      · rw [hk] at h'; exact Option.some.inj h'
    refine ⟨g11, g3, ?_, ?_, ?_, ?_, ?_, ?_⟩
    · intro k v hk hm
      have ha := harg k v hk
      cases k <;> simp only [Engine.attr] <;> simp only [Engine.isArg, reduceCtorEq] at ha
      · rw [g4]; rcases h1 with ⟨h', _⟩ | h' <;> rw [hk] at h'
        · cases h'
        · exact h'.symm
      · rw [g5]; rcases h2 with ⟨h', _⟩ | h' <;> rw [hk] at h'
        · cases h'
        · exact h'.symm
      · rw [g6]; rcases hob with ⟨h', _⟩ | h' <;> rw [hk] at h'
        · cases h'
        · exact h'.symm
      · have hf : e.isFlat = false := by simpa using ha
        rw [g7, hf]
        rcases h4 with ⟨h', _⟩ | h' <;> rw [hk] at h'
        · cases h'
        · simpa using h'.symm
      · rw [g2]
        rcases h5 with ⟨h', _⟩ | h' <;> rw [hk] at h'
        · cases h'
        · cases hkind : e.kind <;> rw [hkind] at ha <;> simp_all [Kind.withW0]
      · rw [g8]; rcases h6 with ⟨h', _⟩ | h' <;> rw [hk] at h'
        · cases h'
        · exact h'.symm
      · rw [g9]; rcases h7 with ⟨h', _⟩ | h' <;> rw [hk] at h'
        · cases h'
        · exact h'.symm
      · exact absurd rfl hm
      · rw [g10, hnm v hk]
    · intro k hk hn hm hO
      cases k <;> simp only [Engine.attr]
      · rw [g4]; rcases h1 with ⟨_, h'⟩ | h'
        · rw [h']
        · rw [hk] at h'; cases h'
      · rw [g5]; rcases h2 with ⟨_, h'⟩ | h'
        · rw [h']
        · rw [hk] at h'; cases h'
      · rw [g6]; rcases hob with ⟨_, h'⟩ | h'
        · rw [h']
        · rw [hk] at h'; cases h'
      · have hf := hO rfl
        rw [g7, hf]; rcases h4 with ⟨_, h'⟩ | h'
        · simp [h']
        · rw [hk] at h'; cases h'
      · rw [g2]
        rcases h5 with ⟨_, h'⟩ | h'
        · rw [h']; cases e.kind <;> rfl
        · rw [hk] at h'; cases h'
      · rw [g8]; rcases h6 with ⟨_, h'⟩ | h'
        · rw [h']
        · rw [hk] at h'; cases h'
      · rw [g9]; rcases h7 with ⟨_, h'⟩ | h'
        · rw [h']
        · rw [hk] at h'; cases h'
      · exact absurd rfl hm
      · exact absurd rfl hn
    · intro hm hT hN
      rw [hm] at g1
      rcases h6 with ⟨_, hT'⟩ | h'
      · rcases h7 with ⟨_, hN'⟩ | h'
        · rw [hT', hN', Option.getD_none, he.masses] at g1
          exact (Option.some.inj g1).symm
        · rw [hN] at h'; cases h'
      · rw [hT] at h'; cases h'
    · intro v hv
      rw [g8, g9, ← g1, hv]; rfl
    · intro hk; rw [g2, hk]; rfl
    · intro x hk; rw [g2, hk]; exact ⟨_, rfl⟩

end

end Verif.CosmoDict
