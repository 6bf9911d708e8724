/-
C128: cosmology objects - reading, copying, pickling, cloning, conversion.
-/
import Verif.Lemmas.CosmoClone

namespace Verif.CosmoDict

noncomputable section

open Classical

variable (A : Astropy)

/-- The objects a program can have that only uses the constructor, `from_astropy`, `copy`, `clone` and pickling. -/
inductive Made : Cosmo → Prop where
  | init {kw c} : CosmoDict.init A kw = .ok c → Made c
  | fromAstropy {e kw c} : CosmoDict.fromAstropy A e kw = .ok c → Made c
  | copy {c c'} : Made c → c.copy A = .ok c' → Made c'
  | pickle {c c'} : Made c → c.pickle A = .ok c' → Made c'
  | clone {c kw c'} : Made c → c.clone A kw = .ok c' → Made c'

theorem pickle_eq {c c' : Cosmo} (h : c.pickle A = .ok c') :
    ∃ blank, CosmoDict.init A Dict.empty = .ok blank ∧ initOn A blank.dict Dict.empty c.dict = .ok c' := by
  obtain ⟨blank, h1, h2⟩ := bind_ok h
  obtain ⟨_, _, _, _, ho⟩ := initOn_ok A h1
  rw [ho] at h2
  exact ⟨blank, h1, h2⟩

theorem made_wf {c : Cosmo} (h : Made A c) : ∃ s n, Wf A c s n := by
  cases h with
  | init h => exact init_wf A h
  | fromAstropy h => exact init_wf A h
  | copy _ h => exact init_wf A h
  | pickle _ h =>
    obtain ⟨blank, h1, h2⟩ := pickle_eq A h
    obtain ⟨_, _, hw⟩ := init_wf A h1
    exact initOn_wf A (wf_oldOk A hw) h2
  | clone _ h =>
    obtain ⟨e, _, h2⟩ := bind_ok h
    exact init_wf A h2

/-! ### Reading -/

/-- C128: a parameter given to the constructor is what is read, as an attribute and as a key.  (The masses of the neutrinos: `C128_masses`; the dark energy of a
flat one: `C128_flat`.) -/
theorem C128_given {kw : Dict} {c : Cosmo} (h : init A kw = .ok c) {k : Key} {v : V} (hk : kw k = some v) (hm : k ≠ .mnu)
    (hO : k = .Ode0 → kw .flat = Option.none ∨ kw .flat = some (.flag false)) : c.getAttr k = .ok v ∧ c.getItem k = .ok v := by
  obtain ⟨a, ha, he, hd, ho⟩ := initOn_ok A h
  obtain ⟨h1, h2, h3, h4, h5, h6, h7, h8, h9, h10, h11⟩ := make_ok A he
  have key : ∀ {P : Prop} {w : V}, ((kw k = Option.none ∧ P) ∨ kw k = some w) → w = v := by
    intro P w hh
    rcases hh with ⟨h', _⟩ | h'
    · rw [hk] at h'; cases h'
    · rw [hk] at h'; exact (Option.some.inj h').symm
  have hds : c.dict k = (a.entries c.engine k) := by
    rw [hd]
    simp only [Dict.update, Dict.empty]
    cases a.entries c.engine k <;> rfl
  unfold Cosmo.getAttr Cosmo.getItem
  rw [hds, ho]
  cases k with
  | H0 => have := key ha.H0; simp [Dict.empty, Engine.attr, Args.entries, h4, this]
  | Om0 => have := key ha.Om0; simp [Dict.empty, Engine.attr, Args.entries, h5, this]
  | Ob0 => have := key ha.Ob0; simp [Dict.empty, Engine.attr, Args.entries, h6, this]
  | Ode0 =>
    have := key ha.Ode0
    have hf : a.flat = false := by
      rcases ha.flat with ⟨_, h'⟩ | h'
      · exact h'
      · rcases hO rfl with h'' | h'' <;> rw [h'] at h''
        · cases h''
        · simpa using h''
    simp [Dict.empty, Engine.attr, Args.entries, h7, hf, this]
  | w0 =>
    have := key ha.w0
    by_cases hw : a.w0 = -1
    · rw [if_pos hw] at h2
      simp [Dict.empty, Engine.attr, Args.entries, h2, this]
    · rw [if_neg hw] at h2
      simp [Dict.empty, Engine.attr, Args.entries, h2, this]
  | Tcmb0 => have := key ha.Tcmb0; simp [Dict.empty, Engine.attr, Args.entries, h8, this]
  | Neff => have := key ha.Neff; simp [Dict.empty, Engine.attr, Args.entries, h9, this]
  | mnu => exact absurd rfl hm
  | ns => have := key ha.ns; simp [Dict.empty, Engine.attr, Args.entries, this]
  | sigma8 => have := key ha.sigma8; simp [Dict.empty, Engine.attr, Args.entries, this]
  | flat => have := key ha.flat; simp [Dict.empty, Engine.attr, Args.entries, this]
  | name => have := key ha.name; simp [Dict.empty, Engine.attr, Args.entries, h10, this]
  | other s => rw [ha.other] at hk; cases hk

/-- C128: the masses of the neutrinos are those astropy makes of the masses given. -/
theorem C128_masses {kw : Dict} {c : Cosmo} (h : init A kw = .ok c) :
    ∃ T N m, c.getAttr .Tcmb0 = .ok (.num T) ∧ c.getAttr .Neff = .ok (.num N) ∧ A.expand T N ((kw .mnu).getD (.num 0)) = some m ∧
      c.getAttr .mnu = .ok m ∧ c.getItem .mnu = .ok m := by
  obtain ⟨a, ha, he, hd, ho⟩ := initOn_ok A h
  obtain ⟨h1, h2, h3, h4, h5, h6, h7, h8, h9, h10, h11⟩ := make_ok A he
  refine ⟨a.Tcmb0, a.Neff, c.engine.mnu, ?_, ?_, by rw [← ha.mnu]; exact h1, ?_, ?_⟩
  · simp [Cosmo.getAttr, ho, Dict.empty, Engine.attr, h8]
  · simp [Cosmo.getAttr, ho, Dict.empty, Engine.attr, h9]
  · simp [Cosmo.getAttr, ho, Dict.empty, Engine.attr]
  · simp [Cosmo.getItem, hd, Dict.update, Args.entries]

/-- C128: in a flat cosmology, made in whatever way, the densities add up to one. -/
theorem C128_flat {c : Cosmo} (h : Made A c) (hf : c.getAttr .flat = .ok (.flag true)) :
    ∃ H Om Ode T N m, c.getAttr .H0 = .ok (.num H) ∧ c.getAttr .Om0 = .ok (.num Om) ∧ c.getAttr .Ode0 = .ok (.num Ode) ∧ c.getAttr .Tcmb0 = .ok (.num T) ∧
      c.getAttr .Neff = .ok (.num N) ∧ c.getAttr .mnu = .ok m ∧ Om + Ode + A.rad H T N m = 1 := by
  obtain ⟨s, n, hw⟩ := made_wf A h
  have hfl : c.engine.isFlat = true := by
    rw [wf_dict A hw (by rfl) hw.flat] at hf
    simpa using hf
  refine ⟨c.engine.H0, c.engine.Om0, c.engine.Ode0, c.engine.Tcmb0, c.engine.Neff, c.engine.mnu, wf_engine A hw rfl, wf_engine A hw rfl, wf_engine A hw rfl,
    wf_engine A hw rfl, wf_engine A hw rfl, wf_engine A hw rfl, ?_⟩
  rw [hw.engine.closed hfl]
  linarith

/-- C128: keys and attributes agree, but for `Ode0` of a flat cosmology. -/
theorem C128_key_is_attribute {c : Cosmo} (h : Made A c) (k : Key) (hs : ∀ s, k ≠ .other s)
    (hO : k = .Ode0 → c.getAttr .flat = .ok (.flag false)) : ∃ v, c.getAttr k = .ok v ∧ c.getItem k = .ok v := by
  obtain ⟨s, n, hw⟩ := made_wf A h
  have key : ∀ {v}, c.dict k = some v → c.getItem k = .ok v := by
    intro v hv; simp [Cosmo.getItem, hv]
  cases k with
  | H0 => exact ⟨_, wf_engine A hw rfl, key hw.H0⟩
  | Om0 => exact ⟨_, wf_engine A hw rfl, key hw.Om0⟩
  | Ob0 => exact ⟨_, wf_engine A hw rfl, key hw.Ob0⟩
  | Ode0 =>
    have := hO rfl
    rw [wf_dict A hw (by rfl) hw.flat] at this
    exact ⟨_, wf_engine A hw rfl, key (hw.Ode0 (by simpa using this))⟩
  | w0 => exact ⟨_, (wf_w0 A hw).1, key (wf_w0 A hw).2⟩
  | Tcmb0 => exact ⟨_, wf_engine A hw rfl, key hw.Tcmb0⟩
  | Neff => exact ⟨_, wf_engine A hw rfl, key hw.Neff⟩
  | mnu => exact ⟨_, wf_engine A hw rfl, key hw.mnu⟩
  | ns => exact ⟨_, wf_dict A hw rfl hw.ns, key hw.ns⟩
  | sigma8 => exact ⟨_, wf_dict A hw rfl hw.sigma8, key hw.sigma8⟩
  | flat => exact ⟨_, wf_dict A hw rfl hw.flat, key hw.flat⟩
  | name => exact ⟨_, wf_engine A hw rfl, key hw.name⟩
  | other s => exact absurd rfl (hs s)

/-! ### Copies -/

/-- C128: a copy has the same attributes, and is made of every object. -/
theorem C128_copy {c : Cosmo} (h : Made A c) : ∃ c', c.copy A = .ok c' ∧ c'.engine = c.engine ∧ (∀ k, c'.getAttr k = c.getAttr k) := by
  obtain ⟨s, n, hw⟩ := made_wf A h
  obtain ⟨a, ha, he, _, _, hd⟩ := wf_args A hw
  refine ⟨_, initOn_of A ha he, rfl, fun k => ?_⟩
  by_cases hk : k = .Ode0
  · subst hk
    simp [Cosmo.getAttr, hw.own, Dict.empty, Engine.attr]
  · have h1 : (Dict.empty.update (a.entries c.engine)) k = c.dict k := by
      rw [← hd k hk]
      simp only [Dict.update, Dict.empty]
      cases a.entries c.engine k <;> rfl
    simp [Cosmo.getAttr, hw.own, Dict.empty, Dict.update] at h1 ⊢
    rw [h1]

/-- C128: an unpickled object has the same attributes as the one pickled, whatever its history. -/
theorem C128_pickle {c : Cosmo} (h : Made A c) (hdef : ∃ b, init A Dict.empty = .ok b) :
    ∃ c', c.pickle A = .ok c' ∧ c'.engine = c.engine ∧ ∀ k, c'.getAttr k = c.getAttr k := by
  obtain ⟨s, n, hw⟩ := made_wf A h
  obtain ⟨a, ha, he, _, _, hd⟩ := wf_args A hw
  obtain ⟨b, hb⟩ := hdef
  obtain ⟨_, _, _, _, hbo⟩ := initOn_ok A hb
  obtain ⟨_, _, hbw⟩ := init_wf A hb
  refine ⟨⟨c.engine, b.dict.update (a.entries c.engine), b.own⟩, ?_, rfl, fun k => ?_⟩
  · unfold Cosmo.pickle
    rw [hb]
    exact initOn_of A ha he
  · by_cases hk : k = .Ode0
    · subst hk
      simp [Cosmo.getAttr, hw.own, hbo, Dict.empty, Engine.attr]
    · have h1 : (b.dict.update (a.entries c.engine)) k = c.dict k := by
        rw [← hd k hk]
        simp only [Dict.update]
        cases k <;> simp only [Args.entries, Option.orElse_some]
        · exact absurd rfl hk
        · rw [hbw.other]; rfl
      simp only [Cosmo.getAttr, hw.own, hbo, h1]

/-- C128: what `from_astropy` makes of an astropy object (of the classes `LambdaCDM`, `wCDM` and their flat versions) has its parameters, and the spectral index and
amplitude given. -/
theorem C128_from_astropy {e : Engine} (he : EngineOk A e) (hk : e.kind = .lambda ∨ ∃ x, e.kind = .w x) (s n : ℝ) :
    ∃ c, fromAstropy A e ((Dict.empty.set .sigma8 (.num s)).set .ns (.num n)) = .ok c ∧ (∀ k v, e.attr k = some v → c.getAttr k = .ok v) ∧
      c.getAttr .w0 = .ok (.num e.kind.w0) ∧ c.getAttr .sigma8 = .ok (.num s) ∧ c.getAttr .ns = .ok (.num n) ∧ c.engine.Ok0 A = e.Ok0 A := by
  obtain ⟨c, hc⟩ : ∃ c, fromAstropy A e ((Dict.empty.set .sigma8 (.num s)).set .ns (.num n)) = .ok c := by
    have hmk := make_ok_of A (e := { e with kind := if e.kind.w0 = -1 then .lambda else .w e.kind.w0, isFlat := decide (e.Ok0 A = 0) }) ⟨he.masses, he.sane, by
      intro hf
      have hf' : e.Ok0 A = 0 := by simpa using hf
      unfold Engine.Ok0 at hf'
      split_ifs at hf' with hff
      · exact he.closed hff
      · show e.Ode0 = _; linarith⟩ (Ode0 := e.Ode0) (Or.inr rfl)
    refine ⟨_, initOn_of A (a := ⟨e.H0, e.Om0, e.Ob0, e.Ode0, e.kind.w0, e.Tcmb0, e.Neff, e.mnu, n, s, decide (e.Ok0 A = 0), e.name⟩) ?_ hmk⟩
    have hnm : (Dict.set (fun k => if k ∈ validNames then (e.attr k).orElse (fun _ => ((Dict.empty.set .sigma8 (.num s)).set .ns (.num n)) k) else ((Dict.empty.set .sigma8 (.num s)).set .ns (.num n)) k) .flat (.flag (decide (e.Ok0 A = 0)))) .name = Option.none := by
      simp [Dict.set, validNames, Dict.empty]
    rw [if_pos hnm]
    refine ⟨fun s => by simp [Dict.set, validNames, Dict.empty], ?_, ?_, ?_, ?_, ?_, ?_, ?_, ?_, ?_, ?_, ?_, ?_⟩ <;>
      simp [Dict.set, validNames, Dict.empty, Engine.attr]
    rcases hk with hk | ⟨x, hk⟩ <;> simp [hk, Kind.w0]
  obtain ⟨s', n', hw, hs, hn, h1, h2, h3, h4, h5, h6, h7, h8, h9, h10⟩ := fromAstropy_ok A he hk (by simp [Dict.set, Dict.empty]) hc
  have hs' : s' = s := by
    rcases hs with ⟨h, _⟩ | h <;> simp [Dict.set, Dict.empty] at h
    exact h.symm
  have hn' : n' = n := by
    rcases hn with ⟨h, _⟩ | h <;> simp [Dict.set, Dict.empty] at h
    exact h.symm
  have hw0 : c.engine.kind.w0 = e.kind.w0 := by
    rcases h10 with ⟨x, hx, hx'⟩ | ⟨hx, ⟨_, hx'⟩ | hx'⟩
    · rw [hx, hx']; rfl
    · rw [hx, hx']; rfl
    · simp [Dict.set, Dict.empty] at hx'
  refine ⟨c, hc, ?_, ?_, ?_, ?_, ?_⟩
  · intro k v hv
    cases k <;> simp only [Engine.attr, reduceCtorEq, Option.some.injEq] at hv
    · subst hv; rw [← h1]; exact wf_engine A hw rfl
    · subst hv; rw [← h2]; exact wf_engine A hw rfl
    · subst hv; rw [← h3]; exact wf_engine A hw rfl
    · subst hv; rw [← h4]; exact wf_engine A hw rfl
    · rw [(wf_w0 A hw).1, hw0]
      cases hkk : e.kind <;> rw [hkk] at hv <;> simp_all [Kind.w0]
    · subst hv; rw [← h5]; exact wf_engine A hw rfl
    · subst hv; rw [← h6]; exact wf_engine A hw rfl
    · subst hv; rw [← h7]; exact wf_engine A hw rfl
    · subst hv; rw [← h8]; exact wf_engine A hw rfl
  · rw [(wf_w0 A hw).1, hw0]
  · rw [← hs']; exact wf_dict A hw rfl hw.sigma8
  · rw [← hn']; exact wf_dict A hw rfl hw.ns
  · by_cases hz : e.Ok0 A = 0
    · rw [hz]
      unfold Engine.Ok0
      rw [h9, if_pos (by simpa using hz)]
    · unfold Engine.Ok0 at hz ⊢
      rw [h9]
      split_ifs at hz with hf
      · exact absurd rfl hz
      · rw [if_neg (by simpa [Engine.Ok0, hf] using hz), if_neg hf, h1, h2, h4, h5, h6, h7]

/-! ### Clones -/

/-- C128: a clone has the parameters that were asked for, and every other parameter of the original: but for the word `flat` itself, the masses and the name
(below), and the dark energy of a flat cosmology, which remains flat. -/
theorem C128_clone {c c' : Cosmo} {kw : Dict} (h : Made A c) (hc : c.clone A kw = .ok c') :
    (∀ k v, kw k = some v → k ≠ .flat → k ≠ .mnu → c'.getAttr k = .ok v) ∧
    (∀ k, kw k = Option.none → k ≠ .flat → k ≠ .mnu → k ≠ .name → (k = .Ode0 → c.getAttr .flat = .ok (.flag false)) → c'.getAttr k = c.getAttr k) ∧
    (kw .mnu = Option.none → kw .Tcmb0 = Option.none → kw .Neff = Option.none → c'.getAttr .mnu = c.getAttr .mnu) ∧
    (c.getAttr .flat = .ok (.flag true) → c'.getAttr .flat = .ok (.flag true)) := by
  obtain ⟨s, n, hw⟩ := made_wf A h
  obtain ⟨e, he, hc⟩ := bind_ok hc
  obtain ⟨g1, g2, g3, g4, g5, g6, g7, g8⟩ := engine_clone_ok A hw.engine he
  have hkind : e.kind = .lambda ∨ ∃ x, e.kind = .w x := by
    rcases hw.kind with ⟨h1, _⟩ | ⟨x, _, h1, _⟩
    · exact Or.inl (g7 h1)
    · exact Or.inr (g8 x h1)
  obtain ⟨s', n', hw', hs, hn, h1, h2, h3, h4, h5, h6, h7, h8, h9, h10⟩ := fromAstropy_ok A g1 hkind (by simp [Engine.attr]) hc
  have hflat : c.getAttr .flat = .ok (.flag c.engine.isFlat) := wf_dict A hw rfl hw.flat
  have hflat' : c'.getAttr .flat = .ok (.flag c'.engine.isFlat) := wf_dict A hw' rfl hw'.flat
  simp only [Engine.attr, if_true] at hs hn
  have rest : ∀ k, (∃ v, c.engine.attr k = some v) → (if c.engine.attr k = Option.none then Option.none else kw k) = kw k := by
    rintro k ⟨v, hv⟩; rw [if_neg (by rw [hv]; simp)]
  have attr' : ∀ k v, e.attr k = some v → c'.getAttr k = .ok v := by
    intro k v hv
    cases k <;> simp only [Engine.attr, reduceCtorEq, Option.some.injEq] at hv
    · subst hv; rw [← h1]; exact wf_engine A hw' rfl
    · subst hv; rw [← h2]; exact wf_engine A hw' rfl
    · subst hv; rw [← h3]; exact wf_engine A hw' rfl
    · subst hv; rw [← h4]; exact wf_engine A hw' rfl
    · rw [(wf_w0 A hw').1]
      rcases h10 with ⟨x, hx, hx'⟩ | ⟨hx, _⟩
      · rw [hx] at hv; rw [hx']; simpa using hv
      · rw [hx] at hv; cases hv
    · subst hv; rw [← h5]; exact wf_engine A hw' rfl
    · subst hv; rw [← h6]; exact wf_engine A hw' rfl
    · subst hv; rw [← h7]; exact wf_engine A hw' rfl
    · subst hv; rw [← h8]; exact wf_engine A hw' rfl
  refine ⟨?_, ?_, ?_, ?_⟩
  · intro k v hk hf hm
    by_cases hex : ∃ w, c.engine.attr k = some w
    · exact attr' k v (g3 k v (by rw [rest k hex]; exact hk) hm)
    · have hnone : c.engine.attr k = Option.none := by
        cases hh : c.engine.attr k with
        | none => rfl
        | some w => exact absurd ⟨w, hh⟩ hex
      cases k <;> simp only [Engine.attr, reduceCtorEq] at hnone
      · -- `w0` of a cosmological constant
        rw [(wf_w0 A hw').1]
        have hlam : c.engine.kind = .lambda := by cases hh : c.engine.kind <;> rw [hh] at hnone <;> simp_all
        rcases h10 with ⟨x, hx, _⟩ | ⟨_, ⟨hx, _⟩ | hx⟩
        · rw [g7 hlam] at hx; cases hx
        · simp [Engine.attr, hlam, hk] at hx
        · simp only [Engine.attr, hlam, if_true, hk, Option.orElse_some, Option.some.injEq] at hx
          rw [hx]
      · rw [wf_dict A hw' rfl hw'.ns]
        simp only [hk, Option.orElse_some, reduceCtorEq, false_and, false_or, Option.some.injEq] at hn
        rw [hn]
      · rw [wf_dict A hw' rfl hw'.sigma8]
        simp only [hk, Option.orElse_some, reduceCtorEq, false_and, false_or, Option.some.injEq] at hs
        rw [hs]
      · exact absurd rfl hf
      · rename_i str
        exfalso
        obtain ⟨a, ha, _⟩ := initOn_ok A hc
        have := ha.other str
        have hnm : ∀ (d : Dict), (if d .name = Option.none then d.set .name (optStr e.name) else d) (.other str) = d (.other str) := by
          intro d; split_ifs <;> simp [Dict.set]
        rw [hnm] at this
        simp [Dict.set, validNames, Engine.attr, hk] at this
  · intro k hk hf hm hnm hO
    by_cases hex : ∃ w, c.engine.attr k = some w
    · obtain ⟨w, hw1⟩ := hex
      have := g4 k (by rw [rest k ⟨w, hw1⟩]; exact hk) hnm hm (fun h => by
        have := hO h
        rw [hflat] at this
        simpa using this)
      rw [wf_engine A hw hw1]
      exact attr' k w (by rw [this]; exact hw1)
    · have hnone : c.engine.attr k = Option.none := by
        cases hh : c.engine.attr k with
        | none => rfl
        | some w => exact absurd ⟨w, hh⟩ hex
      cases k <;> simp only [Engine.attr, reduceCtorEq] at hnone
      · rw [(wf_w0 A hw').1, (wf_w0 A hw).1]
        have hlam : c.engine.kind = .lambda := by cases hh : c.engine.kind <;> rw [hh] at hnone <;> simp_all
        rcases h10 with ⟨x, hx, _⟩ | ⟨_, ⟨hx, _⟩ | hx⟩
        · rw [g7 hlam] at hx; cases hx
        · simp [Engine.attr, hlam, hk, (wf_w0 A hw).2] at hx
        · simp only [Engine.attr, hlam, if_true, hk, Option.orElse_none, (wf_w0 A hw).2, Option.some.injEq] at hx
          rw [← hx, hlam]
      · rw [wf_dict A hw' rfl hw'.ns, wf_dict A hw rfl hw.ns]
        simp only [hk, Option.orElse_none, hw.ns, reduceCtorEq, false_and, false_or, Option.some.injEq] at hn
        rw [hn]
      · rw [wf_dict A hw' rfl hw'.sigma8, wf_dict A hw rfl hw.sigma8]
        simp only [hk, Option.orElse_none, hw.sigma8, reduceCtorEq, false_and, false_or, Option.some.injEq] at hs
        rw [hs]
      · exact absurd rfl hf
      · rw [wf_attr A hw', wf_attr A hw]
        simp [Engine.attr, hw.other, hw'.other]
  · intro a1 a2 a3
    have := g5 (by rw [rest _ ⟨_, rfl⟩]; exact a1) (by rw [rest _ ⟨_, rfl⟩]; exact a2) (by rw [rest _ ⟨_, rfl⟩]; exact a3)
    rw [wf_engine A hw' (k := .mnu) rfl, wf_engine A hw (k := .mnu) rfl, h7, this]
  · intro hfl
    rw [hflat] at hfl
    have hfl' : c.engine.isFlat = true := by simpa using hfl
    rw [hflat', h9]
    have : e.Ok0 A = 0 := by
      unfold Engine.Ok0
      rw [g2, hfl']; rfl
    simp [this]

end

end Verif.CosmoDict
