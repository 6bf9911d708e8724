/-
Lemmas for C128: objects that were made by the class.
-/
import Verif.Model.CosmoDict

namespace Verif.CosmoDict

noncomputable section

open Classical

variable (A : Astropy)

/-- What an astropy object made by its class satisfies. -/
structure EngineOk (e : Engine) : Prop where
  masses : A.expand e.Tcmb0 e.Neff e.mnu = some e.mnu
  sane : ¬ (e.Om0 < 0 ∨ ∃ b, e.Ob0 = some b ∧ (b < 0 ∨ e.Om0 < b))
  closed : e.isFlat = true → e.Ode0 = 1 - e.Om0 - A.rad e.H0 e.Tcmb0 e.Neff e.mnu

theorem make_ok {kind isFlat H0 Om0 Ob0 Ode0 Tcmb0 Neff mnu name} {e : Engine}
    (h : Engine.make A kind isFlat H0 Om0 Ob0 Ode0 Tcmb0 Neff mnu name = .ok e) :
    A.expand Tcmb0 Neff mnu = some e.mnu ∧ e.kind = kind ∧ e.isFlat = isFlat ∧ e.H0 = H0 ∧ e.Om0 = Om0 ∧ e.Ob0 = Ob0 ∧
    e.Ode0 = (if isFlat then 1 - Om0 - A.rad H0 Tcmb0 Neff e.mnu else Ode0) ∧ e.Tcmb0 = Tcmb0 ∧ e.Neff = Neff ∧ e.name = name ∧ EngineOk A e := by
  unfold Engine.make at h
  cases hm : A.expand Tcmb0 Neff mnu with
  | none => rw [hm] at h; cases h
  | some m =>
    rw [hm] at h
    dsimp only at h
    split_ifs at h with hs
    all_goals
      cases h
      refine ⟨rfl, rfl, rfl, rfl, rfl, rfl, by simp_all, rfl, rfl, rfl, ⟨A.idem hm, hs, fun hf => ?_⟩⟩
      simp_all

theorem make_ok_of {e : Engine} (h : EngineOk A e) {Ode0 : ℝ} (hO : e.isFlat = true ∨ Ode0 = e.Ode0) :
    Engine.make A e.kind e.isFlat e.H0 e.Om0 e.Ob0 Ode0 e.Tcmb0 e.Neff e.mnu e.name = .ok e := by
  unfold Engine.make
  rw [h.masses]
  dsimp only
  rw [if_neg h.sane]
  congr 1
  cases hf : e.isFlat with
  | true =>
    have := h.closed hf
    cases e
    simp_all
  | false =>
    rcases hO with hO | hO
    · rw [hf] at hO; cases hO
    · cases e
      simp_all

/-- `Cosmo` objects as the constructors leave them: the entries are those of the arguments of the astropy object, except that a flat one may have any entry for
`Ode0`. -/
structure Wf (c : Cosmo) (sigma8 ns : ℝ) : Prop where
  own : c.own = Dict.empty
  engine : EngineOk A c.engine
  kind : (c.engine.kind = .lambda ∧ c.dict .w0 = some (.num (-1))) ∨ ∃ x, x ≠ -1 ∧ c.engine.kind = .w x ∧ c.dict .w0 = some (.num x)
  H0 : c.dict .H0 = some (.num c.engine.H0)
  Om0 : c.dict .Om0 = some (.num c.engine.Om0)
  Ob0 : c.dict .Ob0 = some (optNum c.engine.Ob0)
  Ode0 : c.engine.isFlat = false → c.dict .Ode0 = some (.num c.engine.Ode0)
  Ode0' : c.engine.isFlat = true → c.dict .Ode0 = Option.none ∨ ∃ x, c.dict .Ode0 = some (.num x)
  Tcmb0 : c.dict .Tcmb0 = some (.num c.engine.Tcmb0)
  Neff : c.dict .Neff = some (.num c.engine.Neff)
  mnu : c.dict .mnu = some c.engine.mnu
  name : c.dict .name = some (optStr c.engine.name)
  flat : c.dict .flat = some (.flag c.engine.isFlat)
  sigma8 : c.dict .sigma8 = some (.num sigma8)
  ns : c.dict .ns = some (.num ns)
  other : ∀ s, c.dict (.other s) = Option.none

theorem getNum_ok {kw : Dict} {k : Key} {d x : ℝ} : getNum kw k d = .ok x ↔ (kw k = Option.none ∧ x = d) ∨ kw k = some (.num x) := by
  unfold getNum
  cases h : kw k with
  | none => simp [eq_comm]
  | some v => cases v <;> simp

theorem getOptNum_ok {kw : Dict} {k : Key} {d : ℝ} {x : Option ℝ} :
    getOptNum kw k d = .ok x ↔ (kw k = Option.none ∧ x = some d) ∨ kw k = some (optNum x) := by
  unfold getOptNum
  cases h : kw k with
  | none => simp [eq_comm]
  | some v => cases v <;> cases x <;> simp [optNum, eq_comm]

theorem getStr_ok {kw : Dict} {k : Key} {x : Option String} : getStr kw k = .ok x ↔ (kw k = Option.none ∧ x = Option.none) ∨ kw k = some (optStr x) := by
  unfold getStr
  cases h : kw k with
  | none => simp [eq_comm]
  | some v => cases v <;> cases x <;> simp [optStr, eq_comm]

theorem getFlag_ok {kw : Dict} {k : Key} {x : Bool} : getFlag kw k = .ok x ↔ (kw k = Option.none ∧ x = false) ∨ kw k = some (.flag x) := by
  unfold getFlag
  cases h : kw k with
  | none => simp [eq_comm]
  | some v => cases v <;> simp

theorem bind_ok {α β : Type} {x : Except Err α} {f : α → Except Err β} {y : β} (h : (x >>= f) = .ok y) : ∃ a, x = .ok a ∧ f a = .ok y := by
  cases x with
  | error e => cases h
  | ok a => exact ⟨a, rfl, h⟩

/-- What the arguments are, read off the keywords. -/
structure ArgsOf (kw : Dict) (a : Args) : Prop where
  other : ∀ s, kw (.other s) = Option.none
  H0 : (kw .H0 = Option.none ∧ a.H0 = 67.6) ∨ kw .H0 = some (.num a.H0)
  Om0 : (kw .Om0 = Option.none ∧ a.Om0 = 0.31) ∨ kw .Om0 = some (.num a.Om0)
  Ob0 : (kw .Ob0 = Option.none ∧ a.Ob0 = some 0.0486) ∨ kw .Ob0 = some (optNum a.Ob0)
  Ode0 : (kw .Ode0 = Option.none ∧ a.Ode0 = 0.69) ∨ kw .Ode0 = some (.num a.Ode0)
  w0 : (kw .w0 = Option.none ∧ a.w0 = -1) ∨ kw .w0 = some (.num a.w0)
  Tcmb0 : (kw .Tcmb0 = Option.none ∧ a.Tcmb0 = 2.7255) ∨ kw .Tcmb0 = some (.num a.Tcmb0)
  Neff : (kw .Neff = Option.none ∧ a.Neff = 3.04) ∨ kw .Neff = some (.num a.Neff)
  ns : (kw .ns = Option.none ∧ a.ns = 0.9667) ∨ kw .ns = some (.num a.ns)
  sigma8 : (kw .sigma8 = Option.none ∧ a.sigma8 = 0.8159) ∨ kw .sigma8 = some (.num a.sigma8)
  flat : (kw .flat = Option.none ∧ a.flat = false) ∨ kw .flat = some (.flag a.flat)
  name : (kw .name = Option.none ∧ a.name = Option.none) ∨ kw .name = some (optStr a.name)
  mnu : a.mnu = (kw .mnu).getD (.num 0)

theorem args_ok {kw : Dict} {a : Args} : args kw = .ok a ↔ ArgsOf kw a := by
  constructor
  · intro h
    unfold args at h
    split_ifs at h with ho
    push Not at ho
    obtain ⟨x1, h1, h⟩ := bind_ok h
    obtain ⟨x2, h2, h⟩ := bind_ok h
    obtain ⟨x3, h3, h⟩ := bind_ok h
    obtain ⟨x4, h4, h⟩ := bind_ok h
    obtain ⟨x5, h5, h⟩ := bind_ok h
    obtain ⟨x6, h6, h⟩ := bind_ok h
    obtain ⟨x7, h7, h⟩ := bind_ok h
    obtain ⟨x8, h8, h⟩ := bind_ok h
    obtain ⟨x9, h9, h⟩ := bind_ok h
    obtain ⟨x10, h10, h⟩ := bind_ok h
    obtain ⟨x11, h11, h⟩ := bind_ok h
    cases h
    exact ⟨ho, getNum_ok.1 h1, getNum_ok.1 h2, getOptNum_ok.1 h3, getNum_ok.1 h4, getNum_ok.1 h5, getNum_ok.1 h6, getNum_ok.1 h7, getNum_ok.1 h8,
      getNum_ok.1 h9, getFlag_ok.1 h10, getStr_ok.1 h11, rfl⟩
  · intro h
    unfold args
    rw [if_neg (by push Not; exact h.other)]
    rw [getNum_ok.2 h.H0, getNum_ok.2 h.Om0, getOptNum_ok.2 h.Ob0, getNum_ok.2 h.Ode0, getNum_ok.2 h.w0, getNum_ok.2 h.Tcmb0, getNum_ok.2 h.Neff,
      getNum_ok.2 h.ns, getNum_ok.2 h.sigma8, getFlag_ok.2 h.flat, getStr_ok.2 h.name, ← h.mnu]
    rfl

/-- What `__init__` makes of arguments. -/
theorem initOn_ok {old own kw : Dict} {c : Cosmo} (h : initOn A old own kw = .ok c) :
    ∃ a, ArgsOf kw a ∧ a.engine A = .ok c.engine ∧ c.dict = old.update (a.entries c.engine) ∧ c.own = own := by
  obtain ⟨a, h1, h⟩ := bind_ok h
  obtain ⟨e, h2, h⟩ := bind_ok h
  cases h
  exact ⟨a, args_ok.1 h1, h2, rfl, rfl⟩

theorem initOn_of {old own kw : Dict} {a : Args} {e : Engine} (h1 : ArgsOf kw a) (h2 : a.engine A = .ok e) :
    initOn A old own kw = .ok ⟨e, old.update (a.entries e), own⟩ := by
  unfold initOn
  rw [args_ok.2 h1]
  show (a.engine A >>= _) = _
  rw [h2]
  rfl

/-- An old dictionary that only has entries of the class. -/
def OldOk (old : Dict) : Prop := (∀ s, old (.other s) = Option.none) ∧ (old .Ode0 = Option.none ∨ ∃ x, old .Ode0 = some (.num x))

theorem initOn_wf {old kw : Dict} {c : Cosmo} (ho : OldOk old) (h : initOn A old Dict.empty kw = .ok c) : ∃ s n, Wf A c s n := by
  obtain ⟨a, ha, he, hd, hw⟩ := initOn_ok A h
  obtain ⟨h1, h2, h3, h4, h5, h6, h7, h8, h9, h10, h11⟩ := make_ok A he
  refine ⟨a.sigma8, a.ns, ⟨hw, h11, ?_, ?_, ?_, ?_, ?_, ?_, ?_, ?_, ?_, ?_, ?_, ?_, ?_, ?_⟩⟩
  · by_cases hw0 : a.w0 = -1
    · left
      rw [if_pos hw0] at h2
      exact ⟨h2, by rw [hd]; simp [Dict.update, Args.entries, hw0]⟩
    · right
      rw [if_neg hw0] at h2
      exact ⟨a.w0, hw0, h2, by rw [hd]; simp [Dict.update, Args.entries]⟩
  · rw [hd, h4]; rfl
  · rw [hd, h5]; rfl
  · rw [hd]; rfl
  · intro hf
    rw [hd]
    rw [h3] at hf
    simp [Dict.update, Args.entries, hf]
  · intro hf
    rw [hd]
    rw [h3] at hf
    simp only [Dict.update, Args.entries, hf, if_true, Option.orElse_none]
    exact ho.2
  · rw [hd]; rfl
  · rw [hd]; rfl
  · rw [hd]; rfl
  · rw [hd]; rfl
  · rw [hd, h3]; rfl
  · rw [hd]; rfl
  · rw [hd]; rfl
  · intro s
    rw [hd]
    exact ho.1 s

theorem oldOk_empty : OldOk Dict.empty := ⟨fun _ => rfl, Or.inl rfl⟩

theorem init_wf {kw : Dict} {c : Cosmo} (h : init A kw = .ok c) : ∃ s n, Wf A c s n := initOn_wf A oldOk_empty h

theorem wf_oldOk {c : Cosmo} {s n : ℝ} (h : Wf A c s n) : OldOk c.dict := by
  refine ⟨h.other, ?_⟩
  cases hf : c.engine.isFlat with
  | true => exact h.Ode0' hf
  | false => exact Or.inr ⟨_, h.Ode0 hf⟩

/-- The arguments in the entries of an object. -/
theorem wf_args {c : Cosmo} {s n : ℝ} (h : Wf A c s n) : ∃ a, ArgsOf c.dict a ∧ a.engine A = .ok c.engine ∧ a.sigma8 = s ∧ a.ns = n ∧
    ∀ k, k ≠ .Ode0 → a.entries c.engine k = c.dict k := by
  obtain ⟨x, hx, hx'⟩ : ∃ x, ((c.dict .Ode0 = Option.none ∧ x = 0.69) ∨ c.dict .Ode0 = some (.num x)) ∧ (c.engine.isFlat = true ∨ x = c.engine.Ode0) := by
    cases hf : c.engine.isFlat with
    | true =>
      rcases h.Ode0' hf with h1 | ⟨x, h1⟩
      · exact ⟨_, Or.inl ⟨h1, rfl⟩, Or.inl rfl⟩
      · exact ⟨x, Or.inr h1, Or.inl rfl⟩
    | false => exact ⟨_, Or.inr (h.Ode0 hf), Or.inr rfl⟩
  obtain ⟨w, hw, hk⟩ : ∃ w, c.dict .w0 = some (.num w) ∧ c.engine.kind = if w = -1 then Kind.lambda else Kind.w w := by
    rcases h.kind with ⟨h1, h2⟩ | ⟨w, h1, h2, h3⟩
    · exact ⟨-1, h2, by rw [if_pos rfl]; exact h1⟩
    · exact ⟨w, h3, by rw [if_neg h1]; exact h2⟩
  refine ⟨⟨c.engine.H0, c.engine.Om0, c.engine.Ob0, x, w, c.engine.Tcmb0, c.engine.Neff, c.engine.mnu, n, s, c.engine.isFlat, c.engine.name⟩,
    ⟨h.other, Or.inr h.H0, Or.inr h.Om0, Or.inr h.Ob0, hx, Or.inr hw, Or.inr h.Tcmb0, Or.inr h.Neff, Or.inr h.ns, Or.inr h.sigma8, Or.inr h.flat,
      Or.inr h.name, by rw [h.mnu]; rfl⟩, ?_, rfl, rfl, ?_⟩
  · unfold Args.engine
    dsimp only
    rw [← hk]
    exact make_ok_of A h.engine hx'
  · intro k hk'
    cases k <;> simp only [Args.entries]
    · exact h.H0.symm
    · exact h.Om0.symm
    · exact h.Ob0.symm
    · exact absurd rfl hk'
    · exact hw.symm
    · exact h.Tcmb0.symm
    · exact h.Neff.symm
    · exact h.mnu.symm
    · exact h.ns.symm
    · exact h.sigma8.symm
    · exact h.flat.symm
    · exact h.name.symm
    · exact (h.other _).symm

end

end Verif.CosmoDict
