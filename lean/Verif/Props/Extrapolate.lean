import Verif.Model.Extrapolate
import Verif.Spec.Extrapolate
import Verif.Props.Interp
import Verif.Props.Broadcast
import Mathlib.Analysis.SpecialFunctions.Pow.Continuity

/-!
# C147: extrapolating a power spectrum
-/

namespace Verif.Extrapolate

noncomputable section

open Classical ExtrapolateSpec

/-! ### The constructor -/

/-- C147: a constructor that returns has an attribute of the asked name in the model, ends of the extrapolation five per cent inside of the model's range, and limits of the fits inside of
the ends; the parameters are those asked for. -/
theorem C147_accepted {m : PModel} {o : Opts} {e : Ext} (h : init m o = .ok e) :
    m.has o.func ∧ m.kmin * 1.05 ≤ e.kLo ∧ e.kHi ≤ m.kmax * 0.95 ∧ e.kLo < e.cutLo ∧ e.cutHi < e.kHi ∧ e.m = m ∧ e.kmin = m.kmin ∧ e.kmax = m.kmax ∧
    (∀ v, o.kLo = some v → e.kLo = v) ∧ (∀ v, o.kHi = some v → e.kHi = v) ∧
    (∀ v, o.cutLo = some v → e.cutLo = v) ∧ (∀ v, o.cutHi = some v → e.cutHi = v) ∧ (o.cutLo = none → e.cutLo = 5 * e.kLo) ∧ (o.cutHi = none → e.cutHi = 0.5 * e.kHi) := by
  unfold init at h
  split_ifs at h with h1 h2 h3 h4 h5
  injection h with h
  subst h
  push Not at h2 h3 h4 h5
  dsimp only
  refine ⟨h1, h3, h2, h5, h4, rfl, rfl, rfl, ?_, ?_, ?_, ?_, ?_, ?_⟩ <;> intros <;> simp_all

/-- C147: the constructor refuses exactly with a `ValueError`, and only for one of these reasons. -/
theorem C147_refused_iff (m : PModel) (o : Opts) :
    init m o = .error .value ↔ ¬ m.has o.func ∨ m.kmax * 0.95 < o.kHi.getD m.kmax ∨ o.kLo.getD m.kmin < m.kmin * 1.05 ∨
      o.kHi.getD m.kmax ≤ o.cutHi.getD (0.5 * o.kHi.getD m.kmax) ∨ o.cutLo.getD (5 * o.kLo.getD m.kmin) ≤ o.kLo.getD m.kmin := by
  unfold init
  split_ifs with h1 h2 h3 h4 h5 <;> simp_all

/-- C147 is false of the defaults: without `k_hi`, documented as `model.kmax` by default, the constructor always raises; so it does without `k_lo`. -/
theorem C147_default_counterexample (m : PModel) (o : Opts) (h : 0 < m.kmin ∧ o.kLo = none ∨ 0 < m.kmax ∧ o.kHi = none) : init m o = .error .value := by
  rw [C147_refused_iff]
  rcases h with ⟨h, e⟩ | ⟨h, e⟩
  · right; right; left; rw [e]; simp only [Option.getD_none]; nlinarith
  · right; left; rw [e]; simp only [Option.getD_none]; nlinarith

/-- C147 is false of the models of the package, none of which has a function `Pgal`: without `model_func` the constructor raises, and with another function every evaluation does, as if
`model_func` had not been given. -/
theorem C147_function_counterexample (T : Tools) (m : PModel) (h : m.P = none) :
    (∀ o : Opts, o.func = "Pgal" → "Pgal" ∉ m.names → init m o = .error .value) ∧
    (∀ (o : Opts) (e : Ext) (pts : List (ℝ × ℝ)), init m o = .ok e → pts ≠ [] → ∃ x, e.call T pts = .error x) ∧
    (∀ (o : Opts) (r : List ℝ) (ells : List ℕ) (R : ℝ), ∃ x, smoothedXi T m o r ells R = .error x) := by
  have key : ∀ (e : Ext) (k : List ℝ), e.m = m → ∃ x, e.curve T k = .error x := by
    intro e k he
    unfold Ext.curve
    simp only [bind, Except.bind]
    split
    · exact ⟨_, rfl⟩
    split
    · exact ⟨_, rfl⟩
    · rw [he, h]; exact ⟨_, rfl⟩
  refine ⟨?_, ?_, ?_⟩
  · intro o ho hn
    rw [C147_refused_iff]
    left
    rintro (h' | ⟨-, h'⟩)
    · exact hn (ho ▸ h')
    · simp [h] at h'
  · intro o e pts he hp
    obtain ⟨x, hx⟩ := key e (pts.map (·.1)) (C147_accepted he).2.2.2.2.2.1
    exact ⟨x, by unfold Ext.call; rw [if_neg hp, hx]; rfl⟩
  · intro o r ells R
    unfold smoothedXi
    simp only [bind, Except.bind]
    cases he : init m o with
    | error x => exact ⟨x, rfl⟩
    | ok e =>
      obtain ⟨x, hx⟩ := key e (logspace ((10 : ℝ) ^ (-5 : ℝ)) 10 1000) (C147_accepted he).2.2.2.2.2.1
      exact ⟨x, by simp only [Ext.toPoles, hx, bind, Except.bind]⟩

/-! ### One function, whatever was evaluated before -/

/-- The state with empty caches and the same parameters -/
def Ext.clear (e : Ext) : Ext := { e with table := none, low := none, high := none }

/-- The slopes of a state with empty caches -/
def Ext.lowOf (T : Tools) (e : Ext) : Except Err (ℝ → ℝ) := do
  let I ← e.newTable
  e.newLow T I

def Ext.highOf (T : Tools) (e : Ext) : Except Err ((ℝ → ℝ) × (ℝ → ℝ)) := do
  let I ← e.newTable
  e.newHigh T I

/-- The caches hold what would be computed. -/
structure Ext.Sound (T : Tools) (e : Ext) : Prop where
  table : ∀ I, e.table = some I → e.newTable = .ok I
  low : ∀ f, e.low = some f → e.lowOf T = .ok f
  high : ∀ f, e.high = some f → e.highOf T = .ok f

/-- Equal up to the caches -/
def Same (e e' : Ext) : Prop := e.clear = e'.clear

theorem Same.newTable {e e' : Ext} (h : Same e e') : e.newTable = e'.newTable := by
  have a : e.newTable = e.clear.newTable := rfl
  rw [a, h]; rfl

theorem Same.lowOf {e e' : Ext} (h : Same e e') (T : Tools) : e.lowOf T = e'.lowOf T := by
  have a : e.lowOf T = e.clear.lowOf T := rfl
  rw [a, h]; rfl

theorem Same.highOf {e e' : Ext} (h : Same e e') (T : Tools) : e.highOf T = e'.highOf T := by
  have a : e.highOf T = e.clear.highOf T := rfl
  rw [a, h]; rfl

theorem getTable_eq {T : Tools} {e : Ext} (s : e.Sound T) : e.getTable = e.newTable := by
  unfold Ext.getTable
  cases h : e.table with
  | none => rfl
  | some I => rw [s.table I h]

theorem getLow_spec {T : Tools} {e : Ext} (s : e.Sound T) :
    (∃ x, e.lowOf T = .error x ∧ e.getLow T = .error x) ∨ ∃ f e', e.lowOf T = .ok f ∧ e.getLow T = .ok (f, e') ∧ Same e e' ∧ e'.Sound T := by
  unfold Ext.getLow
  cases h : e.low with
  | some f => exact .inr ⟨f, e, s.low f h, rfl, rfl, s⟩
  | none =>
    simp only [bind, Except.bind, getTable_eq s]
    cases hI : e.newTable with
    | error x => exact .inl ⟨x, by simp only [Ext.lowOf, hI, bind, Except.bind], rfl⟩
    | ok I =>
      have h1 : e.lowOf T = e.newLow T I := by simp only [Ext.lowOf, hI, bind, Except.bind]
      cases hf : e.newLow T I with
      | error x => exact .inl ⟨x, by rw [h1, hf], by simp only [hf]⟩
      | ok f =>
        refine .inr ⟨f, { e with table := some I, low := some f }, by rw [h1, hf], by simp only [hf], rfl, ?_⟩
        exact ⟨fun J hJ => by injection hJ with hJ; subst hJ; exact hI, fun g hg => by injection hg with hg; subst hg; exact (h1.trans hf), fun g hg => s.high g hg⟩

theorem getHigh_spec {T : Tools} {e : Ext} (s : e.Sound T) :
    (∃ x, e.highOf T = .error x ∧ e.getHigh T = .error x) ∨ ∃ f e', e.highOf T = .ok f ∧ e.getHigh T = .ok (f, e') ∧ Same e e' ∧ e'.Sound T := by
  unfold Ext.getHigh
  cases h : e.high with
  | some f => exact .inr ⟨f, e, s.high f h, rfl, rfl, s⟩
  | none =>
    simp only [bind, Except.bind, getTable_eq s]
    cases hI : e.newTable with
    | error x => exact .inl ⟨x, by simp only [Ext.highOf, hI, bind, Except.bind], rfl⟩
    | ok I =>
      have h1 : e.highOf T = e.newHigh T I := by simp only [Ext.highOf, hI, bind, Except.bind]
      cases hf : e.newHigh T I with
      | error x => exact .inl ⟨x, by rw [h1, hf], by simp only [hf]⟩
      | ok f =>
        refine .inr ⟨f, { e with table := some I, high := some f }, by rw [h1, hf], by simp only [hf], rfl, ?_⟩
        exact ⟨fun J hJ => by injection hJ with hJ; subst hJ; exact hI, fun g hg => s.low g hg, fun g hg => by injection hg with hg; subst hg; exact (h1.trans hf)⟩

/-- The value of a computation that may fail, with a default -/
def orElse {α : Type} (d : α) : Except Err α → α
  | .ok a => a
  | .error _ => d

/-- The function all evaluations of a state are values of -/
def Ext.fn (T : Tools) (e : Ext) (P : ℝ → ℝ → ℝ) : ℝ → ℝ → ℝ := entry P e.kLo e.kHi (orElse (fun _ => 0) (e.lowOf T)) (orElse (fun _ => 0, fun _ => 0) (e.highOf T))

theorem Same.fn {e e' : Ext} (h : Same e e') (T : Tools) (P : ℝ → ℝ → ℝ) : e.fn T P = e'.fn T P := by
  have a : e.fn T P = e.clear.fn T P := rfl
  rw [a, h]; rfl

theorem curve_spec {T : Tools} {e : Ext} (s : e.Sound T) {P : ℝ → ℝ → ℝ} (hP : e.m.P = some P) (k : List ℝ) :
    (∃ x, e.curve T k = .error x ∧ ∀ e', Same e e' → e'.Sound T → e'.curve T k = .error x) ∨
    ∃ g e', e.curve T k = .ok (g, e') ∧ Same e e' ∧ e'.Sound T ∧ (∀ q ∈ k, ∀ mu, g q mu = e.fn T P q mu) ∧
      (∀ e₂, Same e e₂ → e₂.Sound T → ∃ e₃, e₂.curve T k = .ok (g, e₃)) := by
  have h1 : ∀ e', Same e e' → e'.Sound T →
      (∃ x, (if ∃ q ∈ k, q < e.kLo then e.lowOf T else .ok fun _ => 0) = .error x ∧ e'.lowFor T k = .error x) ∨
      ∃ f e₂, (if ∃ q ∈ k, q < e.kLo then e.lowOf T else .ok fun _ => 0) = .ok f ∧ e'.lowFor T k = .ok (f, e₂) ∧ Same e e₂ ∧ e₂.Sound T := by
    intro e' h' s'
    have hk : e'.kLo = e.kLo := by have := congrArg Ext.kLo h'; exact this.symm
    unfold Ext.lowFor
    rw [hk]
    split_ifs with hc
    · rcases getLow_spec s' with ⟨x, a, b⟩ | ⟨f, e₂, a, b, c, d⟩
      · exact .inl ⟨x, by rw [h'.lowOf T, a], b⟩
      · exact .inr ⟨f, e₂, by rw [h'.lowOf T, a], b, h'.trans c, d⟩
    · exact .inr ⟨_, e', rfl, rfl, h', s'⟩
  have h2 : ∀ e', Same e e' → e'.Sound T →
      (∃ x, (if ∃ q ∈ k, e.kHi < q then e.highOf T else .ok (fun _ => 0, fun _ => 0)) = .error x ∧ e'.highFor T k = .error x) ∨
      ∃ f e₂, (if ∃ q ∈ k, e.kHi < q then e.highOf T else .ok (fun _ => 0, fun _ => 0)) = .ok f ∧ e'.highFor T k = .ok (f, e₂) ∧ Same e e₂ ∧ e₂.Sound T := by
    intro e' h' s'
    have hk : e'.kHi = e.kHi := by have := congrArg Ext.kHi h'; exact this.symm
    unfold Ext.highFor
    rw [hk]
    split_ifs with hc
    · rcases getHigh_spec s' with ⟨x, a, b⟩ | ⟨f, e₂, a, b, c, d⟩
      · exact .inl ⟨x, by rw [h'.highOf T, a], b⟩
      · exact .inr ⟨f, e₂, by rw [h'.highOf T, a], b, h'.trans c, d⟩
    · exact .inr ⟨_, e', rfl, rfl, h', s'⟩
  have hk : ∀ e', Same e e' → e'.kLo = e.kLo ∧ e'.kHi = e.kHi ∧ e'.m = e.m := fun e' h =>
    ⟨(congrArg Ext.kLo h).symm, (congrArg Ext.kHi h).symm, (congrArg Ext.m h).symm⟩
  -- the slopes of `e`
  cases ha : (if ∃ q ∈ k, q < e.kLo then e.lowOf T else .ok fun _ => 0 : Except Err (ℝ → ℝ)) with
  | error x =>
    have main : ∀ e', Same e e' → e'.Sound T → e'.curve T k = .error x := by
      intro e' h' s'
      rcases h1 e' h' s' with ⟨y, b, c⟩ | ⟨f, e₂, b, -⟩
      · rw [ha] at b; injection b with b; subst b
        simp only [Ext.curve, bind, Except.bind, c]
      · rw [ha] at b; exact absurd b (by simp)
    exact .inl ⟨x, main e rfl s, main⟩
  | ok f =>
    cases hb : (if ∃ q ∈ k, e.kHi < q then e.highOf T else .ok (fun _ => 0, fun _ => 0) : Except Err ((ℝ → ℝ) × (ℝ → ℝ))) with
    | error x =>
      have main : ∀ e', Same e e' → e'.Sound T → e'.curve T k = .error x := by
        intro e' h' s'
        rcases h1 e' h' s' with ⟨y, b, -⟩ | ⟨f', e₂, b, c, h₂, s₂⟩
        · rw [ha] at b; exact absurd b (by simp)
        · rcases h2 e₂ h₂ s₂ with ⟨y, d, u⟩ | ⟨_, _, d, -⟩
          · rw [hb] at d; injection d with d; subst d
            simp only [Ext.curve, bind, Except.bind, c, u]
          · rw [hb] at d; exact absurd d (by simp)
      exact .inl ⟨x, main e rfl s, main⟩
    | ok b =>
      have main : ∀ e', Same e e' → e'.Sound T → ∃ e₃, e'.curve T k = .ok (entry P e.kLo e.kHi f b, e₃) ∧ Same e e₃ ∧ e₃.Sound T := by
        intro e' h' s'
        rcases h1 e' h' s' with ⟨y, b', -⟩ | ⟨f', e₂, b', c, h₂, s₂⟩
        · rw [ha] at b'; exact absurd b' (by simp)
        · rw [ha] at b'; injection b' with b'; subst b'
          rcases h2 e₂ h₂ s₂ with ⟨y, d, u⟩ | ⟨b₂, e₃, d, u, h₃, s₃⟩
          · rw [hb] at d; exact absurd d (by simp)
          · rw [hb] at d; injection d with d; subst d
            refine ⟨e₃, ?_, h₃, s₃⟩
            have hm : e'.m.P = some P := by rw [(hk e' h').2.2, hP]
            simp only [Ext.curve, bind, Except.bind, c, u, hm]
            rw [(hk e' h').1, (hk e' h').2.1]
      obtain ⟨e₃, h₃, a, c⟩ := main e rfl s
      refine .inr ⟨_, e₃, h₃, a, c, ?_, fun e₂ h₂ s₂ => (main e₂ h₂ s₂).imp fun _ h => h.1⟩
      intro q hq mu
      unfold Ext.fn entry
      by_cases hlo : q < e.kLo
      · rw [if_pos hlo, if_pos hlo]
        rw [if_pos ⟨q, hq, hlo⟩] at ha
        rw [ha]; rfl
      · rw [if_neg hlo, if_neg hlo]
        by_cases hhi : q ≤ e.kHi
        · rw [if_pos hhi, if_pos hhi]
        · rw [if_neg hhi, if_neg hhi]
          rw [if_pos ⟨q, hq, not_le.mp hhi⟩] at hb
          rw [hb]; rfl

/-- A history of the object in which the model is not changed -/
inductive Run (T : Tools) (m : PModel) (o : Opts) : Ext → Prop
  | init (e : Ext) : init m o = .ok e → Run T m o e
  | step (e : Ext) (op : Op) : Run T m o e → (∀ P, op ≠ .model P) → Run T m o (e.step T op)

theorem sound_of {T : Tools} {e e' : Ext} (s : e.Sound T) (hI : e'.newTable = e.newTable ∨ e'.table = none) (hl : e'.lowOf T = e.lowOf T ∨ e'.low = none) (hh : e'.highOf T = e.highOf T ∨ e'.high = none)
    (c1 : e'.table = e.table ∨ e'.table = none) (c2 : e'.low = e.low ∨ e'.low = none) (c3 : e'.high = e.high ∨ e'.high = none) : e'.Sound T := by
  refine ⟨fun I h => ?_, fun f h => ?_, fun f h => ?_⟩
  · rcases c1 with c | c <;> rcases hI with i | i <;> simp_all [s.table]
  · rcases c2 with c | c <;> rcases hl with i | i <;> simp_all [s.low]
  · rcases c3 with c | c <;> rcases hh with i | i <;> simp_all [s.high]

theorem run_sound {T : Tools} {m : PModel} {o : Opts} {e : Ext} (h : Run T m o e) : e.Sound T ∧ e.m.P = m.P := by
  induction h with
  | init e h =>
    have := C147_accepted h
    unfold init at h
    split_ifs at h
    injection h with h
    subst h
    exact ⟨⟨fun _ h => by simp at h, fun _ h => by simp at h, fun _ h => by simp at h⟩, rfl⟩
  | step e op h hop ih =>
    obtain ⟨s, hm⟩ := ih
    cases op with
    | model P => exact absurd rfl (hop P)
    | kmin v =>
      unfold Ext.step; dsimp only
      split_ifs
      · exact ⟨sound_of s (.inl rfl) (.inl rfl) (.inl rfl) (.inl rfl) (.inl rfl) (.inl rfl), hm⟩
      · exact ⟨sound_of s (.inr rfl) (.inr rfl) (.inr rfl) (.inr rfl) (.inr rfl) (.inr rfl), hm⟩
    | kmax v =>
      unfold Ext.step; dsimp only
      split_ifs
      · exact ⟨sound_of s (.inl rfl) (.inl rfl) (.inl rfl) (.inl rfl) (.inl rfl) (.inl rfl), hm⟩
      · exact ⟨sound_of s (.inr rfl) (.inr rfl) (.inr rfl) (.inr rfl) (.inr rfl) (.inr rfl), hm⟩
    | kLo v =>
      unfold Ext.step; dsimp only
      split_ifs
      · exact ⟨s, hm⟩
      · exact ⟨s, hm⟩
      · exact ⟨sound_of s (.inl rfl) (.inr rfl) (.inl rfl) (.inl rfl) (.inr rfl) (.inl rfl), hm⟩
    | kHi v =>
      unfold Ext.step; dsimp only
      split_ifs
      · exact ⟨s, hm⟩
      · exact ⟨s, hm⟩
      · exact ⟨sound_of s (.inl rfl) (.inl rfl) (.inr rfl) (.inl rfl) (.inl rfl) (.inr rfl), hm⟩
    | cutLo v =>
      unfold Ext.step; dsimp only
      split_ifs
      · exact ⟨s, hm⟩
      · exact ⟨s, hm⟩
      · exact ⟨sound_of s (.inl rfl) (.inr rfl) (.inl rfl) (.inl rfl) (.inr rfl) (.inl rfl), hm⟩
    | cutHi v =>
      unfold Ext.step; dsimp only
      split_ifs
      · exact ⟨s, hm⟩
      · exact ⟨s, hm⟩
      · exact ⟨sound_of s (.inl rfl) (.inl rfl) (.inr rfl) (.inl rfl) (.inl rfl) (.inr rfl), hm⟩
    | call pts =>
      unfold Ext.step; dsimp only
      cases hP : e.m.P with
      | none =>
        cases hc : e.call T pts with
        | error x => exact ⟨s, hm⟩
        | ok r =>
          unfold Ext.call at hc
          split_ifs at hc with hp
          · injection hc with hc; subst hc; exact ⟨s, hm⟩
          · exfalso
            cases hk : e.curve T (pts.map (·.1)) with
            | error x => rw [hk] at hc; exact absurd hc (by simp [Except.map])
            | ok g =>
              unfold Ext.curve at hk
              simp only [bind, Except.bind] at hk
              split at hk
              · exact absurd hk (by simp)
              split at hk
              · exact absurd hk (by simp)
              · rw [hP] at hk; exact absurd hk (by simp)
      | some P =>
        cases hc : e.call T pts with
        | error x => exact ⟨s, hm⟩
        | ok r =>
          unfold Ext.call at hc
          split_ifs at hc with hp
          · injection hc with hc; subst hc; exact ⟨s, hm⟩
          · rcases curve_spec s hP (pts.map (·.1)) with ⟨x, hx, -⟩ | ⟨g, e', hg, hs, s', -⟩
            · rw [hx] at hc; exact absurd hc (by simp [Except.map])
            · rw [hg] at hc
              simp only [Except.map] at hc
              injection hc with hc; subst hc
              exact ⟨s', by rw [← hm]; exact (congrArg (fun x : Ext => x.m.P) hs).symm⟩

theorem entry_extrapolates (P : ℝ → ℝ → ℝ) {lo hi : ℝ} (h : lo ≤ hi) (a : ℝ → ℝ) (b : (ℝ → ℝ) × (ℝ → ℝ)) : Extrapolates P lo hi (entry P lo hi a b) := by
  refine ⟨fun k mu h1 h2 => ?_, fun mu => ⟨a mu, fun k _ h2 => ?_⟩, fun mu => ⟨b.1 mu, b.2 mu, fun k h1 => ?_⟩⟩
  · unfold entry; rw [if_neg (not_lt.mpr h1), if_pos h2]
  · unfold entry; rw [if_pos h2]; simp [powerLaw]
  · unfold entry; rw [if_neg (by linarith), if_neg (not_le.mpr h1)]; rfl

/-- C147: after any history in which the model is not changed, all evaluations that return are values of one function, which is the model's between the ends and a power law with the model's value at
the end as amplitude beyond them. -/
theorem C147_one_function {T : Tools} {m : PModel} {o : Opts} {e : Ext} (h : Run T m o e) {P : ℝ → ℝ → ℝ} (hP : m.P = some P) (hlh : e.kLo ≤ e.kHi) :
    ∃ g, Extrapolates P e.kLo e.kHi g ∧ ∀ pts vs e', e.call T pts = .ok (vs, e') → vs = pts.map fun p => g p.1 p.2 := by
  obtain ⟨s, hm⟩ := run_sound h
  refine ⟨e.fn T P, entry_extrapolates P hlh _ _, ?_⟩
  intro pts vs e' hc
  unfold Ext.call at hc
  split_ifs at hc with hp
  · injection hc with hc; injection hc with a b; rw [← a, hp]; rfl
  · rcases curve_spec s (hm.trans hP) (pts.map (·.1)) with ⟨x, hx, -⟩ | ⟨g, e₂, hg, -, -, hq, -⟩
    · rw [hx] at hc; exact absurd hc (by simp [Except.map])
    · rw [hg] at hc
      simp only [Except.map] at hc
      injection hc with hc; injection hc with a b
      rw [← a]
      exact List.map_congr_left fun p hp' => hq p.1 (List.mem_map_of_mem hp') p.2

/-- C147: the result of an evaluation does not depend on what was evaluated or set before: it is that of an object with the same parameters and nothing computed. -/
theorem C147_history {T : Tools} {m : PModel} {o : Opts} {e : Ext} (h : Run T m o e) {P : ℝ → ℝ → ℝ} (hP : m.P = some P) (pts : List (ℝ × ℝ)) :
    (e.call T pts).map (·.1) = (Ext.call T { e with table := none, low := none, high := none } pts).map (·.1) := by
  obtain ⟨s, hm⟩ := run_sound h
  have s' : e.clear.Sound T := ⟨fun _ h => by simp [Ext.clear] at h, fun _ h => by simp [Ext.clear] at h, fun _ h => by simp [Ext.clear] at h⟩
  change (e.call T pts).map (·.1) = (e.clear.call T pts).map (·.1)
  unfold Ext.call
  split_ifs with hp
  · rfl
  · rcases curve_spec s (hm.trans hP) (pts.map (·.1)) with ⟨x, hx, hy⟩ | ⟨g, e₂, hg, -, -, -, hy⟩
    · rw [hx, hy e.clear rfl s']
    · obtain ⟨e₃, h₃⟩ := hy e.clear rfl s'
      rw [hg, h₃]; rfl

/-! ### Continuity and sign -/

/-- C147: the extrapolation of a function that is continuous in the wavenumber between the ends is continuous at all wavenumbers. -/
theorem C147_continuous {P g : ℝ → ℝ → ℝ} {lo hi : ℝ} (h : Extrapolates P lo hi g) (h0 : 0 < lo) (hlh : lo ≤ hi) (mu : ℝ)
    (hP : ContinuousOn (fun k => P k mu) (Set.Icc lo hi)) : ContinuousOn (fun k => g k mu) (Set.Ioi 0) := by
  obtain ⟨a, ha⟩ := h.low mu
  obtain ⟨c, b, hb⟩ := h.high mu
  have hhi : 0 < hi := lt_of_lt_of_le h0 hlh
  have e1 : Set.EqOn (fun k => g k mu) (fun k => P lo mu * (k / lo) ^ a) (Set.Ioc 0 lo) := by
    intro k hk
    rcases lt_or_eq_of_le hk.2 with h' | h'
    · exact ha k hk.1 h'
    · subst h'
      simp only [div_self h0.ne', Real.one_rpow, mul_one]
      exact h.inside k mu le_rfl hlh
  have e2 : Set.EqOn (fun k => g k mu) (fun k => P k mu) (Set.Icc lo hi) := fun k hk => h.inside k mu hk.1 hk.2
  have e3 : Set.EqOn (fun k => g k mu) (fun k => P hi mu * (k / hi) ^ (c + b * Real.logb 10 (k / hi))) (Set.Ici hi) := by
    intro k hk
    rcases lt_or_eq_of_le (show hi ≤ k from hk) with h' | h'
    · exact hb k h'
    · subst h'
      simp only [div_self hhi.ne', Real.one_rpow, mul_one]
      exact h.inside hi mu hlh le_rfl
  have c1 : ContinuousOn (fun k => g k mu) (Set.Ioc 0 lo) := by
    refine ContinuousOn.congr ?_ e1
    refine ContinuousOn.mul continuousOn_const (ContinuousOn.rpow_const (continuousOn_id.div_const lo) ?_)
    intro k hk
    left; exact (div_pos hk.1 h0).ne'
  have c2 : ContinuousOn (fun k => g k mu) (Set.Icc lo hi) := hP.congr e2
  have c3 : ContinuousOn (fun k => g k mu) (Set.Ici hi) := by
    refine ContinuousOn.congr ?_ e3
    have hpos : ∀ k ∈ Set.Ici hi, k / hi ≠ 0 := fun k hk => (div_pos (lt_of_lt_of_le hhi hk) hhi).ne'
    refine ContinuousOn.mul continuousOn_const (ContinuousOn.rpow (continuousOn_id.div_const hi) ?_ (fun k hk => Or.inl (hpos k hk)))
    refine ContinuousOn.add continuousOn_const (ContinuousOn.mul continuousOn_const ?_)
    unfold Real.logb
    exact (ContinuousOn.log (continuousOn_id.div_const hi) hpos).div_const _
  have u : Set.Ioi (0 : ℝ) = Set.Ioc 0 lo ∪ Set.Ici lo := by
    ext k; constructor
    · intro hk; rcases le_total k lo with h' | h'
      · exact .inl ⟨hk, h'⟩
      · exact .inr h'
    · rintro (hk | hk)
      · exact hk.1
      · exact lt_of_lt_of_le h0 hk
  have u2 : Set.Ici lo = Set.Icc lo hi ∪ Set.Ici hi := by
    ext k; constructor
    · intro hk; rcases le_total k hi with h' | h'
      · exact .inl ⟨hk, h'⟩
      · exact .inr h'
    · rintro (hk | hk)
      · exact hk.1
      · exact hlh.trans hk
  have c4 : ContinuousOn (fun k => g k mu) (Set.Ici lo) := by
    rw [u2]; exact c2.union_of_isClosed c3 isClosed_Icc isClosed_Ici
  intro k hk
  rcases lt_trichotomy k lo with h' | h' | h'
  · have : Set.Ioc 0 lo ∈ nhds k := Ioc_mem_nhds hk h'
    exact (c1.continuousAt this).continuousWithinAt
  · rw [u]
    subst h'
    exact (c1 k ⟨hk, le_rfl⟩).union (c4 k Set.self_mem_Ici)
  · exact (c4.continuousAt (Ici_mem_nhds h')).continuousWithinAt

/-- C147: the extrapolation of a function that is positive at the ends is positive beyond them. -/
theorem C147_positive {P g : ℝ → ℝ → ℝ} {lo hi : ℝ} (h : Extrapolates P lo hi g) (h0 : 0 < lo) (hlh : lo ≤ hi) (mu : ℝ) (hP : ∀ k, lo ≤ k → k ≤ hi → 0 < P k mu) (k : ℝ) (hk : 0 < k) :
    0 < g k mu := by
  obtain ⟨a, ha⟩ := h.low mu
  obtain ⟨c, b, hb⟩ := h.high mu
  rcases lt_or_ge k lo with h1 | h1
  · rw [ha k hk h1]; exact mul_pos (hP lo le_rfl hlh) (Real.rpow_pos_of_pos (div_pos hk h0) _)
  · rcases le_or_gt k hi with h2 | h2
    · rw [h.inside k mu h1 h2]; exact hP k h1 h2
    · rw [hb k h2]; exact mul_pos (hP hi hlh le_rfl) (Real.rpow_pos_of_pos (div_pos hk (h0.trans_le hlh)) _)

end

end Verif.Extrapolate
