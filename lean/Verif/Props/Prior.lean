/-
C20 (log-prior and hard bounds), C25 (gradients of the log-prior), C26 (the `analytic` flag).
-/
import Verif.Lemmas.Prior
import Mathlib.Analysis.SpecialFunctions.Log.Deriv
import Mathlib.Analysis.SpecialFunctions.ExpDeriv
import Mathlib.Analysis.Calculus.Deriv.Pow
import Mathlib.Tactic.NormNum

namespace Verif.Priors
noncomputable section
open Classical Flt

/-- A parameter after an arbitrary history of reads and changes, in which `analytic` was never switched on. -/
def HardHistory (p : Par) : Prop :=
  ∃ v u va mi ma pn l up m s ops, (∀ b, Op.setAnalytic b ∈ ops → b = false) ∧
    p = (Par.new v u va mi ma pn l up m s false).run ops

/-- A parameter after an arbitrary history. -/
def AnyHistory (p : Par) : Prop :=
  ∃ v u va mi ma pn l up m s a ops, p = (Par.new v u va mi ma pn l up m s a).run ops

theorem HardHistory.coh {p} (h : HardHistory p) : Coh (· = false) p := by
  obtain ⟨v, u, va, mi, ma, pn, l, up, m, s, ops, ho, rfl⟩ := h
  exact (coh_new (S := (· = false)) rfl v u va mi ma pn l up m s false rfl).run rfl ops ho

theorem AnyHistory.coh {p} (h : AnyHistory p) : Coh (fun _ => True) p := by
  obtain ⟨v, u, va, mi, ma, pn, l, up, m, s, a, ops, rfl⟩ := h
  exact (coh_new trivial v u va mi ma pn l up m s a trivial).run trivial ops (fun _ _ => trivial)

theorem HardHistory.prior {p} (h : HardHistory p) :
    p.prior = ⟨⟨false, p.min.getD ninf, false⟩, ⟨true, p.max.getD pinf, false⟩, mkDist p false⟩ := by
  obtain ⟨a, ha, ea⟩ := h.coh.readMin rfl
  obtain ⟨b, hb, eb⟩ := h.coh.readMax rfl
  obtain ⟨c, hc, ec⟩ := h.coh.readDist rfl
  subst ha hb hc
  simp only [Par.prior, ea, eb, ec]

/-- the bounds part of `Inside` -/
theorem min_iff (p : Par) (x : Flt) : (∀ m, p.min = some m → m.toE ≤ x.toE) ↔ (p.min.getD ninf).toE ≤ x.toE := by
  cases e : p.min <;> simp [toE]

theorem max_iff (p : Par) (x : Flt) : (∀ m, p.max = some m → x.toE ≤ m.toE) ↔ x.toE ≤ (p.max.getD pinf).toE := by
  cases e : p.max <;> simp [toE]

theorem Proper.min {p} (h : Proper p) : p.min.getD ninf ≠ nan := by
  cases e : p.min with
  | none => simp
  | some m => have := h.1; simp_all

theorem Proper.max {p} (h : Proper p) : p.max.getD pinf ≠ nan := by
  cases e : p.max with
  | none => simp
  | some m => have := h.2.1; simp_all

/-- **C20.** In every history that leaves the smooth approximations off, for every proper prior and any bounds (unset,
finite, infinite, inverted), and every value that is a number:
* outside (the inclusive bounds or a uniform prior's support) the log-prior is minus infinity;
* at a finite value inside it is the logarithm of the prior density;
* `within_bounds` is true exactly inside.
Missing from the full statement (false, see the counterexamples below): `nan` values, improper uniform priors, values read
back before the prior is evaluated. -/
theorem C20_lnprior_partial (k : ℝ) (p : Par) (hp : HardHistory p) (hprop : Proper p) (hx : p.userValue ≠ nan) :
    (¬ Inside p p.userValue → p.lnprior k = ninf) ∧
    (∀ r, p.userValue = fin r → Inside p p.userValue → p.lnprior k = fin (Real.log (density p r))) ∧
    (p.withinBounds p.userValue = true ↔ Inside p p.userValue) := by
  have hpr := hp.prior
  have h1 := hardMin k _ _ hprop.min hx
  have h2 := hardMax k _ _ hprop.max hx
  refine ⟨?_, ?_, ?_⟩
  · intro hout
    simp only [Inside, min_iff, max_iff] at hout
    simp only [Par.lnprior, hpr, Prior.lnprior, h1, h2, mkDist]
    by_cases a1 : (p.min.getD ninf).toE ≤ p.userValue.toE
    · by_cases a2 : p.userValue.toE ≤ (p.max.getD pinf).toE
      · have a3 : ¬ (p.priorName = some .uniform →
            (p.lower : EReal) ≤ p.userValue.toE ∧ p.userValue.toE ≤ (p.upper : EReal)) := by tauto
        have hu : p.priorName = some .uniform := by tauto
        simp only [hu, hardUniform k _ _ (hprop.2.2.1 hu) _ hx]
        rw [if_pos a1, if_pos a2, if_neg (by tauto)]
        simp [add]
      · rw [if_neg a2]
        cases hn : p.priorName with
        | none => rw [if_pos a1]; simp [add]
        | some n =>
          rw [if_pos a1]
          cases n with
          | uniform =>
            simp only [hardUniform k _ _ (hprop.2.2.1 hn) _ hx]
            split <;> simp [add]
          | normal =>
            simp only [Dist.logPdf]
            cases e : p.userValue <;> simp_all [add]
    · rw [if_neg a1]
      have key : add ninf (if p.userValue.toE ≤ (p.max.getD pinf).toE then fin 0 else ninf) = ninf := by
        split <;> simp [add]
      rw [key]
      cases hn : p.priorName with
      | none => rfl
      | some n =>
        cases n with
        | uniform =>
          simp only [hardUniform k _ _ (hprop.2.2.1 hn) _ hx]
          split <;> simp [add]
        | normal =>
          simp only [Dist.logPdf]
          cases e : p.userValue <;> simp_all [add]
  · intro r hr hin
    simp only [Inside, min_iff, max_iff] at hin
    simp only [Par.lnprior, hpr, Prior.lnprior, h1, h2, mkDist, density]
    rw [if_pos hin.1, if_pos hin.2.1]
    cases hn : p.priorName with
    | none => simp [add]
    | some n =>
      cases n with
      | uniform =>
        simp only [hardUniform k _ _ (hprop.2.2.1 hn) _ hx]
        rw [if_pos (hin.2.2 hn)]
        simp [add]
      | normal =>
        simp only [hr, Dist.logPdf, add]
        rw [normalLog _ _ _ (hprop.2.2.2 hn)]
        simp
  · simp only [Inside, min_iff, max_iff, Par.withinBounds, hpr, Prior.withinBounds, mkDist]
    cases hn : p.priorName with
    | none => simp [le_iff _ _ hprop.min hx, le_iff _ _ hx hprop.max]
    | some n =>
      cases n with
      | normal => simp [le_iff _ _ hprop.min hx, le_iff _ _ hx hprop.max]
      | uniform =>
        simp only [Bool.and_eq_true, le_iff _ _ hprop.min hx, le_iff _ _ hx hprop.max,
          le_iff (fin p.lower) _ (by simp) hx, le_iff _ (fin p.upper) hx (by simp), toE]
        tauto

/-- A parameter with bounds `[0, 2]` and a uniform prior on `[0, 1]`, set to 3. -/
def exPar : Par :=
  (Par.new (fin 1) (fin 1) true (some (fin 0)) (some (fin 2)) (some .uniform) 0 1 0 1 false).run [.setValue (fin 3)]

theorem exPar_hard : HardHistory exPar := ⟨_, _, _, _, _, _, _, _, _, _, [.setValue (fin 3)], by simp, rfl⟩

example : HardHistory exPar ∧ Proper exPar ∧ exPar.userValue ≠ nan ∧ ¬ Inside exPar exPar.userValue := by
  refine ⟨exPar_hard, ?_, by simp [exPar, Par.run, Par.step, Par.setValue], ?_⟩
  · simp [Proper, exPar, Par.run, Par.step, Par.setValue, Par.new, Par.setAnalytic]
  · simp only [Inside, exPar, Par.run, Par.step, Par.setValue, Par.new, Par.setAnalytic, List.foldl, not_and]
    intro _ h
    have := h (fin 2) rfl
    simp only [toE, EReal.coe_le_coe_iff] at this
    norm_num at this

/-- C20 is false at `nan`: every parameter without prior gives `nan` the log-prior 0, although `within_bounds` rejects
it. -/
theorem C20_nan_counterexample (k : ℝ) (p : Par) (hp : HardHistory p) (h0 : p.priorName = none)
    (hx : p.userValue = nan) : p.lnprior k = fin 0 ∧ p.withinBounds p.userValue = false := by
  have hpr := hp.prior
  constructor
  · simp only [Par.lnprior, hpr, Prior.lnprior, mkDist, h0, hx, Bound.logPdf, Bound.signed, sub, add, neg, lt]
    simp [add]
  · simp only [Par.withinBounds, hpr, Prior.withinBounds, mkDist, h0, hx]
    cases p.min.getD ninf <;> simp [le]

example : HardHistory ((Par.new (fin 1) (fin 1) true none none none 0 0 0 0 false).run [.setValue nan]) :=
  ⟨_, _, _, _, _, _, _, _, _, _, [.setValue nan], by simp, rfl⟩

/-- C20 is false for improper uniform priors (`upper ≤ lower`): the log-prior is `nan` for every value, never `-inf` and
never finite. -/
theorem C20_improper_uniform_counterexample (k : ℝ) (p : Par) (hp : HardHistory p) (hu : p.priorName = some .uniform)
    (hle : p.upper ≤ p.lower) : p.lnprior k = nan := by
  simp only [Par.lnprior, hp.prior, Prior.lnprior, mkDist, hu, Dist.logPdf, scipyUniformLogPdf]
  rw [if_pos (by simp), if_neg (by linarith)]
  generalize add (Bound.logPdf _ _ _) _ = z
  cases z <;> simp [add]

example : ∃ p : Par, HardHistory p ∧ p.priorName = some .uniform ∧ p.upper ≤ p.lower :=
  ⟨Par.new (fin 1) (fin 1) true none none (some .uniform) 1 0 0 0 false, ⟨_, _, _, _, _, _, _, _, _, _, [], by simp, rfl⟩,
    rfl, by simp [Par.new, Par.setAnalytic]⟩

/-- Merely reading `value` changes the log-prior: for every varying parameter with `min ≤ max`, whatever out-of-bounds
number was assigned, after one read of `value` the value is inside the bounds and the bounds no longer reject it.
So the `-inf` of C20 is lost (and the assigned value too). -/
theorem C20_read_clamps_counterexample (p : Par) (hv : p.vary = true) (hx : p.value ≠ nan)
    (h1 : p.min.getD ninf ≠ nan) (h2 : p.max.getD pinf ≠ nan)
    (hle : (p.min.getD ninf).toE ≤ (p.max.getD pinf).toE) :
    let q := p.getValue.2
    q.userValue = p.getValue.1 ∧
    (∀ m, q.min = some m → m.toE ≤ q.userValue.toE) ∧ (∀ m, q.max = some m → q.userValue.toE ≤ m.toE) := by
  simp only [min_iff, max_iff]
  simp only [Par.getValue, hv, Par.setValue, Bool.not_true, Bool.false_eq_true, if_false]
  have lt_iff : ∀ x y : Flt, x ≠ nan → y ≠ nan → (lt x y = true ↔ x.toE < y.toE) := by
    intro x y hx hy
    cases x <;> cases y <;> simp_all [lt, toE]
  refine ⟨trivial, ?_, ?_⟩
  · split
    · split
      · exact le_refl _
      · next h => rwa [lt_iff _ _ h2 h1, not_lt] at h
    · split
      · exact le_refl _
      · next h => rwa [lt_iff _ _ hx h1, not_lt] at h
  · split
    · split
      · exact hle
      · exact le_refl _
    · next h =>
      rw [lt_iff _ _ h2 hx, not_lt] at h
      split
      · exact hle
      · exact h

/-- the concrete instance: value 3 for a parameter on `[0, 1]` has log-prior `-inf`; after reading `value` it has log-prior
0. -/
theorem C20_read_changes_lnprior (k : ℝ) :
    let p := (Par.new (fin 0) (fin 0) true (some (fin 0)) (some (fin 1)) none 0 0 0 0 false).run [.setValue (fin 3)]
    p.lnprior k = ninf ∧ (p.step .getValue).lnprior k = fin 0 := by
  intro p
  have h1 : HardHistory p := ⟨_, _, _, _, _, _, _, _, _, _, [.setValue (fin 3)], by simp, rfl⟩
  have h2 : HardHistory (p.step .getValue) :=
    ⟨_, _, _, _, _, _, _, _, _, _, [.setValue (fin 3), .getValue], by simp, rfl⟩
  have u2 : (p.step .getValue).userValue = fin 1 := by
    have : p.getValue.1 = fin 1 := by
      show (if lt (if lt (fin 1) (fin 3) then fin 1 else fin 3) (fin 0) then fin 0
        else (if lt (fin 1) (fin 3) then fin 1 else fin 3)) = fin 1
      norm_num [lt]
    exact this
  constructor
  · rw [Par.lnprior, h1.prior]
    show add (Bound.logPdf ⟨false, fin 0, false⟩ k (fin 3)) (Bound.logPdf ⟨true, fin 1, false⟩ k (fin 3)) = ninf
    rw [hardMin _ _ _ (by simp) (by simp), hardMax _ _ _ (by simp) (by simp)]
    simp only [toE, EReal.coe_le_coe_iff]
    norm_num [add]
  · rw [Par.lnprior, h2.prior, u2]
    show add (Bound.logPdf ⟨false, fin 0, false⟩ k (fin 1)) (Bound.logPdf ⟨true, fin 1, false⟩ k (fin 1)) = fin 0
    rw [hardMin _ _ _ (by simp) (by simp), hardMax _ _ _ (by simp) (by simp)]
    simp only [toE, EReal.coe_le_coe_iff]
    norm_num [add]

/-- A value accepted by `within_bounds` reads back unchanged (used by C22): the bounds leave it alone. -/
theorem C20_within_not_clamped (p : Par) (hp : AnyHistory p) (x : Flt) (h : p.withinBounds x = true) :
    (p.setValue x).getValue.1 = x := by
  obtain ⟨a, -, ea⟩ := hp.coh.readMin trivial
  obtain ⟨b, -, eb⟩ := hp.coh.readMax trivial
  simp only [Par.withinBounds, Prior.withinBounds, Par.prior, ea, eb, Bool.and_eq_true] at h
  obtain ⟨-, h1, h2⟩ := h
  have no : ∀ y z : Flt, le y z = true → lt z y = false := by
    intro y z hyz
    cases y <;> cases z <;> simp_all [le, lt]
  cases hv : p.vary <;> simp [Par.getValue, Par.setValue, hv, no _ _ h1, no _ _ h2]

/-! ### The flags of the cached objects -/

/-- The operations that keep the flag: everything except switching it off and *changing* a bound or a hyper-parameter of a
uniform prior, or the kind of prior. -/
def Keeps (p : Par) : Op → Prop
  | .setAnalytic b => b = true
  | .setMin v => v = p.min
  | .setMax v => v = p.max
  | .setPriorName v => v = p.priorName
  | .setLower v => p.priorName = some .uniform → v = p.lower
  | .setUpper v => p.priorName = some .uniform → v = p.upper
  | .setMu v => p.priorName = some .uniform → v = p.mu
  | .setSigma v => p.priorName = some .uniform → v = p.sigma
  | _ => True

/-- all three objects are smooth -/
def AllSmooth (p : Par) : Prop :=
  p.readMin = ⟨false, p.min.getD ninf, true⟩ ∧ p.readMax = ⟨true, p.max.getD pinf, true⟩ ∧ p.readDist = mkDist p true ∧
  Coh (fun _ => True) p ∧ p.minB.isSome ∧ p.maxB.isSome ∧ (p.priorName = some .uniform → p.dist.isSome)

theorem AllSmooth.of_setAnalytic {p} (h : Coh (fun _ => True) p) : AllSmooth (p.setAnalytic true) := by
  have hc := h.setAnalytic trivial true trivial
  obtain ⟨a, -, ea⟩ := h.readMin trivial
  obtain ⟨b, -, eb⟩ := h.readMax trivial
  obtain ⟨c, -, ec⟩ := h.readDist trivial
  refine ⟨?_, ?_, ?_, hc, rfl, rfl, ?_⟩
  · simp only [Par.setAnalytic, ea]; rfl
  · simp only [Par.setAnalytic, eb]; rfl
  · cases hn : p.priorName with
    | some n =>
      cases n with
      | uniform =>
        simp only [Par.setAnalytic, ec, hn, if_true, mkDist]; simp only [Par.readDist, Option.getD]
      | normal =>
        obtain ⟨c', -, ec'⟩ := hc.readDist trivial
        rw [ec']
        simp only [mkDist, Par.setAnalytic, hn]
    | none =>
      obtain ⟨c', -, ec'⟩ := hc.readDist trivial
      rw [ec']
      simp only [mkDist, Par.setAnalytic, hn]
  · intro hu
    have hu' : p.priorName = some .uniform := hu
    simp only [Par.setAnalytic, ec, hu', if_true, mkDist]; rfl

theorem AllSmooth.step {p} (h : AllSmooth p) (o : Op) (ho : Keeps p o) : AllSmooth (p.step o) := by
  obtain ⟨h1, h2, h3, h4, h5, h6, h7⟩ := h
  have hc : Coh (fun _ => True) (p.step o) := h4.step trivial o (fun _ _ => trivial)
  cases o with
  | setValue v => exact ⟨h1, h2, h3, hc, h5, h6, h7⟩
  | getValue =>
    simp only [Par.step, Par.getValue] at hc ⊢
    split
    · exact ⟨h1, h2, h3, h4, h5, h6, h7⟩
    · exact ⟨h1, h2, h3, ⟨h4.hmin, h4.hmax, h4.hdist⟩, h5, h6, h7⟩
  | evalPrior => exact ⟨h1, h2, h3, hc, rfl, rfl, fun _ => rfl⟩
  | setAnalytic b =>
    have hb : b = true := ho
    subst hb
    exact AllSmooth.of_setAnalytic h4
  | setMin v =>
    have hb : v = p.min := ho
    simp only [Par.step, Par.setMin, hb, if_true]
    exact ⟨h1, h2, h3, h4, h5, h6, h7⟩
  | setMax v =>
    have hb : v = p.max := ho
    simp only [Par.step, Par.setMax, hb, if_true]
    exact ⟨h1, h2, h3, h4, h5, h6, h7⟩
  | setPriorName v =>
    have hb : v = p.priorName := ho
    simp only [Par.step, Par.setPriorName, hb, if_true]
    exact ⟨h1, h2, h3, h4, h5, h6, h7⟩
  | setLower v =>
    have ho' : p.priorName = some .uniform → v = p.lower := ho
    by_cases e : v = p.lower
    · simp only [Par.step, Par.setLower, e, if_true]
      exact ⟨h1, h2, h3, h4, h5, h6, h7⟩
    · have hnu : p.priorName ≠ some .uniform := fun hu => e (ho' hu)
      simp only [Par.step, Par.setLower, e, if_false] at hc ⊢
      refine ⟨h1, h2, ?_, hc, h5, h6, fun hu => absurd hu hnu⟩
      simp only [Par.readDist, Par.newDist, mkDist, Option.getD]
      cases hn : p.priorName with
      | none => rfl
      | some n => cases n with
        | uniform => exact absurd hn hnu
        | normal => rfl
  | setUpper v =>
    have ho' : p.priorName = some .uniform → v = p.upper := ho
    by_cases e : v = p.upper
    · simp only [Par.step, Par.setUpper, e, if_true]
      exact ⟨h1, h2, h3, h4, h5, h6, h7⟩
    · have hnu : p.priorName ≠ some .uniform := fun hu => e (ho' hu)
      simp only [Par.step, Par.setUpper, e, if_false] at hc ⊢
      refine ⟨h1, h2, ?_, hc, h5, h6, fun hu => absurd hu hnu⟩
      simp only [Par.readDist, Par.newDist, mkDist, Option.getD]
      cases hn : p.priorName with
      | none => rfl
      | some n => cases n with
        | uniform => exact absurd hn hnu
        | normal => rfl
  | setMu v =>
    have ho' : p.priorName = some .uniform → v = p.mu := ho
    by_cases e : v = p.mu
    · simp only [Par.step, Par.setMu, e, if_true]
      exact ⟨h1, h2, h3, h4, h5, h6, h7⟩
    · have hnu : p.priorName ≠ some .uniform := fun hu => e (ho' hu)
      simp only [Par.step, Par.setMu, e, if_false] at hc ⊢
      refine ⟨h1, h2, ?_, hc, h5, h6, fun hu => absurd hu hnu⟩
      simp only [Par.readDist, Par.newDist, mkDist, Option.getD]
      cases hn : p.priorName with
      | none => rfl
      | some n => cases n with
        | uniform => exact absurd hn hnu
        | normal => rfl
  | setSigma v =>
    have ho' : p.priorName = some .uniform → v = p.sigma := ho
    by_cases e : v = p.sigma
    · simp only [Par.step, Par.setSigma, e, if_true]
      exact ⟨h1, h2, h3, h4, h5, h6, h7⟩
    · have hnu : p.priorName ≠ some .uniform := fun hu => e (ho' hu)
      simp only [Par.step, Par.setSigma, e, if_false] at hc ⊢
      refine ⟨h1, h2, ?_, hc, h5, h6, fun hu => absurd hu hnu⟩
      simp only [Par.readDist, Par.newDist, mkDist, Option.getD]
      cases hn : p.priorName with
      | none => rfl
      | some n => cases n with
        | uniform => exact absurd hn hnu
        | normal => rfl


/-! ### C25 -/

theorem hasDerivAt_smooth (k : ℝ) (f : ℝ → ℝ) (f' x : ℝ) (hf : HasDerivAt f f' x) :
    HasDerivAt (fun x => smoothStep k (f x))
      (2 * k * f' * Real.exp (-2 * k * f x - Real.log (1 + Real.exp (-2 * k * f x)))) x := by
  have hpos : 0 < 1 + Real.exp (-2 * k * f x) := by positivity
  have h1 : HasDerivAt (fun x => 1 + Real.exp (-2 * k * f x)) (Real.exp (-2 * k * f x) * (-2 * k * f')) x := by
    have := ((hf.const_mul (-2 * k)).exp).const_add 1
    simpa using this
  have h2 := (h1.log hpos.ne').neg
  have e : (fun x => smoothStep k (f x)) = fun x => -Real.log (1 + Real.exp (-2 * k * f x)) := by
    funext y
    rw [smoothStep, one_div, Real.log_inv]
  rw [e]
  refine h2.congr_deriv ?_
  rw [Real.exp_sub, Real.exp_log hpos]
  field_simp

theorem negLogAddExp_eq (k y : ℝ) : negLogAddExp k (fin y) = fin (smoothStep k y) := by
  rw [smoothStep, one_div, Real.log_inv, negLogAddExp]

/-- a smooth minimum -/
theorem smoothMin (k : ℝ) (m : Option Flt) (h1 : m ≠ some nan) (h2 : m ≠ some pinf) (x : ℝ) :
    Bound.logPdf ⟨false, m.getD ninf, true⟩ k (fin x) = fin (smoothBound k m (fun a => x - a)) ∧
    ∃ d, Bound.derivLogPdf ⟨false, m.getD ninf, true⟩ k (fin x) = fin d ∧
      HasDerivAt (fun x => smoothBound k m (fun a => x - a)) d x := by
  have unset : Bound.logPdf ⟨false, ninf, true⟩ k (fin x) = fin 0 ∧
      Bound.derivLogPdf ⟨false, ninf, true⟩ k (fin x) = fin 0 := by
    constructor <;> simp [Bound.logPdf, Bound.derivLogPdf, Bound.signed, sub, add, neg, negLogAddExp]
  cases m with
  | none => exact ⟨unset.1, 0, unset.2, by simpa [smoothBound] using hasDerivAt_const x (0 : ℝ)⟩
  | some m =>
    cases m with
    | nan => exact absurd rfl h1
    | pinf => exact absurd rfl h2
    | ninf => exact ⟨unset.1, 0, unset.2, by simpa [smoothBound] using hasDerivAt_const x (0 : ℝ)⟩
    | fin a =>
      refine ⟨?_, _, ?_, hasDerivAt_smooth k (fun x => x - a) 1 x (by simpa using (hasDerivAt_id x).sub_const a)⟩
      · simp only [Option.getD, Bound.logPdf, Bound.signed, sub, add, neg, smoothBound]
        rw [if_neg (by simp), if_neg (by simp), negLogAddExp_eq]; simp [sub_eq_add_neg]
      · simp only [Option.getD, Bound.derivLogPdf, Bound.signed, sub, add, neg]
        simp [sub_eq_add_neg]

/-- a smooth maximum -/
theorem smoothMax (k : ℝ) (m : Option Flt) (h1 : m ≠ some nan) (h2 : m ≠ some ninf) (x : ℝ) :
    Bound.logPdf ⟨true, m.getD pinf, true⟩ k (fin x) = fin (smoothBound k m (fun a => a - x)) ∧
    ∃ d, Bound.derivLogPdf ⟨true, m.getD pinf, true⟩ k (fin x) = fin d ∧
      HasDerivAt (fun x => smoothBound k m (fun a => a - x)) d x := by
  have unset : Bound.logPdf ⟨true, pinf, true⟩ k (fin x) = fin 0 ∧
      Bound.derivLogPdf ⟨true, pinf, true⟩ k (fin x) = fin 0 := by
    constructor <;> simp [Bound.logPdf, Bound.derivLogPdf, Bound.signed, sub, add, neg, negLogAddExp]
  cases m with
  | none => exact ⟨unset.1, 0, unset.2, by simpa [smoothBound] using hasDerivAt_const x (0 : ℝ)⟩
  | some m =>
    cases m with
    | nan => exact absurd rfl h1
    | ninf => exact absurd rfl h2
    | pinf => exact ⟨unset.1, 0, unset.2, by simpa [smoothBound] using hasDerivAt_const x (0 : ℝ)⟩
    | fin a =>
      refine ⟨?_, _, ?_, hasDerivAt_smooth k (fun x => a - x) (-1) x (by simpa using (hasDerivAt_id x).const_sub a)⟩
      · simp only [Option.getD, Bound.logPdf, Bound.signed, sub, add, neg, smoothBound]
        rw [if_neg (by simp)]; simp only [if_true]; rw [negLogAddExp_eq]; congr 2; ring
      · simp only [Option.getD, Bound.derivLogPdf, Bound.signed, sub, add, neg]
        simp only [if_true, show -(x + -a) = a - x by ring]

/-- the smooth uniform prior -/
theorem smoothUniform (k l u x : ℝ) (h : l < u) :
    Dist.logPdf k (.uniform l u true) (fin x) =
      fin (Real.log (1 / (u - l)) + smoothStep k (1 / 4 - ((x - (l + u) / 2) / (u - l)) ^ 2)) ∧
    ∃ d, Dist.derivLogPdf k (.uniform l u true) (fin x) = fin d ∧
      HasDerivAt (fun x => Real.log (1 / (u - l)) + smoothStep k (1 / 4 - ((x - (l + u) / 2) / (u - l)) ^ 2)) d x := by
  have hw : u - l ≠ 0 := by intro e; linarith
  have hc : (0.5 : ℝ) * (l + u) = (l + u) / 2 := by ring
  have hq : (0.25 : ℝ) = 1 / 4 := by norm_num
  have hin : HasDerivAt (fun x => 1 / 4 - ((x - (l + u) / 2) / (u - l)) ^ 2)
      (-(2 * ((x - (l + u) / 2) / (u - l)) * (1 / (u - l)))) x := by
    have h0 : HasDerivAt (fun x => (x - (l + u) / 2) / (u - l)) (1 / (u - l)) x := by
      simpa using ((hasDerivAt_id x).sub_const ((l + u) / 2)).div_const (u - l)
    have h1 := (h0.pow 2).const_sub (1 / 4)
    refine h1.congr_deriv ?_
    simp
  refine ⟨?_, _, rfl, ((hasDerivAt_smooth k _ _ x hin).const_add _).congr_deriv ?_⟩
  · simp only [Dist.logPdf, uniformAnalyticLogPdf, hc, hq]
    rw [if_neg (by simp)]; simp only [smoothStep, one_div, Real.log_inv, sub_eq_add_neg]
  · simp only [hc, hq]
    ring

/-- the normal prior -/
theorem normal_deriv (m s x : ℝ) :
    HasDerivAt (fun x => -0.5 * Real.log (2 * Real.pi * s ^ 2) - 0.5 * ((x - m) / s) ^ 2) ((m - x) / s ^ 2) x := by
  have h0 : HasDerivAt (fun x => (x - m) / s) (1 / s) x := by
    simpa using ((hasDerivAt_id x).sub_const m).div_const s
  have h1 := ((h0.pow 2).const_mul (0.5 : ℝ)).const_sub (-0.5 * Real.log (2 * Real.pi * s ^ 2))
  refine h1.congr_deriv ?_
  by_cases hs : s = 0
  · simp [hs]
  · norm_num
    field_simp
    ring

/-- **C26, first half.** Immediately after `analytic` is switched on, whatever happened before, the log-prior at every
finite value is the smooth approximation.
**C25.** And the reported derivative is its derivative, at every finite value. -/
theorem C25_gradient_partial (k : ℝ) (p : Par) (hp : AnyHistory p) (hprop : Proper p) (h1 : p.min ≠ some pinf)
    (h2 : p.max ≠ some ninf) (x : ℝ) :
    let q := (p.step (.setAnalytic true)).step (.setValue (fin x))
    q.lnprior k = fin (smoothLnprior k p x) ∧
    ∃ d, q.dlnprior k = fin d ∧ HasDerivAt (smoothLnprior k p) d x := by
  obtain ⟨s1, s2, s3, -⟩ := AllSmooth.of_setAnalytic hp.coh
  have hpr : ((p.step (.setAnalytic true)).step (.setValue (fin x))).prior =
      ⟨⟨false, p.min.getD ninf, true⟩, ⟨true, p.max.getD pinf, true⟩, mkDist p true⟩ := by
    have e1 : ((p.step (.setAnalytic true)).step (.setValue (fin x))).readMin = _ := s1
    have e2 : ((p.step (.setAnalytic true)).step (.setValue (fin x))).readMax = _ := s2
    have e3 : ((p.step (.setAnalytic true)).step (.setValue (fin x))).readDist = _ := s3
    simp only [Par.prior, e1, e2, e3]
    rfl
  obtain ⟨m1, d1, m2, m3⟩ := smoothMin k p.min hprop.1 h1 x
  obtain ⟨n1, d2, n2, n3⟩ := smoothMax k p.max hprop.2.1 h2 x
  intro q
  have hux : q.userValue = fin x := rfl
  simp only [Par.lnprior, Par.dlnprior, hux]
  rw [show q.prior = _ from hpr]
  simp only [Prior.lnprior, Prior.dlnprior, m1, n1, m2, n2, mkDist, add]
  cases hn : p.priorName with
  | none =>
    refine ⟨by simp [smoothLnprior, hn, density], d1 + d2, rfl, ?_⟩
    have := m3.add n3
    refine this.congr_of_eventuallyEq (Filter.Eventually.of_forall fun y => ?_)
    simp [smoothLnprior, hn, density]
  | some n =>
    cases n with
    | uniform =>
      obtain ⟨u1, d3, u2, u3⟩ := smoothUniform k p.lower p.upper x (hprop.2.2.1 hn)
      simp only [u1, u2]
      refine ⟨by simp [smoothLnprior, hn, add], d1 + d2 + d3, rfl, ?_⟩
      refine ((m3.add n3).add u3).congr_of_eventuallyEq (Filter.Eventually.of_forall fun y => ?_)
      simp [smoothLnprior, hn]
    | normal =>
      simp only [Dist.logPdf, Dist.derivLogPdf]
      have hs := hprop.2.2.2 hn
      refine ⟨?_, _, rfl, ?_⟩
      · simp only [smoothLnprior, hn, density, add, normalLog _ _ _ hs]
      · refine ((m3.add n3).add (normal_deriv p.mu p.sigma x)).congr_of_eventuallyEq
          (Filter.Eventually.of_forall fun y => ?_)
        simp only [smoothLnprior, hn, density, Pi.add_apply, normalLog _ _ _ hs]

example : AnyHistory exPar ∧ Proper exPar ∧ exPar.min ≠ some pinf ∧ exPar.max ≠ some ninf := by
  refine ⟨⟨_, _, _, _, _, _, _, _, _, _, _, [.setValue (fin 3)], rfl⟩, ?_, ?_, ?_⟩ <;>
  simp [Proper, exPar, Par.run, Par.step, Par.setValue, Par.new, Par.setAnalytic]

/-- C25 is false with the hard bounds: for every parameter with a finite minimum, no maximum and no prior, the log-prior is
constant above the minimum but the reported derivative is strictly positive everywhere. -/
theorem C25_hard_counterexample (k : ℝ) (hk : 0 < k) (p : Par) (hp : HardHistory p) (a : ℝ) (hmin : p.min = some (fin a))
    (hmax : p.max = none) (hn : p.priorName = none) :
    (∀ y, a ≤ y → (p.setValue (fin y)).lnprior k = fin 0) ∧
    ∀ x, ∃ d, (p.setValue (fin x)).dlnprior k = fin d ∧ 0 < d := by
  have hpr : ∀ y, (p.setValue (fin y)).prior = _ := fun y => hp.prior
  constructor
  · intro y hy
    simp only [Par.lnprior, hpr, Prior.lnprior, hmin, hmax, mkDist, hn, Option.getD]
    rw [show (p.setValue (fin y)).userValue = fin y from rfl, hardMin _ _ _ (by simp) (by simp), hardMax _ _ _ (by simp) (by simp)]
    simp [toE, hy, add]
  · intro x
    simp only [Par.dlnprior, hpr, Prior.dlnprior, hmin, hmax, mkDist, hn, Option.getD]
    rw [show (p.setValue (fin x)).userValue = fin x from rfl]
    refine ⟨_, rfl, ?_⟩
    simp only [if_false, Bool.false_eq_true, add_zero]
    positivity

/-- How wrong it is: with hard bounds, no prior and `k > 0`, the reported derivative differs from the true one (0 inside) by at
most `2k(exp(-2k(x-min)) + exp(-2k(max-x)))`. -/
theorem C25_hard_error (k : ℝ) (hk : 0 < k) (p : Par) (hp : HardHistory p) (a b x : ℝ) (hmin : p.min = some (fin a))
    (hmax : p.max = some (fin b)) (hn : p.priorName = none) :
    ∃ d, (p.setValue (fin x)).dlnprior k = fin d ∧
      |d| ≤ 2 * k * (Real.exp (-2 * k * (x - a)) + Real.exp (-2 * k * (b - x))) := by
  have hpr : ∀ y, (p.setValue (fin y)).prior = _ := fun y => hp.prior
  simp only [Par.dlnprior, hpr, Prior.dlnprior, hmin, hmax, mkDist, hn, Option.getD]
  rw [show (p.setValue (fin x)).userValue = fin x from rfl]
  refine ⟨_, rfl, ?_⟩
  have key : ∀ y, 0 ≤ Real.exp (-2 * k * y - Real.log (1 + Real.exp (-2 * k * y))) ∧
      Real.exp (-2 * k * y - Real.log (1 + Real.exp (-2 * k * y))) ≤ Real.exp (-2 * k * y) := by
    intro y
    refine ⟨(Real.exp_pos _).le, Real.exp_le_exp.2 ?_⟩
    have : 0 ≤ Real.log (1 + Real.exp (-2 * k * y)) := Real.log_nonneg (by linarith [Real.exp_pos (-2 * k * y)])
    linarith
  simp only [if_true, if_false, Bool.false_eq_true]
  obtain ⟨p1, p2⟩ := key (x + -a)
  obtain ⟨q1, q2⟩ := key (-(x + -b))
  rw [show x - a = x + -a by ring, show b - x = -(x + -b) by ring]
  rw [abs_le]
  constructor <;> nlinarith

/-! ### C26 -/

/-- every operation of the history keeps the flag, in the state in which it happens -/
def AllKeep (p : Par) : List Op → Prop
  | [] => True
  | o :: os => Keeps p o ∧ AllKeep (p.step o) os

theorem AllSmooth.run {p} (h : AllSmooth p) (ops : List Op) (ho : AllKeep p ops) : AllSmooth (p.run ops) := by
  induction ops generalizing p with
  | nil => exact h
  | cons o os ih => exact ih (h.step o ho.1) ho.2

/-- **C26 (partial).** Once `analytic` is switched on, log-prior evaluations use the smooth approximation after every further
history that does not switch it off and does not *change* bounds, the kind of prior, or hyper-parameters of a uniform
prior.  Missing: the statement with such changes is false (`C26_counterexample`). -/
theorem C26_sticks_partial (k : ℝ) (p : Par) (hp : AnyHistory p) (ops : List Op)
    (hk : AllKeep (p.step (.setAnalytic true)) ops) (x : ℝ) :
    let q := ((p.step (.setAnalytic true)).run ops).step (.setValue (fin x))
    Proper q → q.min ≠ some pinf → q.max ≠ some ninf → q.lnprior k = fin (smoothLnprior k q x) := by
  intro q hprop h1 h2
  obtain ⟨s1, s2, s3, -⟩ := (AllSmooth.of_setAnalytic hp.coh).run ops hk
  have hpr : q.prior = ⟨⟨false, q.min.getD ninf, true⟩, ⟨true, q.max.getD pinf, true⟩, mkDist q true⟩ := by
    have e1 : q.readMin = _ := s1
    have e2 : q.readMax = _ := s2
    have e3 : q.readDist = _ := s3
    simp only [Par.prior, e1, e2, e3]
    rfl
  obtain ⟨m1, -⟩ := smoothMin k q.min hprop.1 h1 x
  obtain ⟨n1, -⟩ := smoothMax k q.max hprop.2.1 h2 x
  have hux : q.userValue = fin x := rfl
  simp only [Par.lnprior, hux, hpr, Prior.lnprior, m1, n1, mkDist, add]
  cases hn : q.priorName with
  | none => simp [smoothLnprior, hn, density]
  | some n =>
    cases n with
    | uniform =>
      obtain ⟨u1, -⟩ := smoothUniform k q.lower q.upper x (hprop.2.2.1 hn)
      simp only [u1, smoothLnprior, hn, add]
    | normal =>
      have hs := hprop.2.2.2 hn
      simp only [Dist.logPdf, smoothLnprior, hn, density, add, normalLog _ _ _ hs]

/-- a non-trivial history satisfying the hypothesis -/
example : AllKeep (exPar.step (.setAnalytic true)) [.evalPrior, .setMin (some (fin 0)), .setMu 0, .getValue, .setAnalytic true] := by
  simp only [AllKeep, Keeps]
  simp [exPar, Par.run, Par.step, Par.setValue, Par.setMin, Par.touch, Par.new, Par.setAnalytic]

/-- C26 is false in general: for every parameter, changing the minimum after switching `analytic` on makes the minimum hard
again: the log-prior of every value below it is minus infinity (or `nan`), not the finite smooth approximation. -/
theorem C26_counterexample (k : ℝ) (p : Par) (a x : ℝ) (hne : p.min ≠ some (fin a)) (hx : x < a) :
    let q := ((p.step (.setAnalytic true)).step (.setMin (some (fin a)))).step (.setValue (fin x))
    q.analytic = true ∧ ¬ ∃ r, q.lnprior k = fin r := by
  have hne' : ¬ (some (fin a) = (p.setAnalytic true).min) := fun e => hne e.symm
  intro q
  have hq : q = (((p.setAnalytic true).setMin (some (fin a))).setValue (fin x)) := rfl
  simp only [Par.setMin, hne', if_false] at hq
  constructor
  · rw [hq]; rfl
  · have hm : q.readMin = ⟨false, fin a, false⟩ := by rw [hq]; rfl
    have hlt : lt (fin (x + -a)) (fin 0) = true := by simp [lt]; linarith
    have hux : q.userValue = fin x := by rw [hq]; rfl
    have hl : q.readMin.logPdf k (fin x) = ninf := by
      rw [hm]; simp [Bound.logPdf, Bound.signed, sub, add, neg, hlt]
    rintro ⟨r, hr⟩
    simp only [Par.lnprior, hux, Prior.lnprior, Par.prior, hl] at hr
    have no : ∀ y z, add (add ninf y) z ≠ fin r := by
      intro y z; cases y <;> cases z <;> simp [add]
    have no' : ∀ y, add ninf y ≠ fin r := by
      intro y; cases y <;> simp [add]
    split at hr
    · exact no' _ hr
    · exact no _ _ hr

end
end Verif.Priors
