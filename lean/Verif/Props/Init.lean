/-
C77: starting points.
-/
import Verif.Model.Init
import Verif.Props.Prior

namespace Verif.Init

open Verif.Priors Verif.Priors.Flt

noncomputable section

/-- Every value lies within the bounds of its parameter and the support of its uniform prior (as many values as parameters). -/
def AllInside (pars : List Par) (v : List ℝ) : Prop := List.Forall₂ (fun p x => Inside p (fin x)) pars v

/-- Parameters after arbitrary histories, with proper priors and bounds. -/
def Ready (pars : List Par) : Prop := ∀ p ∈ pars, AnyHistory p ∧ Proper p

/-- The same with the smooth approximations off (as in MCMC runs). -/
def HardReady (pars : List Par) : Prop := ∀ p ∈ pars, HardHistory p ∧ Proper p

theorem within_iff (p : Par) (hp : AnyHistory p) (hprop : Proper p) (x : ℝ) : p.withinBounds (fin x) = true ↔ Inside p (fin x) := by
  obtain ⟨a, -, ea⟩ := hp.coh.readMin trivial
  obtain ⟨b, -, eb⟩ := hp.coh.readMax trivial
  obtain ⟨c, -, ec⟩ := hp.coh.readDist trivial
  have hx : fin x ≠ nan := by simp
  simp only [Inside, min_iff, max_iff, Par.withinBounds, Par.prior, ea, eb, ec, Prior.withinBounds, mkDist]
  cases hn : p.priorName with
  | none => simp [le_iff _ _ hprop.min hx, le_iff _ _ hx hprop.max]
  | some n =>
    cases n with
    | normal => simp [le_iff _ _ hprop.min hx, le_iff _ _ hx hprop.max]
    | uniform =>
      simp only [Bool.and_eq_true, le_iff _ _ hprop.min hx, le_iff _ _ hx hprop.max,
        le_iff (fin p.lower) _ (by simp) hx, le_iff _ (fin p.upper) hx (by simp), toE]
      tauto

theorem allWithin_iff (pars : List Par) (hp : Ready pars) (v : List ℝ) (hl : v.length = pars.length) :
    allWithin (setAll pars v) = true ↔ AllInside pars v := by
  unfold allWithin setAll AllInside
  induction pars generalizing v with
  | nil =>
    have : v = [] := by simpa using hl
    subst this; simp
  | cons p t ih =>
    cases v with
    | nil => simp at hl
    | cons x v =>
      have hp1 := hp p List.mem_cons_self
      rw [List.zipWith_cons_cons, List.all_cons, Bool.and_eq_true, List.forall₂_cons, ih (fun q hq => hp q (List.mem_cons_of_mem _ hq)) v (by simpa using hl)]
      rw [← within_iff p hp1.1 hp1.2 x]
      rfl

theorem setAll_setAll (pars : List Par) (v w : List ℝ) (h : v.length = pars.length) : setAll (setAll pars v) w = setAll pars w := by
  unfold setAll
  induction pars generalizing v w with
  | nil => rfl
  | cons p t ih =>
    cases v with
    | nil => simp at h
    | cons x v =>
      cases w with
      | nil => rfl
      | cons y w => rw [List.zipWith_cons_cons, List.zipWith_cons_cons, List.zipWith_cons_cons, ih v w (by simpa using h)]; rfl

theorem drawLoop_spec (draw : ℕ → List ℝ) (fuel t : ℕ) (pars : List Par) (hp : Ready pars) (hl : ∀ t, (draw t).length = pars.length) :
    (∀ p0 pars', drawLoop draw fuel t pars = some (p0, pars') →
      ∃ m, t ≤ m ∧ m < t + fuel ∧ p0 = draw m ∧ AllInside pars p0 ∧ (∀ j, t ≤ j → j < m → ¬ AllInside pars (draw j)) ∧ pars' = setAll pars p0) ∧
    (drawLoop draw fuel t pars = none ↔ ∀ j, t ≤ j → j < t + fuel → ¬ AllInside pars (draw j)) := by
  have key : ∀ (vs : List Par) (t : ℕ), (∀ w, setAll vs w = setAll pars w) →
      (∀ p0 pars', drawLoop draw fuel t vs = some (p0, pars') →
      ∃ m, t ≤ m ∧ m < t + fuel ∧ p0 = draw m ∧ AllInside pars p0 ∧ (∀ j, t ≤ j → j < m → ¬ AllInside pars (draw j)) ∧ pars' = setAll pars p0) ∧
      (drawLoop draw fuel t vs = none ↔ ∀ j, t ≤ j → j < t + fuel → ¬ AllInside pars (draw j)) := by
    induction fuel with
    | zero =>
      intro vs t _
      refine ⟨?_, ?_⟩
      · intro p0 pars' h; cases h
      · refine ⟨fun _ j h1 h2 => ?_, fun _ => rfl⟩
        omega
    | succ fuel ih =>
      intro vs t hvs
      rw [drawLoop]
      simp only [hvs]
      by_cases hw : AllInside pars (draw t)
      · rw [if_pos ((allWithin_iff pars hp _ (hl t)).2 hw)]
        refine ⟨?_, ?_⟩
        · intro p0 pars' h
          cases h
          exact ⟨t, le_rfl, by omega, rfl, hw, fun j h1 h2 => by omega, rfl⟩
        · constructor
          · intro h; cases h
          · intro h; exact absurd hw (h t le_rfl (by omega))
      · rw [if_neg (fun h => hw ((allWithin_iff pars hp _ (hl t)).1 h))]
        obtain ⟨i1, i2⟩ := ih (setAll pars (draw t)) (t + 1) fun w => setAll_setAll pars _ w (hl t)
        refine ⟨?_, ?_⟩
        · intro p0 pars' h
          obtain ⟨m, h1, h2, h3, h4, h5, h6⟩ := i1 p0 pars' h
          refine ⟨m, by omega, by omega, h3, h4, fun j j1 j2 => ?_, h6⟩
          by_cases hj : j = t
          · rw [hj]; exact hw
          · exact h5 j (by omega) j2
        · rw [i2]
          constructor
          · intro h j j1 j2
            by_cases hj : j = t
            · rw [hj]; exact hw
            · exact h j (by omega) (by omega)
          · intro h j j1 j2
            exact h j (by omega) (by omega)
  exact key pars t fun _ => rfl

/-- C77, optimiser started from the prior: for every stream of draws, the point returned is the first draw that lies within all bounds and uniform supports,
the parameters hold it, and the loop ends exactly if there is such a draw. -/
theorem C77_prior (draw : ℕ → List ℝ) (pars : List Par) (hp : Ready pars) (hl : ∀ t, (draw t).length = pars.length) :
    (∀ fuel p0 pars', drawLoop draw fuel 0 pars = some (p0, pars') →
      AllInside pars p0 ∧ pars' = setAll pars p0 ∧ ∃ m, p0 = draw m ∧ ∀ j < m, ¬ AllInside pars (draw j)) ∧
    ((∃ fuel, (drawLoop draw fuel 0 pars).isSome) ↔ ∃ t, AllInside pars (draw t)) := by
  refine ⟨?_, ?_⟩
  · intro fuel p0 pars' h
    obtain ⟨m, -, -, h3, h4, h5, h6⟩ := (drawLoop_spec draw fuel 0 pars hp hl).1 p0 pars' h
    exact ⟨h4, h6, m, h3, fun j hj => h5 j (Nat.zero_le _) hj⟩
  · constructor
    · rintro ⟨fuel, h⟩
      obtain ⟨⟨p0, pars'⟩, e⟩ := Option.isSome_iff_exists.1 h
      obtain ⟨m, -, -, h3, h4, -⟩ := (drawLoop_spec draw fuel 0 pars hp hl).1 p0 pars' e
      exact ⟨m, h3 ▸ h4⟩
    · rintro ⟨t, ht⟩
      refine ⟨t + 1, ?_⟩
      rw [Option.isSome_iff_ne_none]
      intro hn
      exact (drawLoop_spec draw (t + 1) 0 pars hp hl).2.1 hn t (Nat.zero_le _) (by omega) ht

/-- C77, optimiser started with scatter about a point with non-negative coordinates: the point returned lies within all bounds. -/
theorem C77_scatter (x : List ℝ) (scatter : ℝ) (hs : 0 < scatter) (z : ℕ → List ℝ) (fuel : ℕ) (pars : List Par) (hp : Ready pars) (hx : x.length = pars.length)
    (hz : ∀ t, (z t).length = pars.length) (p0 : List ℝ) (pars' : List Par) (h : lbfgsInit x scatter z fuel pars = .done p0 pars') :
    AllInside pars p0 ∧ pars' = setAll pars p0 ∧ ∃ m, p0 = scattered x scatter (z m) := by
  unfold lbfgsInit at h
  rw [if_pos hs] at h
  split at h
  · cases h
  · split at h
    · rename_i p0' pars'' hd
      cases h
      obtain ⟨h1, h2, m, h3, -⟩ := (C77_prior _ pars hp (fun t => by simp [scattered, hx, hz])).1 fuel p0 pars' hd
      exact ⟨h1, h2, m, h3⟩
    · cases h

/-- C77, what scattering cannot do: with a negative coordinate it always fails (an error, whatever the random numbers), and a coordinate that is zero is not scattered
at all. -/
theorem C77_scatter_counterexample (x : List ℝ) (scatter : ℝ) (hs : 0 < scatter) (z : ℕ → List ℝ) (fuel : ℕ) (pars : List Par) :
    ((∃ xi ∈ x, xi < 0) → lbfgsInit x scatter z fuel pars = .error) ∧
    (∀ (i : ℕ) (w : List ℝ) (h : i < x.length) (h' : i < (scattered x scatter w).length), x[i] = 0 → (scattered x scatter w)[i] = 0) := by
  refine ⟨?_, ?_⟩
  · rintro ⟨xi, h1, h2⟩
    unfold lbfgsInit
    rw [if_pos hs, if_pos ⟨xi, h1, mul_neg_of_pos_of_neg hs h2⟩]
  · intro i w h h' hx
    simp [scattered, hx]

/-- C77, violation (1): without scatter the starting point of the optimiser is not checked. -/
theorem C77_unchecked_counterexample (x : List ℝ) (z : ℕ → List ℝ) (fuel : ℕ) (pars : List Par) : lbfgsInit x 0 z fuel pars = .done x pars := by
  unfold lbfgsInit
  rw [if_neg (lt_irrefl _)]

theorem checkPar_iff (k : ℝ) (p : Par) (hp : HardHistory p) (hprop : Proper p) (x : ℝ) : checkPar k (p.setValue (fin x)) = true ↔ Inside p (fin x) := by
  have hh : HardHistory (p.setValue (fin x)) := by
    obtain ⟨v, u, va, mi, ma, pn, l, up, m, s, ops, ho, rfl⟩ := hp
    exact ⟨v, u, va, mi, ma, pn, l, up, m, s, ops ++ [.setValue (fin x)], by simpa using ho, by simp [Par.run, Par.step]⟩
  have hpr : Proper (p.setValue (fin x)) := hprop
  obtain ⟨c1, c2, c3⟩ := C20_lnprior_partial k _ hh hpr (show (p.setValue (fin x)).userValue ≠ nan by simp [Par.setValue])
  have hin : Inside (p.setValue (fin x)) (fin x) ↔ Inside p (fin x) := Iff.rfl
  have hu : (p.setValue (fin x)).userValue = fin x := rfl
  rw [hu] at c1 c2 c3
  unfold checkPar
  rw [hu]
  by_cases hi : Inside p (fin x)
  · have hw := c3.2 (hin.2 hi)
    have hl := c2 x rfl (hin.2 hi)
    simp [hw, hl, isInf, hi]
  · have hw : (p.setValue (fin x)).withinBounds (fin x) = false := by
      rw [Bool.eq_false_iff]; intro h; exact hi (hin.1 (c3.1 h))
    have hl := c1 (fun h => hi (hin.1 h))
    simp only [hi, iff_false, Bool.not_eq_true]
    by_cases hb : (p.min.isSome || p.max.isSome) = true
    · have : ((p.setValue (fin x)).min.isSome || (p.setValue (fin x)).max.isSome) = true := hb
      rw [this, hw]; rfl
    · rw [Bool.not_eq_true, Bool.or_eq_false_iff] at hb
      have hpn : p.priorName = some .uniform := by
        by_contra hne
        apply hi
        refine ⟨?_, ?_, fun h => absurd h hne⟩
        · intro m hm; rw [hm] at hb; simp at hb
        · intro m hm; rw [hm] at hb; simp at hb
      have hd : (p.setValue (fin x)).readDist.isSome = true := by
        have := hh.prior
        have h2 : (p.setValue (fin x)).readDist = mkDist (p.setValue (fin x)) false := congrArg Prior.dist this
        rw [h2]
        have : (p.setValue (fin x)).priorName = some .uniform := hpn
        simp [mkDist, this]
      rw [hl, hd]
      simp [isInf]

theorem check_iff (k : ℝ) (pars : List Par) (hp : HardReady pars) (v : List ℝ) (hl : v.length = pars.length) :
    check k (setAll pars v) = true ↔ AllInside pars v := by
  unfold check setAll AllInside
  induction pars generalizing v with
  | nil =>
    have : v = [] := by simpa using hl
    subst this; simp
  | cons p t ih =>
    cases v with
    | nil => simp at hl
    | cons x v =>
      have hp1 := hp p List.mem_cons_self
      rw [List.zipWith_cons_cons, List.all_cons, Bool.and_eq_true, List.forall₂_cons, ih (fun q hq => hp q (List.mem_cons_of_mem _ hq)) v (by simpa using hl),
        checkPar_iff k p hp1.1 hp1.2 x]

/-- The attempts for a walker: the initial draw, then the further ones. -/
def attempt (first : List ℝ) (redraw : ℕ → List ℝ) : ℕ → List ℝ
  | 0 => first
  | j + 1 => redraw (j + 1)

/-- What is returned for a walker: the first of 102 attempts that is in bounds, or the last one unchecked. -/
def Chosen (pars : List Par) (first : List ℝ) (redraw : ℕ → List ℝ) (w : List ℝ) : Prop :=
  ∃ j ≤ 101, w = attempt first redraw j ∧ (∀ i < j, ¬ AllInside pars (attempt first redraw i)) ∧ (j < 101 → AllInside pars w)

theorem walkerLoop_spec (k : ℝ) (first : List ℝ) (redraw : ℕ → List ℝ) (pars : List Par) (hp : HardReady pars)
    (hl : ∀ j, (attempt first redraw j).length = pars.length) (rem j : ℕ) (hr : rem + j = 101) (vs : List Par) (hvs : ∀ w, setAll vs w = setAll pars w)
    (hprev : ∀ i < j, ¬ AllInside pars (attempt first redraw i)) :
    Chosen pars first redraw (walkerLoop k redraw rem j (attempt first redraw j) vs).1 ∧
    ∀ w, setAll (walkerLoop k redraw rem j (attempt first redraw j) vs).2 w = setAll pars w := by
  induction rem generalizing j vs with
  | zero =>
    have : j = 101 := by omega
    subst this
    rw [walkerLoop]
    exact ⟨⟨101, le_rfl, rfl, hprev, fun h => by omega⟩, fun w => by rw [hvs]; exact setAll_setAll pars _ w (hl _)⟩
  | succ rem ih =>
    rw [walkerLoop]
    simp only [hvs]
    by_cases hc : AllInside pars (attempt first redraw j)
    · rw [if_pos ((check_iff k pars hp _ (hl j)).2 hc)]
      exact ⟨⟨j, by omega, rfl, hprev, fun _ => hc⟩, fun w => setAll_setAll pars _ w (hl _)⟩
    · rw [if_neg (fun h => hc ((check_iff k pars hp _ (hl j)).1 h))]
      refine ih (j + 1) (by omega) _ (fun w => setAll_setAll pars _ w (hl _)) fun i hi => ?_
      by_cases hij : i = j
      · rw [hij]; exact hc
      · exact hprev i (by omega)

/-- C77, MCMC started from the priors (partial: see the violation below): there is one point per walker, and it is the first of its 102 attempts that lies within all
bounds and uniform supports, if the first 101 contain one. -/
theorem C77_univariate_partial (k : ℝ) (first : List (List ℝ)) (redraw : ℕ → ℕ → List ℝ) (pars : List Par) (hp : HardReady pars)
    (hf : ∀ w ∈ first, w.length = pars.length) (hr : ∀ i j, (redraw i j).length = pars.length) :
    (univariateInit k redraw 0 first pars).length = first.length ∧
    ∀ i (h : i < first.length) (h' : i < (univariateInit k redraw 0 first pars).length), Chosen pars first[i] (redraw i) (univariateInit k redraw 0 first pars)[i] := by
  have key : ∀ (l : List (List ℝ)) (n : ℕ) (vs : List Par), (∀ w ∈ l, w.length = pars.length) → (∀ w, setAll vs w = setAll pars w) →
      (univariateInit k redraw n l vs).length = l.length ∧
      ∀ i (h : i < l.length) (h' : i < (univariateInit k redraw n l vs).length), Chosen pars l[i] (redraw (n + i)) (univariateInit k redraw n l vs)[i] := by
    intro l
    induction l with
    | nil => intro n vs _ _; exact ⟨rfl, fun i h => by simp at h⟩
    | cons w t ih =>
      intro n vs hlen hvs
      have hl : ∀ j, (attempt w (redraw n) j).length = pars.length := by
        intro j
        cases j with
        | zero => exact hlen w List.mem_cons_self
        | succ j => exact hr n (j + 1)
      obtain ⟨c1, c2⟩ := walkerLoop_spec k w (redraw n) pars hp hl 101 0 rfl vs hvs (fun i hi => by omega)
      obtain ⟨i1, i2⟩ := ih (n + 1) _ (fun w hw => hlen w (List.mem_cons_of_mem _ hw)) c2
      simp only [attempt] at c1 i1 i2
      refine ⟨by simp only [univariateInit, List.length_cons, i1], ?_⟩
      intro i h h'
      cases i with
      | zero => exact c1
      | succ i =>
        have := i2 i (by simpa using h) (by simpa [univariateInit] using h')
        have e : n + (i + 1) = n + 1 + i := by omega
        rw [e]
        simpa only [univariateInit, List.getElem_cons_succ] using this
  have := key first 0 pars hf fun _ => rfl
  simpa using this

/-- C77: if every walker gets a draw in bounds within its first 101 attempts, all starting points are in bounds. -/
theorem C77_univariate_in_bounds (k : ℝ) (first : List (List ℝ)) (redraw : ℕ → ℕ → List ℝ) (pars : List Par) (hp : HardReady pars)
    (hf : ∀ w ∈ first, w.length = pars.length) (hr : ∀ i j, (redraw i j).length = pars.length)
    (hok : ∀ i (h : i < first.length), ∃ j < 101, AllInside pars (attempt first[i] (redraw i) j)) :
    ∀ w ∈ univariateInit k redraw 0 first pars, AllInside pars w := by
  intro w hw
  obtain ⟨i, hi, rfl⟩ := List.getElem_of_mem hw
  obtain ⟨hlen, hall⟩ := C77_univariate_partial k first redraw pars hp hf hr
  have hi' : i < first.length := by omega
  obtain ⟨j, hj, -, h3, h4⟩ := hall i hi' hi
  obtain ⟨j', hj', hin⟩ := hok i hi'
  by_cases h : j < 101
  · exact h4 h
  · exact absurd hin (h3 j' (by omega))

/-- a parameter in `[5, 6]` with a normal prior about 0 -/
def farPar : Par := Par.new (fin 5) (fin 5) true (some (fin 5)) (some (fin 6)) (some .normal) 0 1 0 1 false

theorem farPar_hard : HardHistory farPar ∧ Proper farPar := by
  refine ⟨⟨_, _, _, _, _, _, _, _, _, _, [], by simp, rfl⟩, ?_⟩
  simp [Proper, farPar, Par.new, Par.setAnalytic]

/-- C77, violation (2): if all 102 draws of a walker are out of bounds, the last one is used as a starting point (here all draws are 0, with bounds `[5, 6]`): no error. -/
theorem C77_univariate_counterexample (k : ℝ) : univariateInit k (fun _ _ => [0]) 0 [[0]] [farPar] = [[0]] ∧ ¬ AllInside [farPar] [0] := by
  have hno : ¬ AllInside [farPar] [0] := by
    intro h
    cases h with
    | cons h _ =>
      have := h.1 (fin 5) (by simp [farPar, Par.new, Par.setAnalytic])
      simp only [toE, EReal.coe_le_coe_iff] at this
      norm_num at this
  refine ⟨?_, hno⟩
  obtain ⟨h1, h2⟩ := C77_univariate_partial k [[0]] (fun _ _ => [0]) [farPar] (by simpa [HardReady] using farPar_hard) (by simp) (by simp)
  obtain ⟨j, -, e, -, -⟩ := h2 0 (by simp) (by rw [h1]; simp)
  have hatt : attempt ([[0]] : List (List ℝ))[0] (fun _ => [0]) j = [0] := by cases j <;> rfl
  rw [hatt] at e
  match hu : univariateInit k (fun _ _ => [0]) 0 [[0]] [farPar], h1 with
  | [a], _ => simp only [hu, List.getElem_cons_zero] at e; rw [e]

/-- C77, MCMC started in a ball (partial): with standard normal numbers of modulus at most `Z`, all positions are in bounds if the centre is farther than `Z/1000` from every
bound. -/
theorem C77_ball_partial (x : List ℝ) (z : ℕ → List ℝ) (n : ℕ) (pars : List Par) (Z : ℝ) (hz : ∀ i, (z i).length = x.length) (hZ : ∀ i, ∀ a ∈ z i, |a| ≤ Z)
    (hx : ∀ d : ℝ, |d| ≤ Z / 1000 → AllInside pars (x.map (· + d))) (hd : 0 ≤ Z) : ∀ w ∈ ballInit x z n, AllInside pars w := by
  intro w hw
  obtain ⟨i, -, rfl⟩ := List.mem_map.1 hw
  have hzi := hz i
  have hZi := hZ i
  clear hw
  generalize z i = zi at hzi hZi ⊢
  clear hz hZ
  unfold AllInside at *
  induction pars generalizing x zi with
  | nil =>
    have := hx 0 (by simpa using by positivity)
    cases x with
    | nil => simp
    | cons a x => simp at this
  | cons p t ih =>
    cases x with
    | nil =>
      have := hx 0 (by simpa using by positivity)
      simp at this
    | cons a x =>
      cases zi with
      | nil => simp at hzi
      | cons b zi =>
        rw [List.zipWith_cons_cons, List.forall₂_cons]
        constructor
        · have hb : |b| ≤ Z := hZi b List.mem_cons_self
          have := hx (1 / 1000 * b) (by rw [abs_mul, abs_of_pos (by norm_num : (0 : ℝ) < 1 / 1000)]; linarith)
          rw [List.map_cons, List.forall₂_cons] at this
          exact this.1
        · refine ih x ?_ zi (by simpa using hzi) fun a ha => hZi a (List.mem_cons_of_mem _ ha)
          intro d hd
          have := hx d hd
          rw [List.map_cons, List.forall₂_cons] at this
          exact this.2

/-- C77, violation (3): the ball is not checked against the bounds: started at the lower bound, half of the positions are outside. -/
theorem C77_ball_counterexample : ∃ (z : ℕ → List ℝ), AllInside [farPar] [5] ∧ ¬ AllInside [farPar] ((ballInit [5] z 1).headD []) := by
  refine ⟨fun _ => [-1], ?_, ?_⟩
  · refine List.Forall₂.cons ⟨?_, ?_, ?_⟩ List.Forall₂.nil
    · intro m hm
      have : m = fin 5 := by simpa [farPar, Par.new, Par.setAnalytic] using hm.symm
      subst this; exact le_rfl
    · intro m hm
      have : m = fin 6 := by simpa [farPar, Par.new, Par.setAnalytic] using hm.symm
      subst this
      simp only [toE, EReal.coe_le_coe_iff]; norm_num
    · intro h
      simp [farPar, Par.new, Par.setAnalytic] at h
  · intro h
    simp only [ballInit, List.range_one, List.map_cons, List.map_nil, List.zipWith_cons_cons, List.zipWith_nil_left, List.headD_cons] at h
    cases h with
    | cons h _ =>
      have := h.1 (fin 5) (by simp [farPar, Par.new, Par.setAnalytic])
      simp only [toE, EReal.coe_le_coe_iff] at this
      norm_num at this

example : Ready [farPar] := by
  intro p hp
  rw [List.mem_singleton] at hp
  subst hp
  exact ⟨⟨_, _, _, _, _, _, _, _, _, _, _, [], rfl⟩, farPar_hard.2⟩

end

end Verif.Init
