/-
C30, C31, C32, C35: the probability functions of the driver and their gradients.
-/
import Verif.Model.Driver
import Mathlib.Analysis.Calculus.Deriv.Add
import Mathlib.Analysis.Calculus.Deriv.Mul
import Mathlib.Tactic.Ring
import Mathlib.Tactic.Linarith
import Mathlib.Tactic.NormNum
import Mathlib.Tactic.FinCases

namespace Verif.Driver

open Verif.Priors Verif.Priors.Flt

noncomputable section

variable {n : ℕ} {K E : Type}

/-! ### Specification: values at `theta`, without any state -/

/-- The settings of the model in which a group is evaluated: its own values for the statistic-specific ones, the configured values for the
others. -/
def settings (D : Drv n K E) (cfg : K → ℝ) (g : Group n K E) : K → ℝ := fun k => if D.changed k then g.params k else cfg k

/-- The predictions of the groups at `theta`, one after the other. -/
def Pred (D : Drv n K E) (cfg : K → ℝ) (θ : Fin n → ℝ) : List (Group n K E) → Except (DErr E) (Option (List ℝ))
  | [] => .ok (some [])
  | g :: gs =>
    match g.eval θ (settings D cfg g), Pred D cfg θ gs with
    | .error e, _ => .error (.model e)
    | .ok _, .error e => .error e
    | .ok (some v), .ok (some vs) => .ok (some (v ++ vs))
    | .ok _, .ok _ => .ok none

/-- The chi-squared at `theta`. -/
def chi2At (D : Drv n K E) (cfg : K → ℝ) (θ : Fin n → ℝ) : Except (DErr E) Flt :=
  match Pred D cfg θ D.groups with
  | .error e => .error e
  | .ok none => .ok nan
  | .ok (some v) => if h : v.length = D.m then .ok (fin (D.quad (asVec D.m v h - D.d))) else .error .shape

/-- all components are within bounds -/
def Valid (D : Drv n K E) (θ : Fin n → ℝ) : Prop := ∀ i, D.within i (θ i) = true

open Classical in
/-- The log-posterior at `theta`: minus infinity out of bounds or where the prior is not finite, otherwise the sum of log-prior and
log-likelihood; an error if the likelihood is undefined. -/
def lnprobAt (D : Drv n K E) (cfg : K → ℝ) (θ : Fin n → ℝ) : Except (DErr E) Flt :=
  if ¬ Valid D θ then .ok ninf
  else if D.accepts θ = false then .error .runtime
  else
    match D.lnprior θ with
    | fin lp =>
      match chi2At D cfg θ with
      | .ok (fin c) => .ok (fin (lp - c / 2))
      | _ => .error .runtime
    | _ => .ok ninf

open Classical in
/-- The objective of the minimiser at `theta`. -/
def minusAt (D : Drv n K E) (cfg : K → ℝ) (θ : Fin n → ℝ) (usePriors : Bool) : Except (DErr E) Flt :=
  if ¬ Valid D θ then .ok (sub (fin (D.quad D.d / 2)) (D.lnprior θ))
  else if D.accepts θ = false then .error .runtime
  else
    match chi2At D cfg θ with
    | .error e => .error e
    | .ok (fin c) => .ok (if usePriors then sub (fin (c / 2)) (D.lnprior θ) else fin (c / 2))
    | .ok _ => .ok nan

/-! ### Lemmas -/

/-- the settings agree except for the statistic-specific ones -/
def Agree (D : Drv n K E) (c c' : K → ℝ) : Prop := ∀ k, D.changed k = false → c k = c' k

theorem Agree.settings {D : Drv n K E} {c c' : K → ℝ} (h : Agree D c c') (g : Group n K E) : settings D c g = settings D c' g := by
  funext k
  simp only [Driver.settings]
  split
  · rfl
  next hk => exact h k (by simpa using hk)

theorem Agree.pred {D : Drv n K E} {c c' : K → ℝ} (h : Agree D c c') (θ : Fin n → ℝ) (gs : List (Group n K E)) :
    Pred D c θ gs = Pred D c' θ gs := by
  induction gs with
  | nil => rfl
  | cons g gs ih => simp only [Pred, h.settings g, ih]

theorem Agree.chi2At {D : Drv n K E} {c c' : K → ℝ} (h : Agree D c c') (θ : Fin n → ℝ) : chi2At D c θ = chi2At D c' θ := by
  simp only [Driver.chi2At, h.pred]

theorem Agree.trans {D : Drv n K E} {a b c : K → ℝ} (h : Agree D a b) (h' : Agree D b c) : Agree D a c :=
  fun k hk => (h k hk).trans (h' k hk)

theorem enter_agree (D : Drv n K E) (g : Group n K E) (st : DSt n K) : Agree D (D.enter g st).cfg st.cfg := by
  intro k hk
  simp [Drv.enter, hk]

/-- what an operation may do to the state without moving parameters or model -/
structure Same (D : Drv n K E) (st st' : DSt n K) : Prop where
  vals : st'.vals = st.vals
  mdl : st'.mdl = st.mdl
  cfg : Agree D st'.cfg st.cfg

theorem Same.refl (D : Drv n K E) (st : DSt n K) : Same D st st := ⟨rfl, rfl, fun _ _ => rfl⟩

theorem combined_spec (D : Drv n K E) (gs : List (Group n K E)) (st : DSt n K) :
    (D.combined gs st).1 = Pred D st.cfg st.mdl gs ∧ Same D st (D.combined gs st).2 := by
  induction gs generalizing st with
  | nil => exact ⟨rfl, Same.refl D st⟩
  | cons g gs ih =>
    have hs : settings D st.cfg g = (D.enter g st).cfg := rfl
    have ha := enter_agree D g st
    obtain ⟨h1, h2⟩ := ih (D.enter g st)
    rw [ha.pred] at h1
    simp only [Drv.combined, Pred, hs]
    have hm : (D.enter g st).mdl = st.mdl := rfl
    rw [hm] at h1 ⊢
    have hS : Same D st (D.enter g st) := ⟨rfl, rfl, ha⟩
    cases hv : g.eval st.mdl (D.enter g st).cfg with
    | error e => exact ⟨rfl, hS⟩
    | ok v =>
      simp only
      generalize hr : D.combined gs (D.enter g st) = r at h1 h2
      obtain ⟨r1, r2⟩ := r
      simp only at h1 h2
      rw [← h1]
      have hS2 : Same D st r2 := ⟨h2.vals.trans hS.vals, h2.mdl.trans hS.mdl, h2.cfg.trans hS.cfg⟩
      cases r1 with
      | error e => exact ⟨by cases v <;> rfl, hS2⟩
      | ok vs => cases v <;> cases vs <;> exact ⟨rfl, hS2⟩

theorem chi2Now_spec (D : Drv n K E) (st : DSt n K) :
    (D.chi2Now st).1 = chi2At D st.cfg st.mdl ∧ Same D st (D.chi2Now st).2 := by
  obtain ⟨h1, h2⟩ := combined_spec D D.groups st
  simp only [Drv.chi2Now, chi2At, ← h1]
  generalize D.combined D.groups st = r at h2
  obtain ⟨r1, r2⟩ := r
  cases r1 with
  | error e => exact ⟨rfl, h2⟩
  | ok v =>
    cases v with
    | none => exact ⟨rfl, h2⟩
    | some v =>
      simp only
      split
      · exact ⟨rfl, h2⟩
      · exact ⟨rfl, h2⟩

theorem setFree_invalid (D : Drv n K E) (θ : Fin n → ℝ) (st : DSt n K) (h : ¬ Valid D θ) : D.setFree θ st = (.ok false, st) := by
  simp only [Valid, not_forall, Bool.not_eq_true] at h
  obtain ⟨i, hi⟩ := h
  have : (List.finRange n).any (fun i => !D.within i (θ i)) = true := by
    rw [List.any_eq_true]; exact ⟨i, List.mem_finRange i, by simp [hi]⟩
  simp [Drv.setFree, this]

theorem setFree_valid (D : Drv n K E) (θ : Fin n → ℝ) (st : DSt n K) (h : Valid D θ) :
    D.setFree θ st = if D.accepts θ then (.ok true, { st with vals := θ, mdl := θ }) else (.error .runtime, { st with vals := θ }) := by
  have : (List.finRange n).any (fun i => !D.within i (θ i)) = false := by
    rw [List.any_eq_false]; intro i _; simp [h i]
  simp [Drv.setFree, this]

theorem lnlike_none (D : Drv n K E) (st : DSt n K) :
    (D.lnlike none st).1 = (match chi2At D st.cfg st.mdl with | .error e => .error e | .ok c => .ok (negHalf c)) ∧
      Same D st (D.lnlike none st).2 := by
  obtain ⟨h1, h2⟩ := chi2Now_spec D st
  rw [← h1]
  simp only [Drv.lnlike, Drv.chi2]
  generalize D.chi2Now st = r at h2
  obtain ⟨r1, r2⟩ := r
  cases r1 <;> exact ⟨rfl, h2⟩

theorem chi2At_cases (D : Drv n K E) (cfg : K → ℝ) (θ : Fin n → ℝ) :
    (∃ e, chi2At D cfg θ = .error e) ∨ chi2At D cfg θ = .ok nan ∨ ∃ c, chi2At D cfg θ = .ok (fin c) := by
  simp only [chi2At]
  split
  · exact Or.inl ⟨_, rfl⟩
  · exact Or.inr (Or.inl rfl)
  · split
    · exact Or.inr (Or.inr ⟨_, rfl⟩)
    · exact Or.inl ⟨_, rfl⟩

theorem minusNow_spec (D : Drv n K E) (u : Bool) (st : DSt n K) :
    (D.minusNow u st).1 = (match chi2At D st.cfg st.mdl with
      | .error e => .error e
      | .ok (fin c) => .ok (if u then sub (fin (c / 2)) (D.lnprior st.vals) else fin (c / 2))
      | .ok _ => .ok nan) ∧ Same D st (D.minusNow u st).2 := by
  obtain ⟨h1, h2⟩ := lnlike_none D st
  simp only [Drv.minusNow]
  generalize D.lnlike none st = r at h1 h2
  obtain ⟨r1, r2⟩ := r
  simp only at h1 h2
  subst h1
  have hv : r2.vals = st.vals := h2.vals
  rcases chi2At_cases D st.cfg st.mdl with ⟨e, he⟩ | he | ⟨c, he⟩
  · rw [he]; exact ⟨rfl, h2⟩
  · rw [he]
    refine ⟨?_, h2⟩
    cases u <;> rfl
  · rw [he]
    refine ⟨?_, h2⟩
    have h5 : neg (negHalf (fin c)) = fin (c / 2) := by
      show fin (-(-0.5 * c)) = _
      congr 1; ring
    show Except.ok (if u = true then add (neg (negHalf (fin c))) (neg (D.lnprior r2.vals)) else neg (negHalf (fin c))) = _
    rw [h5, hv]
    rfl

/-! ### The posterior -/

theorem lnprob_spec (D : Drv n K E) (st : DSt n K) (θ : Fin n → ℝ) :
    (D.lnprob (some θ) st).1 = lnprobAt D st.cfg θ := by
  simp only [lnprobAt]
  by_cases hv : Valid D θ
  · rw [if_neg (not_not.2 hv)]
    simp only [Drv.lnprob, setFree_valid D θ st hv]
    cases ha : D.accepts θ with
    | false => simp
    | true =>
      simp only [if_true, Bool.true_eq_false, if_false]
      cases hl : D.lnprior θ with
      | fin lp =>
        simp only
        obtain ⟨h1, -⟩ := lnlike_none D { st with vals := θ, mdl := θ }
        generalize D.lnlike none { st with vals := θ, mdl := θ } = r at h1
        obtain ⟨r1, r2⟩ := r
        simp only at h1
        subst h1
        rcases chi2At_cases D st.cfg θ with ⟨e, he⟩ | he | ⟨c, he⟩
        · simp only [he]
        · simp only [he, negHalf]
        · simp only [he, negHalf]
          congr 2; ring
      | _ => rfl
  · rw [if_pos hv]
    simp only [Drv.lnprob, setFree_invalid D θ st hv]

theorem minus_spec (D : Drv n K E) (st : DSt n K) (θ : Fin n → ℝ) (u : Bool) :
    (D.minusLnlike (some θ) u st).1 = minusAt D st.cfg θ u ∧
    (Valid D θ → D.accepts θ = true → (D.minusLnlike (some θ) u st).2.vals = θ ∧ (D.minusLnlike (some θ) u st).2.mdl = θ) ∧
    (¬ Valid D θ → (D.minusLnlike (some θ) u st).2 = D.preserved st) ∧
    Agree D (D.minusLnlike (some θ) u st).2.cfg st.cfg := by
  simp only [minusAt]
  by_cases hv : Valid D θ
  · rw [if_neg (not_not.2 hv)]
    simp only [Drv.minusLnlike, setFree_valid D θ st hv]
    cases ha : D.accepts θ with
    | false => refine ⟨by simp, by simp, by simp [hv], fun _ _ => rfl⟩
    | true =>
      simp only [if_true, Bool.true_eq_false, if_false]
      obtain ⟨h1, h2⟩ := minusNow_spec D u { st with vals := θ, mdl := θ }
      exact ⟨h1, fun _ _ => ⟨h2.vals, h2.mdl⟩, fun h => absurd hv h, h2.cfg⟩
  · rw [if_pos hv]
    simp only [Drv.minusLnlike, setFree_invalid D θ st hv]
    refine ⟨?_, fun h => absurd h hv, fun _ => trivial, fun _ _ => rfl⟩
    have : -D.nullLnlike = D.quad D.d / 2 := by
      simp only [Drv.nullLnlike]; ring
    rw [this]

/-! ### Histories keep the settings -/

theorem setFree_agree (D : Drv n K E) (θ : Fin n → ℝ) (st : DSt n K) : (D.setFree θ st).2.cfg = st.cfg := by
  simp only [Drv.setFree]
  split
  · rfl
  · split <;> rfl

theorem evalTasks_agree (D : Drv n K E) (ts : List (Fin n → ℝ)) (st : DSt n K) : Agree D (D.evalTasks ts st).2.cfg st.cfg := by
  induction ts generalizing st with
  | nil => exact fun _ _ => rfl
  | cons t ts ih =>
    have h := (minus_spec D st t false).2.2.2
    simp only [Drv.evalTasks]
    generalize D.minusLnlike (some t) false st = r at h
    obtain ⟨r1, r2⟩ := r
    cases r1 with
    | error e => exact h
    | ok v =>
      simp only
      have h3 := ih r2
      generalize D.evalTasks ts r2 = q at h3
      obtain ⟨q1, q2⟩ := q
      cases q1 <;> exact h3.trans h

theorem gradCombined_same (D : Drv n K E) (gs : List (Group n K E)) (st : DSt n K) : Same D st (D.gradCombined gs st).2 := by
  induction gs generalizing st with
  | nil => exact Same.refl D st
  | cons g gs ih =>
    have hS : Same D st (D.enter g st) := ⟨rfl, rfl, enter_agree D g st⟩
    have h2 := ih (D.enter g st)
    simp only [Drv.gradCombined]
    cases g.grad (D.enter g st).mdl (D.enter g st).cfg with
    | error e => exact hS
    | ok v =>
      simp only
      generalize D.gradCombined gs (D.enter g st) = r at h2
      obtain ⟨r1, r2⟩ := r
      cases r1 <;> exact ⟨h2.vals.trans hS.vals, h2.mdl.trans hS.mdl, h2.cfg.trans hS.cfg⟩

theorem gradNow_same (D : Drv n K E) (u : Bool) (st : DSt n K) : Same D st (D.gradNow u st).2 := by
  have h1 := gradCombined_same D D.groups st
  simp only [Drv.gradNow]
  generalize D.gradCombined D.groups st = r at h1
  obtain ⟨r1, r2⟩ := r
  cases r1 with
  | error e => exact h1
  | ok g =>
    simp only
    have h2 := (combined_spec D D.groups r2).2
    generalize D.combined D.groups r2 = q at h2
    obtain ⟨q1, q2⟩ := q
    have h3 : Same D st q2 := ⟨h2.vals.trans h1.vals, h2.mdl.trans h1.mdl, h2.cfg.trans h1.cfg⟩
    cases q1 with
    | error e => exact h3
    | ok v =>
      cases g <;> cases v
      · exact h3
      · exact h3
      · exact h3
      · simp only
        split
        · split <;> exact h3
        · exact h3

theorem gradNum_agree (D : Drv n K E) (θ eps : Fin n → ℝ) (u : Bool) (st : DSt n K) : Agree D (D.gradNumNow θ eps u st).2.cfg st.cfg := by
  have h1 := evalTasks_agree D ((List.finRange n).map (step θ eps 1) ++ (List.finRange n).map (step θ eps (-1))) st
  simp only [Drv.gradNumNow]
  generalize D.evalTasks _ st = r at h1
  obtain ⟨r1, r2⟩ := r
  cases r1 with
  | error e => exact h1
  | ok rs =>
    simp only
    cases allFin rs with
    | none => exact h1
    | some rs => simp only; split <;> exact h1

theorem run1_agree (D : Drv n K E) (st : DSt n K) (op : Op n) : Agree D (D.run1 st op).cfg st.cfg := by
  have hset : ∀ θ st', (D.setFree θ st) = st' → Agree D st'.2.cfg st.cfg := by
    intro θ st' e k _; rw [← e, setFree_agree]
  have hchi : ∀ t, Agree D (D.chi2 t st).2.cfg st.cfg := by
    intro t
    cases t with
    | none => exact (chi2Now_spec D st).2.cfg
    | some θ =>
      simp only [Drv.chi2]
      cases hr : D.setFree θ st with
      | mk r1 r2 =>
        have := hset θ _ hr
        cases r1 with
        | error e => exact this
        | ok b => exact (chi2Now_spec D r2).2.cfg.trans this
  have hlike : ∀ t, Agree D (D.lnlike t st).2.cfg st.cfg := by
    intro t
    have := hchi t
    simp only [Drv.lnlike]
    generalize D.chi2 t st = r at this
    obtain ⟨r1, r2⟩ := r
    cases r1 <;> exact this
  cases op with
  | setFree θ => intro k _; simp only [Drv.run1, setFree_agree]
  | chi2 t => exact hchi t
  | lnlike t => exact hlike t
  | lnprob t =>
    have key : ∀ r : Except (DErr E) Bool × DSt n K, Agree D r.2.cfg st.cfg →
        Agree D (match r with
          | (.error e, st) => ((.error e, st) : Except (DErr E) Flt × DSt n K)
          | (.ok false, st) => (.ok ninf, st)
          | (.ok true, st) =>
            match D.lnprior st.vals with
            | fin lp =>
              match D.lnlike none st with
              | (.ok (fin l), st) => (.ok (fin (lp + l)), st)
              | (.ok nan, st) => (.error .runtime, st)
              | (.ok ninf, st) => (.ok ninf, st)
              | (.ok pinf, st) => (.ok pinf, st)
              | (.error _, st) => (.error .runtime, st)
            | _ => (.ok ninf, st)).2.cfg st.cfg := by
      intro r hr
      obtain ⟨r1, r2⟩ := r
      cases r1 with
      | error e => exact hr
      | ok b =>
        cases b with
        | false => exact hr
        | true =>
          simp only
          cases D.lnprior r2.vals with
          | fin lp =>
            simp only
            have h3 := (lnlike_none D r2).2.cfg.trans hr
            generalize D.lnlike none r2 = q at h3
            obtain ⟨q1, q2⟩ := q
            cases q1 with
            | error e => exact h3
            | ok l => cases l <;> exact h3
          | _ => exact hr
    cases t with
    | none => exact key _ (fun _ _ => rfl)
    | some θ => exact key _ (hset θ _ rfl)
  | minusLnlike t u =>
    cases t with
    | none => exact (minusNow_spec D u st).2.cfg
    | some θ => exact (minus_spec D st θ u).2.2.2
  | grad t eps u f =>
    have go : ∀ θ (st' : DSt n K), Agree D st'.cfg st.cfg →
        Agree D (if f = true then D.gradNumNow θ eps u st' else D.gradNow u st').2.cfg st.cfg := by
      intro θ st' h
      split
      · exact (gradNum_agree D θ eps u st').trans h
      · exact (gradNow_same D u st').cfg.trans h
    cases t with
    | none => exact go _ _ (fun _ _ => rfl)
    | some θ =>
      simp only [Drv.run1, Drv.grad]
      cases hr : D.setFree θ st with
      | mk r1 r2 =>
        have := hset θ _ hr
        cases r1 with
        | error e => exact this
        | ok b =>
          cases b with
          | false => exact this
          | true => exact go _ _ this

theorem run_agree (D : Drv n K E) (st : DSt n K) (ops : List (Op n)) : Agree D (D.run st ops).cfg st.cfg := by
  induction ops generalizing st with
  | nil => exact fun _ _ => rfl
  | cons op ops ih => exact (ih (D.run1 st op)).trans (run1_agree D st op)

/-! ### C30 -/

/-- C30: after any history of evaluations (returning or raising, in or out of bounds), `lnprob(theta)` is the log-posterior at
`theta`. -/
theorem C30_lnprob (D : Drv n K E) (st : DSt n K) (ops : List (Op n)) (θ : Fin n → ℝ) :
    (D.lnprob (some θ) (D.run st ops)).1 = lnprobAt D st.cfg θ := by
  rw [lnprob_spec]
  simp only [lnprobAt, (run_agree D st ops).chi2At]

/-- C30: likewise `minus_lnlike(theta)`. -/
theorem C30_minus_lnlike (D : Drv n K E) (st : DSt n K) (ops : List (Op n)) (θ : Fin n → ℝ) (u : Bool) :
    (D.minusLnlike (some θ) u (D.run st ops)).1 = minusAt D st.cfg θ u := by
  rw [(minus_spec D _ θ u).1]
  simp only [minusAt, (run_agree D st ops).chi2At]

/-- C30: an out-of-bounds evaluation leaves parameters, model and settings as they were, and gives minus infinity, or the
penalty of a null model together with the log-prior there. -/
theorem C30_out_of_bounds (D : Drv n K E) (st : DSt n K) (θ : Fin n → ℝ) (u : Bool) (h : ¬ Valid D θ)
    (hin : ∀ i, D.clamp i (st.vals i) = st.vals i) :
    D.lnprob (some θ) st = (.ok ninf, st) ∧ D.minusLnlike (some θ) u st = (.ok (sub (fin (D.quad D.d / 2)) (D.lnprior θ)), st) := by
  have hp : D.preserved st = st := by simp only [Drv.preserved, hin]
  constructor
  · simp only [Drv.lnprob, setFree_invalid D θ st h]
  · have h1 := (minus_spec D st θ u).1
    have h2 := (minus_spec D st θ u).2.2.1 h
    rw [hp] at h2
    simp only [minusAt, if_pos h] at h1
    exact Prod.ext h1 h2

/-- The log-prior is the sum of the log-priors of the free parameters. -/
theorem C30_lnprior_sum (D : Drv n K E) (θ l : Fin n → ℝ) (h : ∀ i, D.lnp i (θ i) = fin (l i)) : D.lnprior θ = fin (∑ i, l i) := by
  have key : ∀ (is : List (Fin n)) (a : ℝ), is.foldl (fun acc i => add acc (D.lnp i (θ i))) (fin a) = fin (a + (is.map l).sum) := by
    intro is
    induction is with
    | nil => intro a; simp
    | cons i is ih =>
      intro a
      rw [List.foldl_cons, h i]
      show List.foldl _ (fin (a + l i)) is = _
      rw [ih]; simp [add_assoc]
  rw [Drv.lnprior, key, zero_add, ← List.ofFn_eq_map, List.sum_ofFn]

/-- parameters and model agree, and the parameters are where reading them would leave them -/
structure Sync (D : Drv n K E) (st : DSt n K) : Prop where
  eq : st.vals = st.mdl
  clamped : ∀ i, D.clamp i (st.vals i) = st.vals i

theorem Same.sync {D : Drv n K E} {st st' : DSt n K} (h : Same D st st') (hs : Sync D st) : Sync D st' := by
  refine ⟨by rw [h.vals, h.mdl, hs.eq], ?_⟩
  rw [h.vals]; exact hs.clamped

section sync

variable {D : Drv n K E} (hc : ∀ i x, D.within i x = true → D.clamp i x = x) (ha : ∀ θ, D.accepts θ = true)
include hc ha

theorem setFree_sync (θ : Fin n → ℝ) {st : DSt n K} (hs : Sync D st) : Sync D (D.setFree θ st).2 := by
  by_cases hv : Valid D θ
  · rw [setFree_valid D θ st hv, ha θ]
    exact ⟨rfl, fun i => hc i _ (hv i)⟩
  · rw [setFree_invalid D θ st hv]; exact hs

theorem minus_sync (t : Option (Fin n → ℝ)) (u : Bool) {st : DSt n K} (hs : Sync D st) : Sync D (D.minusLnlike t u st).2 := by
  cases t with
  | none => exact (minusNow_spec D u st).2.sync hs
  | some θ =>
    obtain ⟨-, h1, h2, -⟩ := minus_spec D st θ u
    by_cases hv : Valid D θ
    · obtain ⟨h3, h4⟩ := h1 hv (ha θ)
      exact ⟨by rw [h3, h4], fun i => by rw [h3]; exact hc i _ (hv i)⟩
    · rw [h2 hv]
      have : D.preserved st = st := by simp only [Drv.preserved, hs.clamped]
      rw [this]; exact hs

theorem evalTasks_sync (ts : List (Fin n → ℝ)) {st : DSt n K} (hs : Sync D st) : Sync D (D.evalTasks ts st).2 := by
  induction ts generalizing st with
  | nil => exact hs
  | cons t ts ih =>
    have h := minus_sync hc ha (some t) false hs
    simp only [Drv.evalTasks]
    generalize D.minusLnlike (some t) false st = r at h
    obtain ⟨r1, r2⟩ := r
    cases r1 with
    | error e => exact h
    | ok v =>
      have h3 := ih h
      simp only
      generalize D.evalTasks ts r2 = q at h3
      obtain ⟨q1, q2⟩ := q
      cases q1 <;> exact h3

theorem run1_sync (op : Op n) {st : DSt n K} (hs : Sync D st) : Sync D (D.run1 st op) := by
  have hchi : ∀ t, Sync D (D.chi2 t st).2 := by
    intro t
    cases t with
    | none => exact (chi2Now_spec D st).2.sync hs
    | some θ =>
      have h := setFree_sync hc ha θ hs
      simp only [Drv.chi2]
      generalize D.setFree θ st = r at h
      obtain ⟨r1, r2⟩ := r
      cases r1 with
      | error e => exact h
      | ok b => exact (chi2Now_spec D r2).2.sync h
  have hlike : ∀ t, Sync D (D.lnlike t st).2 := by
    intro t
    have := hchi t
    simp only [Drv.lnlike]
    generalize D.chi2 t st = r at this
    obtain ⟨r1, r2⟩ := r
    cases r1 <;> exact this
  cases op with
  | setFree θ => exact setFree_sync hc ha θ hs
  | chi2 t => exact hchi t
  | lnlike t => exact hlike t
  | lnprob t =>
    have key : ∀ r : Except (DErr E) Bool × DSt n K, Sync D r.2 →
        Sync D (match r with
          | (.error e, st) => ((.error e, st) : Except (DErr E) Flt × DSt n K)
          | (.ok false, st) => (.ok ninf, st)
          | (.ok true, st) =>
            match D.lnprior st.vals with
            | fin lp =>
              match D.lnlike none st with
              | (.ok (fin l), st) => (.ok (fin (lp + l)), st)
              | (.ok nan, st) => (.error .runtime, st)
              | (.ok ninf, st) => (.ok ninf, st)
              | (.ok pinf, st) => (.ok pinf, st)
              | (.error _, st) => (.error .runtime, st)
            | _ => (.ok ninf, st)).2 := by
      intro r hr
      obtain ⟨r1, r2⟩ := r
      cases r1 with
      | error e => exact hr
      | ok b =>
        cases b with
        | false => exact hr
        | true =>
          simp only
          cases D.lnprior r2.vals with
          | fin lp =>
            simp only
            have h3 := (lnlike_none D r2).2.sync hr
            generalize D.lnlike none r2 = q at h3
            obtain ⟨q1, q2⟩ := q
            cases q1 with
            | error e => exact h3
            | ok l => cases l <;> exact h3
          | _ => exact hr
    cases t with
    | none => exact key _ hs
    | some θ => exact key _ (setFree_sync hc ha θ hs)
  | minusLnlike t u => exact minus_sync hc ha t u hs
  | grad t eps u f =>
    have go : ∀ θ (st' : DSt n K), Sync D st' →
        Sync D (if f = true then D.gradNumNow θ eps u st' else D.gradNow u st').2 := by
      intro θ st' h
      split
      · have h1 := evalTasks_sync hc ha ((List.finRange n).map (step θ eps 1) ++ (List.finRange n).map (step θ eps (-1))) h
        simp only [Drv.gradNumNow]
        generalize D.evalTasks _ st' = r at h1
        obtain ⟨r1, r2⟩ := r
        cases r1 with
        | error e => exact h1
        | ok rs =>
          simp only
          cases allFin rs with
          | none => exact h1
          | some rs => simp only; split <;> exact h1
      · exact (gradNow_same D u st').sync h
    cases t with
    | none =>
      have : ({ st with vals := fun i => D.clamp i (st.vals i) } : DSt n K) = st := by simp only [hs.clamped]
      simp only [Drv.run1, Drv.grad, this]
      exact go _ _ hs
    | some θ =>
      have h := setFree_sync hc ha θ hs
      simp only [Drv.run1, Drv.grad]
      generalize D.setFree θ st = r at h
      obtain ⟨r1, r2⟩ := r
      cases r1 with
      | error e => exact h
      | ok b =>
        cases b with
        | false =>
          have : D.preserved r2 = r2 := by simp only [Drv.preserved, h.clamped]
          simp only [this]; exact h
        | true => exact go _ _ h

/-- C30: after any history, parameters and model are at the same point, and `lnprob()` is the log-posterior at the current values
of the parameters (if the model accepts every update; otherwise see C22). -/
theorem C30_current (st : DSt n K) (hs : Sync D st) (ops : List (Op n)) :
    (D.run st ops).vals = (D.run st ops).mdl ∧
      (D.lnprob none (D.run st ops)).1 = lnprobAt D st.cfg (D.run st ops).vals := by
  have h : Sync D (D.run st ops) := by
    revert st
    induction ops with
    | nil => intro st hs; exact hs
    | cons op ops ih => intro st hs; exact ih _ (run1_sync hc ha op hs)
  refine ⟨h.eq, ?_⟩
  have hag := run_agree D st ops
  generalize D.run st ops = st' at h hag
  simp only [lnprobAt, ← hag.chi2At, ha]
  by_cases hv : Valid D st'.vals
  · rw [if_neg (not_not.2 hv)]
    have hall : (List.finRange n).all (fun i => D.within i (st'.vals i)) = true := by
      rw [List.all_eq_true]; exact fun i _ => hv i
    simp only [Drv.lnprob, hall, Bool.true_eq_false, if_false]
    cases hl : D.lnprior st'.vals with
    | fin lp =>
      simp only
      obtain ⟨h1, -⟩ := lnlike_none D st'
      generalize D.lnlike none st' = r at h1
      obtain ⟨r1, r2⟩ := r
      simp only at h1
      subst h1
      rw [h.eq]
      rcases chi2At_cases D st'.cfg st'.mdl with ⟨e, he⟩ | he | ⟨c, he⟩
      · simp only [he]
      · simp only [he, negHalf]
      · simp only [he, negHalf]
        congr 2; ring
    | _ => rfl
  · rw [if_pos hv]
    have hall : (List.finRange n).all (fun i => D.within i (st'.vals i)) = false := by
      simp only [Valid, not_forall, Bool.not_eq_true] at hv
      obtain ⟨i, hi⟩ := hv
      rw [List.all_eq_false]; exact ⟨i, List.mem_finRange i, by simp [hi]⟩
    simp only [Drv.lnprob, hall]

end sync


/-! ### C31 -/

/-- C31, in bounds: after any history `chi2(theta)` and `lnlike(theta)` are the values at `theta`.  Missing: `theta` out of bounds, where the
property fails (`C31_counterexample`). -/
theorem C31_partial (D : Drv n K E) (st : DSt n K) (ops : List (Op n)) (θ : Fin n → ℝ) (hv : Valid D θ) (ha : D.accepts θ = true) :
    (D.chi2 (some θ) (D.run st ops)).1 = chi2At D st.cfg θ ∧
    (∀ c, chi2At D st.cfg θ = .ok (fin c) → (D.lnlike (some θ) (D.run st ops)).1 = .ok (fin (-c / 2))) := by
  have hag := run_agree D st ops
  generalize D.run st ops = st' at hag
  have h1 : (D.chi2 (some θ) st').1 = chi2At D st.cfg θ := by
    simp only [Drv.chi2, setFree_valid D θ st' hv, ha, if_true]
    rw [(chi2Now_spec D _).1]
    exact hag.chi2At θ
  refine ⟨h1, fun c hc => ?_⟩
  rw [hc] at h1
  simp only [Drv.lnlike]
  generalize D.chi2 (some θ) st' = r at h1
  obtain ⟨r1, r2⟩ := r
  simp only at h1
  subst h1
  show Except.ok (fin (-0.5 * c)) = _
  congr 2; ring

/-- Both return an error if the model rejects the values. -/
theorem C31_rejected (D : Drv n K E) (st : DSt n K) (θ : Fin n → ℝ) (hv : Valid D θ) (ha : D.accepts θ = false) :
    (D.chi2 (some θ) st).1 = .error .runtime ∧ (D.lnlike (some θ) st).1 = .error .runtime := by
  have : D.chi2 (some θ) st = (.error .runtime, { st with vals := θ }) := by
    simp [Drv.chi2, setFree_valid D θ st hv, ha]
  exact ⟨by rw [this], by simp only [Drv.lnlike, this]⟩

/-- A fit of one parameter with bounds [-1, 1]: the prediction is the parameter itself, the datum is 0, the log-prior is -x². -/
def demo : Drv 1 Unit Empty where
  within _ x := decide (-1 ≤ x ∧ x ≤ 1)
  clamp _ x := max (-1) (min x 1)
  lnp _ x := fin (-x ^ 2)
  dlnp _ x := -2 * x
  accepts _ := true
  m := 1
  d := 0
  cinv := 1
  changed _ := false
  groups := [{ params := fun _ => 0, eval := fun θ _ => .ok (some [θ 0]), grad := fun _ _ => .ok (some fun _ => [1]) }]

theorem demo_chi2 (cfg : Unit → ℝ) (θ : Fin 1 → ℝ) : chi2At demo cfg θ = .ok (fin (θ 0 ^ 2)) := by
  have hp : Pred demo cfg θ demo.groups = .ok (some [θ 0]) := rfl
  have hl : [θ 0].length = demo.m := rfl
  have hq : ∀ h, demo.quad (asVec demo.m [θ 0] h - demo.d) = θ 0 ^ 2 := by
    intro h
    have hc : demo.cinv = 1 := rfl
    simp only [Drv.quad, hc, Matrix.one_mulVec]
    show ∑ i : Fin 1, _ = _
    rw [Fin.sum_univ_one]
    show (θ 0 - 0) * (θ 0 - 0) = _
    ring
  simp only [chi2At, hp]
  rw [dif_pos hl, hq]

theorem demo_valid (θ : Fin 1 → ℝ) : Valid demo θ ↔ -1 ≤ θ 0 ∧ θ 0 ≤ 1 := by
  constructor
  · intro h; simpa [demo] using h 0
  · intro h i; fin_cases i; simpa [demo] using h

/-- C31 fails out of bounds: whatever the model and the data, `chi2(theta)` with `theta` out of bounds is silently the chi-squared of the
point the model was last updated with; e.g. it can be 0 where the true value is 25. -/
theorem C31_counterexample :
    (∀ {n : ℕ} {K E : Type} (D : Drv n K E) (st : DSt n K) (θ : Fin n → ℝ), ¬ Valid D θ →
      (D.chi2 (some θ) st).1 = chi2At D st.cfg st.mdl) ∧
    (demo.chi2 (some fun _ => 5) ⟨fun _ => 0, fun _ => 0, fun _ => 0⟩).1 = .ok (fin 0) ∧
    chi2At demo (fun _ => 0) (fun _ => 5) = .ok (fin 25) := by
  have key : ∀ {n : ℕ} {K E : Type} (D : Drv n K E) (st : DSt n K) (θ : Fin n → ℝ), ¬ Valid D θ →
      (D.chi2 (some θ) st).1 = chi2At D st.cfg st.mdl := by
    intro n K E D st θ h
    simp only [Drv.chi2, setFree_invalid D θ st h]
    exact (chi2Now_spec D st).1
  refine ⟨key, ?_, ?_⟩
  · rw [key, demo_chi2]
    · norm_num
    · rw [demo_valid]; norm_num
  · rw [demo_chi2]; norm_num

/-! ### C32 -/

theorem evalTasks_spec (D : Drv n K E) (cfg : K → ℝ) (f : (Fin n → ℝ) → ℝ) (ts : List (Fin n → ℝ)) (st : DSt n K)
    (hcfg : Agree D st.cfg cfg) (hf : ∀ t ∈ ts, minusAt D cfg t false = .ok (fin (f t))) :
    (D.evalTasks ts st).1 = .ok (ts.map fun t => fin (f t)) := by
  induction ts generalizing st with
  | nil => rfl
  | cons t ts ih =>
    obtain ⟨h1, -, -, h4⟩ := minus_spec D st t false
    have hm : minusAt D st.cfg t false = minusAt D cfg t false := by simp only [minusAt, hcfg.chi2At]
    rw [hm, hf t (by simp)] at h1
    simp only [Drv.evalTasks]
    generalize D.minusLnlike (some t) false st = r at h1 h4
    obtain ⟨r1, r2⟩ := r
    simp only at h1 h4
    subst h1
    have h2 := ih r2 (h4.trans hcfg) (fun t' h' => hf t' (by simp [h']))
    simp only
    generalize D.evalTasks ts r2 = q at h2
    obtain ⟨q1, q2⟩ := q
    simp only at h2
    subst h2
    rfl

theorem evalTasks_last (D : Drv n K E) (ts : List (Fin n → ℝ)) (t : Fin n → ℝ) (st : DSt n K) (rs : List Flt)
    (hok : (D.evalTasks (ts ++ [t]) st).1 = .ok rs) (hv : Valid D t) (ha : D.accepts t = true) :
    (D.evalTasks (ts ++ [t]) st).2.vals = t ∧ (D.evalTasks (ts ++ [t]) st).2.mdl = t := by
  induction ts generalizing st rs with
  | nil =>
    obtain ⟨-, h2, -, -⟩ := minus_spec D st t false
    have h2 := h2 hv ha
    simp only [List.nil_append, Drv.evalTasks] at hok ⊢
    generalize D.minusLnlike (some t) false st = r at h2 hok
    obtain ⟨r1, r2⟩ := r
    cases r1 <;> exact h2
  | cons s ts ih =>
    simp only [List.cons_append, Drv.evalTasks] at hok ⊢
    generalize D.minusLnlike (some s) false st = r at hok
    obtain ⟨r1, r2⟩ := r
    cases r1 with
    | error e => exact absurd hok (by simp)
    | ok v =>
      simp only at hok ⊢
      have h2 := ih r2
      generalize D.evalTasks (ts ++ [t]) r2 = q at h2 hok
      obtain ⟨q1, q2⟩ := q
      cases q1 with
      | error e => exact absurd hok (by simp)
      | ok vs => exact h2 vs rfl

theorem allFin_map {α : Type} (f : α → ℝ) (l : List α) : allFin (l.map fun t => fin (f t)) = some (l.map f) := by
  induction l with
  | nil => rfl
  | cons a l ih => simp only [List.map_cons, allFin, ih, Option.map_some]

theorem zipWith_finRange {α β : Type} (f : Fin n → α → β) (g : Fin n → α) :
    List.zipWith f (List.finRange n) ((List.finRange n).map g) = (List.finRange n).map fun i => f i (g i) := by
  rw [List.zipWith_map_right, List.zipWith_self]

/-- the central difference of an objective -/
def central (f : (Fin n → ℝ) → ℝ) (θ eps : Fin n → ℝ) (i : Fin n) : ℝ :=
  (f (Function.update θ i (θ i + eps i)) - f (Function.update θ i (θ i - eps i))) / (2 * eps i)

theorem step_update (θ eps : Fin n → ℝ) (s : ℝ) (i : Fin n) : step θ eps s i = Function.update θ i (θ i + s * eps i) := by
  funext j
  simp only [step, Function.update_apply]
  by_cases h : i = j
  · subst h; simp
  · simp [h, Ne.symm h]

theorem step_plus (θ eps : Fin n → ℝ) (i : Fin n) : step θ eps 1 i = Function.update θ i (θ i + eps i) := by
  rw [step_update, one_mul]

theorem step_minus (θ eps : Fin n → ℝ) (i : Fin n) : step θ eps (-1) i = Function.update θ i (θ i - eps i) := by
  rw [step_update]; congr 1; ring

theorem gradNum_spec (D : Drv n K E) (cfg : K → ℝ) (f : (Fin n → ℝ) → ℝ) (θ eps : Fin n → ℝ) (u : Bool) (st : DSt n K)
    (hcfg : Agree D st.cfg cfg)
    (hp : ∀ i, minusAt D cfg (Function.update θ i (θ i + eps i)) false = .ok (fin (f (Function.update θ i (θ i + eps i)))))
    (hm : ∀ i, minusAt D cfg (Function.update θ i (θ i - eps i)) false = .ok (fin (f (Function.update θ i (θ i - eps i))))) :
    (D.gradNumNow θ eps u st).1 = .ok ((List.finRange n).map fun i =>
      central f θ eps i + (if u then -1 * D.dlnp i ((D.gradNumNow θ eps u st).2.vals i) else 0)) ∧
    (D.gradNumNow θ eps u st).2 =
      (D.evalTasks ((List.finRange n).map (step θ eps 1) ++ (List.finRange n).map (step θ eps (-1))) st).2 := by
  have h1 := evalTasks_spec D cfg f ((List.finRange n).map (step θ eps 1) ++ (List.finRange n).map (step θ eps (-1))) st hcfg (by
    intro t ht
    simp only [List.mem_append, List.mem_map] at ht
    rcases ht with ⟨i, -, rfl⟩ | ⟨i, -, rfl⟩
    · rw [step_plus]; exact hp i
    · rw [step_minus]; exact hm i)
  simp only [Drv.gradNumNow]
  generalize D.evalTasks _ st = r at h1
  obtain ⟨r1, r2⟩ := r
  simp only at h1
  subst h1
  simp only [allFin_map]
  simp only [List.map_append, List.map_map]
  have htake : ∀ a b : List ℝ, a.length = n → (a ++ b).take n = a := by
    intro a b h; rw [← h, List.take_left]
  have hdrop : ∀ a b : List ℝ, a.length = n → (a ++ b).drop n = b := by
    intro a b h; rw [← h, List.drop_left]
  rw [htake _ _ (by simp), hdrop _ _ (by simp), List.zip_map', zipWith_finRange, zipWith_finRange]
  have hc : ∀ i, (f (step θ eps 1 i) - f (step θ eps (-1) i)) / (2 * eps i) = central f θ eps i := by
    intro i; rw [step_plus, step_minus]; rfl
  cases u <;> simp [hc]

/-- C32, without priors: after any history, the result is the central difference at `theta` of the objective `minus_lnlike`.  Missing: the
parameters afterwards, and the priors (`C32_state_counterexample`, `C32_priors_partial`). -/
theorem C32_partial (D : Drv n K E) (st : DSt n K) (ops : List (Op n)) (f : (Fin n → ℝ) → ℝ) (θ eps : Fin n → ℝ)
    (hv : Valid D θ) (ha : D.accepts θ = true)
    (hp : ∀ i, minusAt D st.cfg (Function.update θ i (θ i + eps i)) false = .ok (fin (f (Function.update θ i (θ i + eps i)))))
    (hm : ∀ i, minusAt D st.cfg (Function.update θ i (θ i - eps i)) false = .ok (fin (f (Function.update θ i (θ i - eps i))))) :
    (D.grad (some θ) eps false true (D.run st ops)).1 = .ok ((List.finRange n).map (central f θ eps)) := by
  have hag := run_agree D st ops
  generalize D.run st ops = st' at hag
  simp only [Drv.grad, setFree_valid D θ st' hv, ha, if_true]
  rw [(gradNum_spec D st.cfg f θ eps false { st' with vals := θ, mdl := θ } hag hp hm).1]
  simp

theorem finRange_split {n : ℕ} {α : Type} (f : Fin (n + 1) → α) :
    (List.finRange (n + 1)).map f = ((List.finRange n).map fun i => f i.castSucc) ++ [f (Fin.last n)] := by
  rw [List.finRange_succ_last]; simp

/-- C32: where the driver is left: at the last of the points where the objective was evaluated. -/
theorem C32_state {n : ℕ} (D : Drv (n + 1) K E) (st : DSt (n + 1) K) (f : (Fin (n + 1) → ℝ) → ℝ) (θ eps : Fin (n + 1) → ℝ) (u : Bool)
    (hv : Valid D θ) (ha : D.accepts θ = true)
    (hp : ∀ i, minusAt D st.cfg (Function.update θ i (θ i + eps i)) false = .ok (fin (f (Function.update θ i (θ i + eps i)))))
    (hm : ∀ i, minusAt D st.cfg (Function.update θ i (θ i - eps i)) false = .ok (fin (f (Function.update θ i (θ i - eps i)))))
    (hvl : Valid D (Function.update θ (Fin.last n) (θ (Fin.last n) - eps (Fin.last n))))
    (hal : D.accepts (Function.update θ (Fin.last n) (θ (Fin.last n) - eps (Fin.last n))) = true) :
    (D.grad (some θ) eps u true st).2.vals = Function.update θ (Fin.last n) (θ (Fin.last n) - eps (Fin.last n)) ∧
    (D.grad (some θ) eps u true st).2.mdl = Function.update θ (Fin.last n) (θ (Fin.last n) - eps (Fin.last n)) := by
  have hag : Agree D ({ st with vals := θ, mdl := θ } : DSt (n + 1) K).cfg st.cfg := fun _ _ => rfl
  simp only [Drv.grad, setFree_valid D θ st hv, ha, if_true]
  rw [(gradNum_spec D st.cfg f θ eps u _ hag hp hm).2]
  rw [← step_minus] at hvl hal ⊢
  have h1 := evalTasks_spec D st.cfg f
    ((List.finRange (n + 1)).map (step θ eps 1) ++ (List.finRange (n + 1)).map (step θ eps (-1))) { st with vals := θ, mdl := θ } hag (by
    intro t ht
    simp only [List.mem_append, List.mem_map] at ht
    rcases ht with ⟨i, -, rfl⟩ | ⟨i, -, rfl⟩
    · rw [step_plus]; exact hp i
    · rw [step_minus]; exact hm i)
  rw [finRange_split (step θ eps (-1)), ← List.append_assoc] at h1 ⊢
  exact evalTasks_last D _ _ _ _ h1 hvl hal

/-- C32, with priors: the derivative of the log-prior is taken at `theta` for every parameter except the last one, for which it is taken at
`theta - epsilon`. -/
theorem C32_priors_partial {n : ℕ} (D : Drv (n + 1) K E) (st : DSt (n + 1) K) (f : (Fin (n + 1) → ℝ) → ℝ) (θ eps : Fin (n + 1) → ℝ)
    (hv : Valid D θ) (ha : D.accepts θ = true)
    (hp : ∀ i, minusAt D st.cfg (Function.update θ i (θ i + eps i)) false = .ok (fin (f (Function.update θ i (θ i + eps i)))))
    (hm : ∀ i, minusAt D st.cfg (Function.update θ i (θ i - eps i)) false = .ok (fin (f (Function.update θ i (θ i - eps i)))))
    (hvl : Valid D (Function.update θ (Fin.last n) (θ (Fin.last n) - eps (Fin.last n))))
    (hal : D.accepts (Function.update θ (Fin.last n) (θ (Fin.last n) - eps (Fin.last n))) = true) :
    (D.grad (some θ) eps true true st).1 = .ok ((List.finRange (n + 1)).map fun i =>
      central f θ eps i - D.dlnp i (if i = Fin.last n then θ i - eps i else θ i)) := by
  have hs := (C32_state D st f θ eps true hv ha hp hm hvl hal).1
  have hag : Agree D ({ st with vals := θ, mdl := θ } : DSt (n + 1) K).cfg st.cfg := fun _ _ => rfl
  simp only [Drv.grad, setFree_valid D θ st hv, ha, if_true] at hs ⊢
  rw [(gradNum_spec D st.cfg f θ eps true _ hag hp hm).1, hs]
  congr 2
  funext i
  rw [if_pos rfl, Function.update_apply]
  by_cases h : i = Fin.last n
  · subst h; simp; ring
  · simp [h]; ring

/-- C32 fails: afterwards the driver is never at `theta` (for a nonzero step in the last parameter). -/
theorem C32_state_counterexample {n : ℕ} (D : Drv (n + 1) K E) (st : DSt (n + 1) K) (f : (Fin (n + 1) → ℝ) → ℝ) (θ eps : Fin (n + 1) → ℝ)
    (u : Bool) (hv : Valid D θ) (ha : D.accepts θ = true)
    (hp : ∀ i, minusAt D st.cfg (Function.update θ i (θ i + eps i)) false = .ok (fin (f (Function.update θ i (θ i + eps i)))))
    (hm : ∀ i, minusAt D st.cfg (Function.update θ i (θ i - eps i)) false = .ok (fin (f (Function.update θ i (θ i - eps i)))))
    (hvl : Valid D (Function.update θ (Fin.last n) (θ (Fin.last n) - eps (Fin.last n))))
    (hal : D.accepts (Function.update θ (Fin.last n) (θ (Fin.last n) - eps (Fin.last n))) = true) (he : eps (Fin.last n) ≠ 0) :
    (D.grad (some θ) eps u true st).2.vals ≠ θ := by
  rw [(C32_state D st f θ eps u hv ha hp hm hvl hal).1]
  intro h
  have := congrFun h (Fin.last n)
  simp at this
  exact he this

theorem demo_minus (cfg : Unit → ℝ) (x : ℝ) (h : -1 ≤ x ∧ x ≤ 1) : minusAt demo cfg (fun _ => x) false = .ok (fin (x ^ 2 / 2)) := by
  have hv : Valid demo (fun _ => x) := (demo_valid _).2 h
  simp only [minusAt, if_neg (not_not.2 hv), demo_chi2]
  simp [demo]

theorem update_one (θ : Fin 1 → ℝ) (i : Fin 1) (x : ℝ) : Function.update θ i x = fun _ => x := by
  funext j; fin_cases j; fin_cases i; simp

/-- Non-vacuity of the C32 theorems, and the effect of the misplaced prior derivative: at 1/2 with step 1/4 the gradient of the objective
x²/2 + x² is 3/2, which central differences would give exactly; the driver returns 1 and is left at 1/4. -/
example : (demo.grad (some fun _ => 1 / 2) (fun _ => 1 / 4) true true ⟨fun _ => 0, fun _ => 0, fun _ => 0⟩).1 = .ok [1] ∧
    (demo.grad (some fun _ => 1 / 2) (fun _ => 1 / 4) true true ⟨fun _ => 0, fun _ => 0, fun _ => 0⟩).2.vals = fun _ => 1 / 4 := by
  have hv : Valid demo (fun _ => 1 / 2) := (demo_valid _).2 (by norm_num)
  have hp : ∀ i, minusAt demo (fun _ => 0) (Function.update (fun _ : Fin 1 => (1 / 2 : ℝ)) i (1 / 2 + 1 / 4)) false =
      .ok (fin ((fun θ : Fin 1 → ℝ => θ 0 ^ 2 / 2) (Function.update (fun _ : Fin 1 => (1 / 2 : ℝ)) i (1 / 2 + 1 / 4)))) := by
    intro i; rw [update_one, demo_minus _ _ (by norm_num)]
  have hm : ∀ i, minusAt demo (fun _ => 0) (Function.update (fun _ : Fin 1 => (1 / 2 : ℝ)) i (1 / 2 - 1 / 4)) false =
      .ok (fin ((fun θ : Fin 1 → ℝ => θ 0 ^ 2 / 2) (Function.update (fun _ : Fin 1 => (1 / 2 : ℝ)) i (1 / 2 - 1 / 4)))) := by
    intro i; rw [update_one, demo_minus _ _ (by norm_num)]
  have hl : Valid demo (Function.update (fun _ : Fin 1 => (1 / 2 : ℝ)) (Fin.last 0) (1 / 2 - 1 / 4)) := by
    rw [update_one, demo_valid]; norm_num
  have h1 := C32_priors_partial demo ⟨fun _ => 0, fun _ => 0, fun _ => 0⟩ (fun θ => θ 0 ^ 2 / 2) (fun _ => 1 / 2) (fun _ => 1 / 4) hv rfl
    hp hm hl rfl
  have h2 := (C32_state demo ⟨fun _ => 0, fun _ => 0, fun _ => 0⟩ (fun θ => θ 0 ^ 2 / 2) (fun _ => 1 / 2) (fun _ => 1 / 4) true hv rfl
    hp hm hl rfl).1
  constructor
  · rw [h1]
    have : List.finRange 1 = [0] := rfl
    simp only [this, List.map_cons, List.map_nil, central, demo]
    congr 2
    norm_num
  · rw [h2, update_one]; norm_num

/-! ### C35: the analytic gradient -/

/-- The gradient rows of the groups at `theta`, one after the other. -/
def GradPred (D : Drv n K E) (cfg : K → ℝ) (θ : Fin n → ℝ) : List (Group n K E) → Except (DErr E) (Option (Fin n → List ℝ))
  | [] => .ok (some fun _ => [])
  | g :: gs =>
    match g.grad θ (settings D cfg g), GradPred D cfg θ gs with
    | .error e, _ => .error (.model e)
    | .ok _, .error e => .error e
    | .ok (some v), .ok (some vs) => .ok (some fun i => v i ++ vs i)
    | .ok _, .ok _ => .ok none

theorem Agree.gradPred {D : Drv n K E} {c c' : K → ℝ} (h : Agree D c c') (θ : Fin n → ℝ) (gs : List (Group n K E)) :
    GradPred D c θ gs = GradPred D c' θ gs := by
  induction gs with
  | nil => rfl
  | cons g gs ih => simp only [GradPred, h.settings g, ih]

theorem gradCombined_spec (D : Drv n K E) (gs : List (Group n K E)) (st : DSt n K) :
    (D.gradCombined gs st).1 = GradPred D st.cfg st.mdl gs := by
  induction gs generalizing st with
  | nil => rfl
  | cons g gs ih =>
    have hs : settings D st.cfg g = (D.enter g st).cfg := rfl
    have ha := enter_agree D g st
    have h1 := ih (D.enter g st)
    rw [ha.gradPred] at h1
    simp only [Drv.gradCombined, GradPred, hs]
    have hm : (D.enter g st).mdl = st.mdl := rfl
    rw [hm] at h1 ⊢
    cases hv : g.grad st.mdl (D.enter g st).cfg with
    | error e => rfl
    | ok v =>
      simp only
      generalize D.gradCombined gs (D.enter g st) = r at h1
      obtain ⟨r1, r2⟩ := r
      simp only at h1
      rw [← h1]
      cases r1 with
      | error e => cases v <;> rfl
      | ok vs => cases v <;> cases vs <;> rfl

/-- The gradient rows a group returns at `theta` are the derivatives of its predictions, one parameter at a time. -/
def GroupDeriv (D : Drv n K E) (cfg : K → ℝ) (θ : Fin n → ℝ) (g : Group n K E) : Prop :=
  ∃ (len : ℕ) (P : (Fin n → ℝ) → Fin len → ℝ) (G : Fin n → Fin len → ℝ),
    (∀ i, ∀ᶠ t in nhds (θ i), g.eval (Function.update θ i t) (settings D cfg g) = .ok (some (List.ofFn (P (Function.update θ i t))))) ∧
    g.eval θ (settings D cfg g) = .ok (some (List.ofFn (P θ))) ∧
    g.grad θ (settings D cfg g) = .ok (some fun i => List.ofFn (G i)) ∧
    ∀ i k, HasDerivAt (fun t => P (Function.update θ i t) k) (G i k) (θ i)

theorem pred_deriv (D : Drv n K E) (cfg : K → ℝ) (θ : Fin n → ℝ) (gs : List (Group n K E)) (h : ∀ g ∈ gs, GroupDeriv D cfg θ g) :
    ∃ (len : ℕ) (P : (Fin n → ℝ) → Fin len → ℝ) (G : Fin n → Fin len → ℝ),
      (∀ i, ∀ᶠ t in nhds (θ i), Pred D cfg (Function.update θ i t) gs = .ok (some (List.ofFn (P (Function.update θ i t))))) ∧
      Pred D cfg θ gs = .ok (some (List.ofFn (P θ))) ∧
      GradPred D cfg θ gs = .ok (some fun i => List.ofFn (G i)) ∧
      ∀ i k, HasDerivAt (fun t => P (Function.update θ i t) k) (G i k) (θ i) := by
  induction gs with
  | nil =>
    refine ⟨0, fun _ => Fin.elim0, fun _ => Fin.elim0, ?_, ?_, ?_, ?_⟩
    · intro i; exact Filter.Eventually.of_forall fun t => by simp [Pred]
    · simp [Pred]
    · simp [GradPred]
    · intro i k; exact k.elim0
  | cons g gs ih =>
    obtain ⟨l1, P1, G1, a1, b1, c1, d1⟩ := h g (by simp)
    obtain ⟨l2, P2, G2, a2, b2, c2, d2⟩ := ih (fun g' hg => h g' (by simp [hg]))
    refine ⟨l1 + l2, fun φ => Fin.append (P1 φ) (P2 φ), fun i => Fin.append (G1 i) (G2 i), ?_, ?_, ?_, ?_⟩
    · intro i
      filter_upwards [a1 i, a2 i] with t h1 h2
      simp only [Pred, h1, h2, List.ofFn_fin_append]
    · simp only [Pred, b1, b2, List.ofFn_fin_append]
    · simp only [GradPred, c1, c2, List.ofFn_fin_append]
    · intro i k
      refine Fin.addCases (fun k => ?_) (fun k => ?_) k
      · simp only [Fin.append_left]; exact d1 i k
      · simp only [Fin.append_right]; exact d2 i k

theorem asVec_ofFn {len m : ℕ} (P : Fin len → ℝ) (h : (List.ofFn P).length = m) (hl : m = len) (k : Fin m) :
    asVec m (List.ofFn P) h k = P (Fin.cast hl k) := by
  simp [asVec, Fin.cast]

theorem quad_deriv (D : Drv n K E) (hsym : D.cinv.transpose = D.cinv) (x : ℝ → Fin D.m → ℝ) (x' : Fin D.m → ℝ) (t0 : ℝ)
    (h : ∀ k, HasDerivAt (fun t => x t k) (x' k) t0) :
    HasDerivAt (fun t => D.quad (x t) / 2) (dotProduct (D.cinv.mulVec (x t0)) x') t0 := by
  have h1 : HasDerivAt (fun t => D.quad (x t)) (∑ i, (x' i * (D.cinv.mulVec (x t0)) i + x t0 i * (D.cinv.mulVec x') i)) t0 := by
    have : (fun t => D.quad (x t)) = fun t => ∑ i, x t i * ∑ j, D.cinv i j * x t j := by
      funext t; rfl
    rw [this]
    refine HasDerivAt.fun_sum fun i _ => ?_
    refine (h i).mul ?_
    exact HasDerivAt.fun_sum fun j _ => (h j).const_mul _
  refine (h1.div_const 2).congr_deriv ?_
  have e1 : ∑ i, (x' i * (D.cinv.mulVec (x t0)) i + x t0 i * (D.cinv.mulVec x') i) =
      dotProduct (D.cinv.mulVec (x t0)) x' + dotProduct (x t0) (D.cinv.mulVec x') := by
    rw [Finset.sum_add_distrib]
    congr 1
    exact Finset.sum_congr rfl fun i _ => mul_comm _ _
  have e2 : dotProduct (x t0) (D.cinv.mulVec x') = dotProduct (D.cinv.mulVec (x t0)) x' := by
    rw [Matrix.dotProduct_mulVec, ← Matrix.mulVec_transpose, hsym]
  rw [e1, e2]; ring

/-- the number an evaluation returned (0 if it did not return one) -/
def num : Except (DErr E) Flt → ℝ
  | .ok (fin x) => x
  | _ => 0

/-- The log-prior of each parameter is differentiable at its value, with the derivative the driver uses. -/
def PriorDeriv (D : Drv n K E) (θ : Fin n → ℝ) : Prop :=
  ∀ i, ∃ l : ℝ → ℝ, (∀ᶠ x in nhds (θ i), D.lnp i x = fin (l x)) ∧ D.lnp i (θ i) = fin (l (θ i)) ∧ HasDerivAt l (D.dlnp i (θ i)) (θ i)

theorem lnprior_deriv (D : Drv n K E) (θ : Fin n → ℝ) (h : PriorDeriv D θ) (i : Fin n) :
    ∃ L : ℝ → ℝ, (∀ᶠ t in nhds (θ i), D.lnprior (Function.update θ i t) = fin (L t)) ∧ HasDerivAt L (D.dlnp i (θ i)) (θ i) := by
  choose l h1 h2 h3 using h
  refine ⟨fun t => ∑ j, l j (Function.update θ i t j), ?_, ?_⟩
  · filter_upwards [h1 i] with t ht
    refine C30_lnprior_sum D _ _ fun j => ?_
    by_cases hj : j = i
    · subst hj; simpa using ht
    · simp [hj, h2 j]
  · have : HasDerivAt (fun t => ∑ j, l j (Function.update θ i t j)) (∑ j, if j = i then D.dlnp i (θ i) else 0) (θ i) := by
      refine HasDerivAt.fun_sum fun j _ => ?_
      by_cases hj : j = i
      · subst hj
        simp only [Function.update_self, if_true]
        exact h3 j
      · simp only [Function.update_of_ne hj, hj, if_false]
        exact hasDerivAt_const _ _
    simpa using this

theorem gradNow_spec (D : Drv n K E) (u : Bool) (st : DSt n K) (v : List ℝ) (R : Fin n → List ℝ)
    (hp : Pred D st.cfg st.mdl D.groups = .ok (some v)) (hg : GradPred D st.cfg st.mdl D.groups = .ok (some R))
    (hv : v.length = D.m) (hR : ∀ i, (R i).length = D.m) :
    (D.gradNow u st).1 = .ok ((List.finRange n).map fun i =>
      dotProduct (D.cinv.mulVec (asVec D.m v hv - D.d)) (asVec D.m (R i) (hR i)) - (if u then D.dlnp i (st.vals i) else 0)) := by
  have h1 := gradCombined_spec D D.groups st
  have h2 := gradCombined_same D D.groups st
  rw [hg] at h1
  simp only [Drv.gradNow]
  generalize D.gradCombined D.groups st = r at h1 h2
  obtain ⟨r1, r2⟩ := r
  simp only at h1 h2
  subst h1
  simp only
  obtain ⟨h3, h4⟩ := combined_spec D D.groups r2
  rw [h2.cfg.pred, h2.mdl, hp] at h3
  generalize D.combined D.groups r2 = q at h3 h4
  obtain ⟨q1, q2⟩ := q
  simp only at h3 h4
  subst h3
  simp only
  rw [dif_pos ⟨hv, hR⟩]
  have e : ∀ i, -1 * dotProduct (D.cinv.mulVec (D.d - asVec D.m v hv)) (asVec D.m (R i) (hR i)) =
      dotProduct (D.cinv.mulVec (asVec D.m v hv - D.d)) (asVec D.m (R i) (hR i)) := by
    intro i
    rw [← neg_sub (asVec D.m v hv) D.d, Matrix.mulVec_neg, neg_dotProduct]; ring
  have hvals : q2.vals = st.vals := h4.vals.trans h2.vals
  rw [zipWith_finRange]
  cases u
  · simp [← e]
  · simp only [if_true, hvals, ← e]
    congr 2
    funext i; ring

/-- C35: let the inverse covariance be symmetric, the predictions as long as the data, the gradients of the groups the derivatives of the
predictions (C67, C68) and the prior derivatives right (C20).  Then, after any history, `grad_minus_lnlike(theta)` (not `numerical_from_lnlike`) at
an interior point is the gradient of `minus_lnlike` at `theta`, with or without priors. -/
theorem C35_gradient (D : Drv n K E) (st : DSt n K) (ops : List (Op n)) (θ eps : Fin n → ℝ) (u : Bool)
    (hsym : D.cinv.transpose = D.cinv) (hg : ∀ g ∈ D.groups, GroupDeriv D st.cfg θ g) (hpr : PriorDeriv D θ)
    (hlen : ∀ v, Pred D st.cfg θ D.groups = .ok (some v) → v.length = D.m)
    (hv : Valid D θ) (ha : D.accepts θ = true)
    (hvn : ∀ i, ∀ᶠ t in nhds (θ i), Valid D (Function.update θ i t) ∧ D.accepts (Function.update θ i t) = true) :
    ∃ G : Fin n → ℝ, (D.grad (some θ) eps u false (D.run st ops)).1 = .ok ((List.finRange n).map G) ∧
      ∀ i, (∀ᶠ t in nhds (θ i), ∃ x, minusAt D st.cfg (Function.update θ i t) u = .ok (fin x)) ∧
        HasDerivAt (fun t => num (minusAt D st.cfg (Function.update θ i t) u)) (G i) (θ i) := by
  obtain ⟨len, P, R, a, b, c, d⟩ := pred_deriv D st.cfg θ D.groups hg
  have hl : D.m = len := by simpa using (hlen _ b).symm
  have hag := run_agree D st ops
  generalize D.run st ops = st' at hag
  have hP : ∀ φ, (List.ofFn (P φ)).length = D.m := fun φ => by simp [hl]
  have hR : ∀ i, (List.ofFn (R i)).length = D.m := fun i => by simp [hl]
  refine ⟨fun i => dotProduct (D.cinv.mulVec (asVec D.m (List.ofFn (P θ)) (hP θ) - D.d)) (asVec D.m (List.ofFn (R i)) (hR i)) -
          (if u then D.dlnp i (θ i) else 0), ?_, fun i => ?_⟩
  · simp only [Drv.grad, setFree_valid D θ st' hv, ha, if_true, Bool.false_eq_true, if_false]
    exact gradNow_spec D u { st' with vals := θ, mdl := θ } _ (fun i => List.ofFn (R i)) ((hag.pred θ _).trans b)
      ((hag.gradPred θ _).trans c) (hP θ) hR
  · obtain ⟨L, hL1, hL2⟩ := lnprior_deriv D θ hpr i
    have hcomp : ∀ k, HasDerivAt (fun t => (asVec D.m (List.ofFn (P (Function.update θ i t))) (hP _) - D.d) k)
        (asVec D.m (List.ofFn (R i)) (hR i) k) (θ i) := by
      intro k
      have := (d i (Fin.cast hl k)).sub_const (D.d k)
      refine (this.congr_of_eventuallyEq (Filter.Eventually.of_forall fun t => ?_)).congr_deriv ?_
      · simp only [Pi.sub_apply]
        rw [asVec_ofFn _ _ hl]
      · rw [asVec_ofFn _ _ hl]
    have hq := quad_deriv D hsym (fun t => asVec D.m (List.ofFn (P (Function.update θ i t))) (hP _) - D.d) _ _ hcomp
    have hx : asVec D.m (List.ofFn (P (Function.update θ i (θ i)))) (hP _) - D.d =
        asVec D.m (List.ofFn (P θ)) (hP θ) - D.d := by
      funext k
      show asVec D.m (List.ofFn (P (Function.update θ i (θ i)))) (hP _) k - D.d k = asVec D.m (List.ofFn (P θ)) (hP θ) k - D.d k
      rw [asVec_ofFn _ _ hl, asVec_ofFn _ _ hl, Function.update_eq_self]
    rw [hx] at hq
    have hform : ∀ᶠ t in nhds (θ i), minusAt D st.cfg (Function.update θ i t) u =
        .ok (fin (D.quad (asVec D.m (List.ofFn (P (Function.update θ i t))) (hP _) - D.d) / 2 - (if u then L t else 0))) := by
      filter_upwards [hvn i, a i, hL1] with t ⟨h1, h2⟩ h3 h4
      have hc : chi2At D st.cfg (Function.update θ i t) =
          .ok (fin (D.quad (asVec D.m (List.ofFn (P (Function.update θ i t))) (hP _) - D.d))) := by
        simp only [chi2At, h3]
        rw [dif_pos (hP _)]
      simp only [minusAt, if_neg (not_not.2 h1), h2, Bool.true_eq_false, if_false, hc, h4]
      cases u
      · simp
      · simp only [if_true]
        exact congrArg (fun x => Except.ok (fin x)) (sub_eq_add_neg _ _).symm
    refine ⟨hform.mono fun t ht => ⟨_, ht⟩, ?_⟩
    have hd : HasDerivAt (fun t => D.quad (asVec D.m (List.ofFn (P (Function.update θ i t))) (hP _) - D.d) / 2 - (if u then L t else 0))
        (dotProduct (D.cinv.mulVec (asVec D.m (List.ofFn (P θ)) (hP θ) - D.d)) (asVec D.m (List.ofFn (R i)) (hR i)) -
          (if u then D.dlnp i (θ i) else 0)) (θ i) := by
      refine hq.sub ?_
      cases u
      · simpa using hasDerivAt_const (θ i) (0 : ℝ)
      · simpa using hL2
    exact hd.congr_of_eventuallyEq (hform.mono fun t ht => by simp only [ht, num])

/-- C35, out of bounds: the gradient is that of the penalised objective. -/
theorem C35_out_of_bounds (D : Drv n K E) (st : DSt n K) (θ eps : Fin n → ℝ) (u f : Bool) (hpr : PriorDeriv D θ) (hv : ¬ Valid D θ)
    (hvn : ∀ i, ∀ᶠ t in nhds (θ i), ¬ Valid D (Function.update θ i t)) :
    ∃ G : Fin n → ℝ, (D.grad (some θ) eps u f st).1 = .ok ((List.finRange n).map G) ∧
      ∀ i, HasDerivAt (fun t => num (minusAt D st.cfg (Function.update θ i t) u)) (G i) (θ i) := by
  refine ⟨fun i => -1 * D.dlnp i (θ i), ?_, fun i => ?_⟩
  · simp only [Drv.grad, setFree_invalid D θ st hv]
  · obtain ⟨L, hL1, hL2⟩ := lnprior_deriv D θ hpr i
    have hform : ∀ᶠ t in nhds (θ i), minusAt D st.cfg (Function.update θ i t) u = .ok (fin (D.quad D.d / 2 - L t)) := by
      filter_upwards [hvn i, hL1] with t h1 h4
      simp only [minusAt, if_pos h1, h4]
      exact congrArg (fun x => Except.ok (fin x)) (sub_eq_add_neg _ _).symm
    refine ((hL2.const_sub (D.quad D.d / 2)).congr_of_eventuallyEq (hform.mono fun t ht => by simp only [ht, num])).congr_deriv ?_
    ring

/-- Non-vacuity of `C35_gradient`: the demonstration fit at 1/2. -/
example : ∃ G : Fin 1 → ℝ, (demo.grad (some fun _ => 1 / 2) (fun _ => 1) true false ⟨fun _ => 0, fun _ => 0, fun _ => 0⟩).1 =
      .ok ((List.finRange 1).map G) ∧
    ∀ i, HasDerivAt (fun t => num (minusAt demo (fun _ => 0) (Function.update (fun _ => 1 / 2) i t) true)) (G i) (1 / 2) := by
  have hv : Valid demo (fun _ => 1 / 2) := (demo_valid _).2 (by norm_num)
  have hnear : ∀ᶠ t in nhds (1 / 2 : ℝ), -1 ≤ t ∧ t ≤ 1 := by
    filter_upwards [Ioo_mem_nhds (a := (-1 : ℝ)) (b := 1) (x := 1 / 2) (by norm_num) (by norm_num)] with t ht
    exact ⟨ht.1.le, ht.2.le⟩
  obtain ⟨G, h1, h2⟩ := C35_gradient demo ⟨fun _ => 0, fun _ => 0, fun _ => 0⟩ [] (fun _ => 1 / 2) (fun _ => 1) true
    (by simp [demo]) (by
      intro g hg
      simp only [demo, List.mem_singleton] at hg
      subst hg
      refine ⟨1, fun φ _ => φ 0, fun _ _ => 1, fun i => Filter.Eventually.of_forall fun t => by simp [update_one], by simp, by simp, ?_⟩
      intro i k
      simp only [update_one]
      exact hasDerivAt_id _) (by
      intro i
      refine ⟨fun x => -x ^ 2, Filter.Eventually.of_forall fun x => rfl, rfl, ?_⟩
      have := ((hasDerivAt_id (1 / 2 : ℝ)).mul (hasDerivAt_id (1 / 2 : ℝ))).neg
      refine (this.congr_of_eventuallyEq (Filter.Eventually.of_forall fun t => ?_)).congr_deriv ?_
      · simp [pow_two]
      · simp [demo]; norm_num) (by
      intro v h
      have : v = [1 / 2] := by
        have h' : (Except.ok (some [1 / 2]) : Except (DErr Empty) (Option (List ℝ))) = .ok (some v) := h
        injection h' with h'
        injection h' with h'
        exact h'.symm
      rw [this]; rfl) hv rfl (by
      intro i
      filter_upwards [hnear] with t ht
      refine ⟨?_, rfl⟩
      rw [update_one, demo_valid]; exact ht)
  exact ⟨G, h1, fun i => (h2 i).2⟩

/-- Non-vacuity of `C30_current` and `C30_out_of_bounds`: a history with evaluations inside and outside the bounds. -/
example : (demo.lnprob none (demo.run ⟨fun _ => 0, fun _ => 0, fun _ => 0⟩
      [.lnprob (some fun _ => 1 / 2), .chi2 (some fun _ => 5), .grad (some fun _ => 1 / 3) (fun _ => 1) true true])).1 =
    lnprobAt demo (fun _ => 0) (demo.run ⟨fun _ => 0, fun _ => 0, fun _ => 0⟩
      [.lnprob (some fun _ => 1 / 2), .chi2 (some fun _ => 5), .grad (some fun _ => 1 / 3) (fun _ => 1) true true]).vals ∧
    ¬ Valid demo (fun _ => 5) := by
  refine ⟨(C30_current (D := demo) ?_ (fun _ => rfl) ⟨fun _ => 0, fun _ => 0, fun _ => 0⟩ ⟨rfl, fun i => ?_⟩ _).2, ?_⟩
  · intro i x h
    have h : -1 ≤ x ∧ x ≤ 1 := by simpa [demo] using h
    simp [demo, h.1, h.2]
  · simp [demo]
  · rw [demo_valid]; norm_num

/-- Non-vacuity of `C35_out_of_bounds`. -/
example : (∀ i, ∀ᶠ t in nhds (5 : ℝ), ¬ Valid demo (Function.update (fun _ => 5) i t)) ∧ PriorDeriv demo (fun _ => 5) := by
  constructor
  · intro i
    filter_upwards [Ioi_mem_nhds (show (1 : ℝ) < 5 by norm_num)] with t ht
    rw [update_one, demo_valid]
    exact fun h => absurd h.2 (not_le.2 ht)
  · intro i
    refine ⟨fun x => -x ^ 2, Filter.Eventually.of_forall fun x => rfl, rfl, ?_⟩
    have := ((hasDerivAt_id (5 : ℝ)).mul (hasDerivAt_id (5 : ℝ))).neg
    refine (this.congr_of_eventuallyEq (Filter.Eventually.of_forall fun t => ?_)).congr_deriv ?_
    · simp [pow_two]
    · simp [demo]; norm_num

end

end Verif.Driver
