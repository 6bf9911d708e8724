/-
C129: an object whose parameters change.
-/
import Verif.Props.SimFitPoints

namespace Verif.SimFit

noncomputable section

open Classical

/-! ### Changes that are noticed -/

/-- Not an assignment to the hyperparameters, to the names of the columns, or to the use of errors -/
def Op.harmless : Op → Prop
  | .theta _ | .indep _ | .dep _ | .useErrors _ => False
  | _ => True

theorem inv_step (eqv : Same) {op : Op} (ho : op.harmless) {s : Fit} (h : Inv s) : Inv (step eqv s op) := by
  cases op with
  | theta t => cases ho
  | indep v => cases ho
  | dep v => cases ho
  | useErrors b => cases ho
  | data d => exact inv_setData eqv d h
  | kernel k => exact inv_setKernel k h
  | solver v => exact inv_setSolver v h
  | readX => exact (good_getX s h).2.1
  | readY => exact (good_getY s h).2.1
  | readYerr => exact (good_getYerr s h).2.1
  | readXshape => exact (good_getXshape s h).2.1
  | readNdim => exact (good_getNdim s h).2.1
  | readXScaler => exact (good_getXScaler s h).2.1
  | readYScaler => exact (good_getYScaler s h).2.1
  | readXScaled => exact (good_getXScaled s h).2.1
  | readYScaled => exact (good_getYScaled s h).2.1
  | readYerrScaled => exact (good_getYerrScaled s h).2.1
  | readGP => exact (good_getGP s h).2.1
  | call args kw => exact (good_call args kw s h).2.1

theorem inv_steps (eqv : Same) {ops : List Op} (ho : ∀ op ∈ ops, op.harmless) {s : Fit} (h : Inv s) : Inv (ops.foldl (step eqv) s) := by
  induction ops generalizing s with
  | nil => exact h
  | cons op ops ih => exact ih (fun o ho' => ho o (by simp [ho'])) (inv_step eqv (ho op (by simp)) h)

/-! `ndim` is right in every state. -/

/-- Computations that leave the parameters, and a right `ndim` -/
def Mild {α : Type} (m : M α) : Prop := ∀ s, (m s).2.par = s.par ∧ (NdimOk s → NdimOk (m s).2)

theorem mild_done {α : Type} (v : α) : Mild (done v) := fun _ => ⟨rfl, id⟩

theorem mild_ofPar {α : Type} (f : Params → Except Err α) : Mild (ofPar f) := fun _ => ⟨rfl, id⟩

theorem mild_andThen {α β : Type} {m : M α} {f : α → M β} (hm : Mild m) (hf : ∀ v, Mild (f v)) : Mild (m.andThen f) := by
  intro s
  obtain ⟨h1, h2⟩ := hm s
  unfold M.andThen
  rcases hms : m s with ⟨r, s'⟩
  rw [hms] at h1 h2
  cases r with
  | error e => exact ⟨h1, h2⟩
  | ok v =>
    obtain ⟨g1, g2⟩ := hf v s'
    exact ⟨g1.trans h1, fun h => g2 (h2 h)⟩

theorem mild_memo {α : Type} {c : Cache → Option α} {set : α → Cache → Cache} {m : M α} (hm : Mild m)
    (hset : ∀ v c, (set v c).ndim = c.ndim) : Mild (memo c set m) := by
  intro s
  obtain ⟨h1, h2⟩ := hm s
  unfold memo
  rcases hcs : c s.cache with _ | v
  · dsimp only
    rcases hms : m s with ⟨r, s'⟩
    rw [hms] at h1 h2
    cases r with
    | error e => exact ⟨h1, h2⟩
    | ok v =>
      refine ⟨h1, fun h w hw => h2 h w ?_⟩
      dsimp only at hw
      rw [hset] at hw
      exact hw
  · exact ⟨rfl, id⟩

theorem mild_getNdim : Mild getNdim := by
  intro s
  rcases hcs : s.cache.ndim with _ | v
  · have : getNdim s = (.ok s.par.theta.length, { s with cache := { s.cache with ndim := some s.par.theta.length } }) := by
      unfold getNdim memo
      dsimp only
      rw [hcs]
      rfl
    rw [this]
    exact ⟨rfl, fun _ w hw => (Option.some.inj hw).symm⟩
  · have : getNdim s = (.ok v, s) := by
      unfold getNdim memo
      dsimp only
      rw [hcs]
    rw [this]
    exact ⟨rfl, id⟩

theorem mild_getX : Mild getX := mild_memo (mild_ofPar _) fun _ _ => rfl
theorem mild_getY : Mild getY := mild_memo (mild_ofPar _) fun _ _ => rfl
theorem mild_getYerr : Mild getYerr := mild_memo (mild_ofPar _) fun _ _ => rfl
theorem mild_getXshape : Mild getXshape := mild_memo (mild_andThen mild_getX fun _ => mild_done _) fun _ _ => rfl
theorem mild_getXScaler : Mild getXScaler := mild_memo (mild_andThen mild_getX fun _ => mild_ofPar _) fun _ _ => rfl
theorem mild_getYScaler : Mild getYScaler := mild_memo (mild_andThen mild_getY fun _ => mild_ofPar _) fun _ _ => rfl
theorem mild_getXScaled : Mild getXScaled := mild_memo (mild_andThen mild_getX fun _ => mild_andThen mild_getXScaler fun _ => mild_ofPar _) fun _ _ => rfl
theorem mild_getYScaled : Mild getYScaled := mild_memo (mild_andThen mild_getYScaler fun _ => mild_andThen mild_getY fun _ => mild_done _) fun _ _ => rfl
theorem mild_getYerrScaled : Mild getYerrScaled := mild_memo (mild_andThen mild_getYerr fun _ => mild_andThen mild_getYScaler fun _ => mild_done _) fun _ _ => rfl

theorem mild_getGP : Mild getGP := by
  refine mild_memo (mild_andThen mild_getNdim fun ndim => mild_andThen mild_getXshape fun xshape => mild_andThen (mild_ofPar _) fun q => ?_) fun _ _ => rfl
  by_cases hq : q.2.2
  · simp only [hq, if_true]
    exact mild_andThen mild_getYerrScaled fun e => mild_andThen mild_getXScaled fun x => mild_ofPar _
  · simp only [hq]
    exact mild_andThen mild_getXScaled fun x => mild_ofPar _

theorem mild_call (args : List Arg) (kw : List (String × Arg)) : Mild (Fit.call args kw) :=
  mild_andThen (mild_andThen (mild_ofPar _) fun _ => mild_andThen mild_getXScaler fun _ => mild_andThen (mild_ofPar _) fun _ => mild_andThen mild_getYScaler fun _ =>
    mild_andThen mild_getGP fun _ => mild_andThen mild_getYScaled fun _ => mild_andThen (mild_ofPar _) fun _ => mild_done _) fun _ => mild_done _

/-- The solver is one of the two -/
def SolverOk (s : Fit) : Prop := s.par.solver ∈ ["BasicSolver", "HODLRSolver"]

theorem ok_step (eqv : Same) (op : Op) {s : Fit} (h : NdimOk s ∧ SolverOk s) : NdimOk (step eqv s op) ∧ SolverOk (step eqv s op) := by
  have mild : ∀ {α : Type} {m : M α}, Mild m → NdimOk (m s).2 ∧ SolverOk (m s).2 := fun hm =>
    ⟨(hm s).2 h.1, by unfold SolverOk; rw [(hm s).1]; exact h.2⟩
  cases op with
  | theta t =>
    simp only [step, setTheta]
    split_ifs
    · exact h
    · exact ⟨fun v hv => (by cases hv), h.2⟩
  | indep v =>
    simp only [step, setIndep]
    split_ifs
    · exact h
    · exact ⟨h.1, h.2⟩
  | dep v =>
    simp only [step, setDep]
    split_ifs
    · exact h
    · exact h
    · exact ⟨h.1, h.2⟩
  | useErrors b => exact ⟨h.1, h.2⟩
  | data d =>
    simp only [step, setData]
    split_ifs
    · exact h
    · exact ⟨h.1, h.2⟩
  | kernel k =>
    simp only [step, setKernel]
    split_ifs
    · exact h
    · exact ⟨h.1, h.2⟩
  | solver v =>
    simp only [step, setSolver]
    by_cases h1 : v ∉ ["BasicSolver", "HODLRSolver"]
    · rw [if_pos h1]; exact h
    · rw [if_neg h1]
      by_cases h2 : v = s.par.solver
      · rw [if_pos h2]; exact h
      · rw [if_neg h2]; exact ⟨h.1, not_not.1 h1⟩
  | readX => exact mild mild_getX
  | readY => exact mild mild_getY
  | readYerr => exact mild mild_getYerr
  | readXshape => exact mild mild_getXshape
  | readNdim => exact mild mild_getNdim
  | readXScaler => exact mild mild_getXScaler
  | readYScaler => exact mild mild_getYScaler
  | readXScaled => exact mild mild_getXScaled
  | readYScaled => exact mild mild_getYScaled
  | readYerrScaled => exact mild mild_getYerrScaled
  | readGP => exact mild mild_getGP
  | call args kw => exact mild (mild_call args kw)

theorem ok_steps (eqv : Same) (ops : List Op) {s : Fit} (h : NdimOk s ∧ SolverOk s) : NdimOk (ops.foldl (step eqv) s) ∧ SolverOk (ops.foldl (step eqv) s) := by
  induction ops generalizing s with
  | nil => exact h
  | cons op ops ih => exact ih (ok_step eqv op h)

theorem init_ok {p : Params} {s : Fit} (h : init p = .ok s) : s = ⟨p, {}⟩ ∧ p.solver ∈ ["BasicSolver", "HODLRSolver"] := by
  unfold init at h
  split_ifs at h with h1 h2 h3 h4
  cases h
  exact ⟨rfl, h4⟩

/-- A call in a state whose cache agrees with the parameters is a call of a new object with the same parameters. -/
theorem inv_new {s : Fit} (h : Inv s) (hs : SolverOk s) (args : List Arg) (kw : List (String × Arg)) (r : Out) :
    (Fit.call args kw s).1 = .ok r ↔ ∃ s', init s.par = .ok s' ∧ (Fit.call args kw s').1 = .ok r := by
  rw [(good_call args kw s h).1]
  constructor
  · intro hr
    have hr' := hr
    unfold pCall at hr'
    obtain ⟨l, hl, _⟩ := bind_ok hr'
    obtain ⟨hread, _⟩ := pEvaluate_ok hl
    refine ⟨⟨s.par, {}⟩, ?_, ?_⟩
    · unfold init
      rw [if_neg (by push Not; exact hread.indep), if_neg hread.dep, if_neg (by push Not; exact hread.err), if_neg (not_not.2 (show s.par.solver ∈ ["BasicSolver", "HODLRSolver"] from hs))]
    · rw [(good_call args kw _ (inv_empty _)).1]
      exact hr
  · rintro ⟨s', hi, hr⟩
    rw [(init_ok hi).1, (good_call args kw _ (inv_empty _)).1] at hr
    exact hr

/-- C129: whatever is read, called or assigned, in any order, a call gives what a new object with the same parameters gives, as long as hyperparameters, names of columns and
the use of errors are not assigned. -/
theorem C129_fresh_partial (eqv : Same) {p : Params} {s₀ : Fit} (hi : init p = .ok s₀) {ops : List Op} (ho : ∀ op ∈ ops, op.harmless)
    (args : List Arg) (kw : List (String × Arg)) (r : Out) :
    (Fit.call args kw (ops.foldl (step eqv) s₀)).1 = .ok r ↔
      ∃ s, init (ops.foldl (step eqv) s₀).par = .ok s ∧ (Fit.call args kw s).1 = .ok r := by
  obtain ⟨rfl, hs⟩ := init_ok hi
  exact inv_new (inv_steps eqv ho (inv_empty p)) (ok_steps eqv ops ⟨inv_ndim (inv_empty p), hs⟩).2 args kw r

/-- C129: after any history, a new table that does not count as the old one brings everything up to date. -/
theorem C129_new_table (eqv : Same) {p : Params} {s₀ : Fit} (hi : init p = .ok s₀) (ops₁ : List Op) (d : Frame)
    (hd : eqv.data d (ops₁.foldl (step eqv) s₀).par.data = false) {ops₂ : List Op} (ho : ∀ op ∈ ops₂, op.harmless)
    (args : List Arg) (kw : List (String × Arg)) (r : Out) :
    (Fit.call args kw ((ops₁ ++ .data d :: ops₂).foldl (step eqv) s₀)).1 = .ok r ↔
      ∃ s, init ((ops₁ ++ .data d :: ops₂).foldl (step eqv) s₀).par = .ok s ∧ (Fit.call args kw s).1 = .ok r := by
  obtain ⟨rfl, hs⟩ := init_ok hi
  have h := ok_steps eqv ops₁ ⟨inv_ndim (inv_empty p), hs⟩
  refine inv_new ?_ (ok_steps eqv _ ⟨inv_ndim (inv_empty p), hs⟩).2 args kw r
  rw [List.foldl_append, List.foldl_cons]
  refine inv_steps eqv ho ?_
  obtain ⟨s, hs'⟩ : ∃ s, s = ops₁.foldl (step eqv) ⟨p, {}⟩ := ⟨_, rfl⟩
  rw [← hs'] at h hd ⊢
  show Inv (setData eqv d s).2
  unfold setData
  rw [if_neg (by rw [hd]; simp)]
  have hn := h.1
  constructor <;> intro v hv
  case ndim =>
    show Except.ok s.par.theta.length = _
    rw [hn v hv]
  all_goals cases hv

/-- C129: and the parameters of the object are those assigned. -/
theorem C129_assigned (eqv : Same) (s : Fit) :
    (∀ t, eqv.theta t s.par.theta = false → (step eqv s (.theta t)).par = { s.par with theta := t }) ∧
    (∀ k, (step eqv s (.kernel k)).par = { s.par with kernel := k }) ∧
    (∀ d, eqv.data d s.par.data = false → (step eqv s (.data d)).par = { s.par with data := d }) ∧
    (∀ b, (step eqv s (.useErrors b)).par = { s.par with useErrors := b }) ∧
    (∀ args kw, (step eqv s (.call args kw)).par = s.par) := by
  refine ⟨fun t h => ?_, fun k => ?_, fun d h => ?_, fun b => rfl, fun args kw => (mild_call args kw s).1⟩
  · simp only [step, setTheta]
    rw [if_neg (by rw [h]; simp)]
  · simp only [step, setKernel]
    by_cases hk : k = s.par.kernel
    · rw [if_pos hk, hk]
    · rw [if_neg hk]
  · simp only [step, setData]
    rw [if_neg (by rw [h]; simp)]

/-! ### Changes that are not noticed -/

/-- The values in the cache that a call needs -/
structure Holds (s : Fit) (xs : Scalers) (ys : Scaler) (g : GP) (y : Vec) : Prop where
  xScaler : s.cache.xScaler = some xs
  yScaler : s.cache.yScaler = some ys
  gp : s.cache.gp = some g
  yScaled : s.cache.yScaled = some y

/-- what such a call gives -/
def heldValue (xs : Scalers) (ys : Scaler) (g : GP) (y : Vec) (pts : Except Err (List (List ℝ))) : Except Err Out :=
  pts >>= fun pts => scalePoints xs pts >>= fun t => predictAll g y t >>= fun r => .ok (unpack (r.map ys.inverse))

theorem memo_hit {α : Type} {c : Cache → Option α} {set : α → Cache → Cache} {m : M α} {s : Fit} {v : α} (h : c s.cache = some v) : memo c set m s = (.ok v, s) := by
  unfold memo
  rw [h]

theorem held_call {s : Fit} {xs : Scalers} {ys : Scaler} {g : GP} {y : Vec} (h : Holds s xs ys g y) (args : List Arg) (kw : List (String × Arg)) :
    (Fit.call args kw s).1 = heldValue xs ys g y (asked s.par.indep args kw) := by
  have h1 : getXScaler s = (.ok xs, s) := memo_hit h.xScaler
  have h2 : getYScaler s = (.ok ys, s) := memo_hit h.yScaler
  have h3 : getGP s = (.ok g, s) := memo_hit h.gp
  have h4 : getYScaled s = (.ok y, s) := memo_hit h.yScaled
  unfold Fit.call Fit.evaluate heldValue M.andThen ofPar done
  cases hk : asked s.par.indep args kw with
  | error e => simp only [hk]; rfl
  | ok pts =>
    simp only [hk, h1]
    cases ht : scalePoints xs pts with
    | error e => simp only [ht, bind, Except.bind]
    | ok t =>
      simp only [ht, h2, h3, h4, bind, Except.bind]
      cases hr : predictAll g y t with
      | error e => simp only [hr]
      | ok r => simp only [hr]

/-- Computations that keep what is in these four places -/
def Keeps {α : Type} (m : M α) : Prop := ∀ s, (∀ v, s.cache.xScaler = some v → (m s).2.cache.xScaler = some v) ∧ (∀ v, s.cache.yScaler = some v → (m s).2.cache.yScaler = some v) ∧
  (∀ v, s.cache.gp = some v → (m s).2.cache.gp = some v) ∧ ∀ v, s.cache.yScaled = some v → (m s).2.cache.yScaled = some v

theorem keeps_done {α : Type} (v : α) : Keeps (done v) := fun _ => ⟨fun _ h => h, fun _ h => h, fun _ h => h, fun _ h => h⟩

theorem keeps_ofPar {α : Type} (f : Params → Except Err α) : Keeps (ofPar f) := fun _ => ⟨fun _ h => h, fun _ h => h, fun _ h => h, fun _ h => h⟩

theorem keeps_andThen {α β : Type} {m : M α} {f : α → M β} (hm : Keeps m) (hf : ∀ v, Keeps (f v)) : Keeps (m.andThen f) := by
  intro s
  have h := hm s
  unfold M.andThen
  rcases hms : m s with ⟨r, s'⟩
  rw [hms] at h
  cases r with
  | error e => exact h
  | ok v =>
    have g := hf v s'
    exact ⟨fun v hv => g.1 v (h.1 v hv), fun v hv => g.2.1 v (h.2.1 v hv), fun v hv => g.2.2.1 v (h.2.2.1 v hv), fun v hv => g.2.2.2 v (h.2.2.2 v hv)⟩

theorem keeps_memo {α : Type} {c : Cache → Option α} {set : α → Cache → Cache} {m : M α} (hm : Keeps m)
    (h1 : ∀ s : Cache, c s = none → ∀ v w, s.xScaler = some w → ∀ s', s'.xScaler = some w → (set v s').xScaler = some w)
    (h2 : ∀ s : Cache, c s = none → ∀ v w, s.yScaler = some w → ∀ s', s'.yScaler = some w → (set v s').yScaler = some w)
    (h3 : ∀ s : Cache, c s = none → ∀ v w, s.gp = some w → ∀ s', s'.gp = some w → (set v s').gp = some w)
    (h4 : ∀ s : Cache, c s = none → ∀ v w, s.yScaled = some w → ∀ s', s'.yScaled = some w → (set v s').yScaled = some w) : Keeps (memo c set m) := by
  intro s
  have h := hm s
  unfold memo
  rcases hcs : c s.cache with _ | v
  · dsimp only
    rcases hms : m s with ⟨r, s'⟩
    rw [hms] at h
    cases r with
    | error e => exact h
    | ok v =>
      exact ⟨fun w hw => h1 _ hcs v w hw _ (h.1 w hw), fun w hw => h2 _ hcs v w hw _ (h.2.1 w hw), fun w hw => h3 _ hcs v w hw _ (h.2.2.1 w hw),
        fun w hw => h4 _ hcs v w hw _ (h.2.2.2 w hw)⟩
  · exact ⟨fun _ h => h, fun _ h => h, fun _ h => h, fun _ h => h⟩

theorem clash {α : Type} {P : Prop} {o : Option α} {w : α} (h : o = none) (h' : o = some w) : P := by
  rw [h] at h'
  cases h'

theorem keeps_getX : Keeps getX :=
  keeps_memo (keeps_ofPar _) (fun _ _ _ _ _ _ h => h) (fun _ _ _ _ _ _ h => h) (fun _ _ _ _ _ _ h => h) (fun _ _ _ _ _ _ h => h)
theorem keeps_getY : Keeps getY :=
  keeps_memo (keeps_ofPar _) (fun _ _ _ _ _ _ h => h) (fun _ _ _ _ _ _ h => h) (fun _ _ _ _ _ _ h => h) (fun _ _ _ _ _ _ h => h)
theorem keeps_getYerr : Keeps getYerr :=
  keeps_memo (keeps_ofPar _) (fun _ _ _ _ _ _ h => h) (fun _ _ _ _ _ _ h => h) (fun _ _ _ _ _ _ h => h) (fun _ _ _ _ _ _ h => h)
theorem keeps_getXshape : Keeps getXshape :=
  keeps_memo (keeps_andThen keeps_getX fun _ => keeps_done _) (fun _ _ _ _ _ _ h => h) (fun _ _ _ _ _ _ h => h) (fun _ _ _ _ _ _ h => h) (fun _ _ _ _ _ _ h => h)
theorem keeps_getNdim : Keeps getNdim :=
  keeps_memo (keeps_ofPar _) (fun _ _ _ _ _ _ h => h) (fun _ _ _ _ _ _ h => h) (fun _ _ _ _ _ _ h => h) (fun _ _ _ _ _ _ h => h)
theorem keeps_getXScaler : Keeps getXScaler :=
  keeps_memo (keeps_andThen keeps_getX fun _ => keeps_ofPar _) (fun _ h _ _ h' _ _ => clash h h') (fun _ _ _ _ _ _ h => h) (fun _ _ _ _ _ _ h => h) (fun _ _ _ _ _ _ h => h)
theorem keeps_getYScaler : Keeps getYScaler :=
  keeps_memo (keeps_andThen keeps_getY fun _ => keeps_ofPar _) (fun _ _ _ _ _ _ h => h) (fun _ h _ _ h' _ _ => clash h h') (fun _ _ _ _ _ _ h => h) (fun _ _ _ _ _ _ h => h)
theorem keeps_getXScaled : Keeps getXScaled :=
  keeps_memo (keeps_andThen keeps_getX fun _ => keeps_andThen keeps_getXScaler fun _ => keeps_ofPar _)
    (fun _ _ _ _ _ _ h => h) (fun _ _ _ _ _ _ h => h) (fun _ _ _ _ _ _ h => h) (fun _ _ _ _ _ _ h => h)
theorem keeps_getYScaled : Keeps getYScaled :=
  keeps_memo (keeps_andThen keeps_getYScaler fun _ => keeps_andThen keeps_getY fun _ => keeps_done _)
    (fun _ _ _ _ _ _ h => h) (fun _ _ _ _ _ _ h => h) (fun _ _ _ _ _ _ h => h) (fun _ h _ _ h' _ _ => clash h h')
theorem keeps_getYerrScaled : Keeps getYerrScaled :=
  keeps_memo (keeps_andThen keeps_getYerr fun _ => keeps_andThen keeps_getYScaler fun _ => keeps_done _)
    (fun _ _ _ _ _ _ h => h) (fun _ _ _ _ _ _ h => h) (fun _ _ _ _ _ _ h => h) (fun _ _ _ _ _ _ h => h)

theorem keeps_getGP : Keeps getGP := by
  refine keeps_memo (keeps_andThen keeps_getNdim fun ndim => keeps_andThen keeps_getXshape fun xshape => keeps_andThen (keeps_ofPar _) fun q => ?_)
    (fun _ _ _ _ _ _ h => h) (fun _ _ _ _ _ _ h => h) (fun _ h _ _ h' _ _ => clash h h') (fun _ _ _ _ _ _ h => h)
  by_cases hq : q.2.2
  · simp only [hq, if_true]
    exact keeps_andThen keeps_getYerrScaled fun e => keeps_andThen keeps_getXScaled fun x => keeps_ofPar _
  · simp only [hq]
    exact keeps_andThen keeps_getXScaled fun x => keeps_ofPar _

theorem memo_stored {α : Type} {c : Cache → Option α} {set : α → Cache → Cache} {m : M α} (hset : ∀ v s, c (set v s) = some v) {s : Fit} {v : α} {s' : Fit}
    (h : memo c set m s = (.ok v, s')) : c s'.cache = some v := by
  unfold memo at h
  rcases hcs : c s.cache with _ | w
  · rw [hcs] at h
    dsimp only at h
    rcases hms : m s with ⟨r, t⟩
    rw [hms] at h
    cases r with
    | error e => simp only [Prod.mk.injEq, reduceCtorEq, false_and] at h
    | ok w =>
      simp only [Prod.mk.injEq, Except.ok.injEq] at h
      obtain ⟨rfl, rfl⟩ := h
      exact hset _ _
  · rw [hcs] at h
    simp only [Prod.mk.injEq, Except.ok.injEq] at h
    obtain ⟨rfl, rfl⟩ := h
    exact hcs

theorem andThen_ok {α β : Type} {m : M α} {f : α → M β} {s s' : Fit} {r : β} (h : m.andThen f s = (.ok r, s')) : ∃ v t, m s = (.ok v, t) ∧ f v t = (.ok r, s') := by
  unfold M.andThen at h
  rcases hms : m s with ⟨q, t⟩
  rw [hms] at h
  cases q with
  | error e => simp only [Prod.mk.injEq, reduceCtorEq, false_and] at h
  | ok v => exact ⟨v, t, rfl, h⟩

/-- After a call that succeeded everything is in the cache. -/
theorem call_holds {s : Fit} {args : List Arg} {kw : List (String × Arg)} {r : Out} (h : (Fit.call args kw s).1 = .ok r) :
    ∃ xs ys g y, Holds (Fit.call args kw s).2 xs ys g y := by
  obtain ⟨s', hs'⟩ : ∃ s', s' = (Fit.call args kw s).2 := ⟨_, rfl⟩
  rw [← hs']
  have h : Fit.call args kw s = (.ok r, s') := by rw [← h, hs']
  obtain ⟨l, t, h, h9⟩ := andThen_ok h
  cases h9
  obtain ⟨pts, t, h1, h⟩ := andThen_ok h
  obtain ⟨xs, t₂, h2, h⟩ := andThen_ok h
  obtain ⟨_, t₃, h3, h⟩ := andThen_ok h
  obtain ⟨ys, t₄, h4, h⟩ := andThen_ok h
  obtain ⟨g, t₅, h5, h⟩ := andThen_ok h
  obtain ⟨y, t₆, h6, h⟩ := andThen_ok h
  obtain ⟨_, t₇, h7, h⟩ := andThen_ok h
  cases h
  have e3 : t₂ = t₃ := congrArg Prod.snd h3
  have e7 : t₆ = s' := congrArg Prod.snd h7
  subst e3 e7
  have k4 := keeps_getYScaler t₂
  have k5 := keeps_getGP t₄
  have k6 := keeps_getYScaled t₅
  rw [h4] at k4
  rw [h5] at k5
  rw [h6] at k6
  refine ⟨xs, ys, g, y, ?_, ?_, ?_, ?_⟩
  · exact k6.1 _ (k5.1 _ (k4.1 _ (memo_stored (c := (·.xScaler)) (set := fun v c => { c with xScaler := some v }) (fun _ _ => rfl) h2)))
  · exact k6.2.1 _ (k5.2.1 _ (memo_stored (c := (·.yScaler)) (set := fun v c => { c with yScaler := some v }) (fun _ _ => rfl) h4))
  · exact k6.2.2.1 _ (memo_stored (c := (·.gp)) (set := fun v c => { c with gp := some v }) (fun _ _ => rfl) h5)
  · exact memo_stored (c := (·.yScaled)) (set := fun v c => { c with yScaled := some v }) (fun _ _ => rfl) h6

/-- C129 (against expectation): once a call has succeeded, assigning the hyperparameters, the dependent column or the use of errors changes no result, whatever is called. -/
theorem C129_not_noticed_counterexample (eqv : Same) {s : Fit} {args₀ : List Arg} {kw₀ : List (String × Arg)} {r₀ : Out} (h : (Fit.call args₀ kw₀ s).1 = .ok r₀)
    (args : List Arg) (kw : List (String × Arg)) :
    (∀ t, (Fit.call args kw (step eqv (step eqv s (.call args₀ kw₀)) (.theta t))).1 = (Fit.call args kw (step eqv s (.call args₀ kw₀))).1) ∧
    (∀ d, (Fit.call args kw (step eqv (step eqv s (.call args₀ kw₀)) (.dep d))).1 = (Fit.call args kw (step eqv s (.call args₀ kw₀))).1) ∧
    (∀ b, (Fit.call args kw (step eqv (step eqv s (.call args₀ kw₀)) (.useErrors b))).1 = (Fit.call args kw (step eqv s (.call args₀ kw₀))).1) := by
  obtain ⟨xs, ys, g, y, hh⟩ := call_holds h
  obtain ⟨s', hs'⟩ : ∃ s', s' = step eqv s (.call args₀ kw₀) := ⟨_, rfl⟩
  have hh : Holds s' xs ys g y := by rw [hs']; exact hh
  rw [← hs', held_call hh args kw]
  refine ⟨fun t => ?_, fun d => ?_, fun b => ?_⟩
  · simp only [step, setTheta]
    split_ifs
    · exact held_call hh args kw
    · exact Eq.trans (held_call (xs := xs) (ys := ys) (g := g) (y := y) (by exact ⟨hh.1, hh.2, hh.3, hh.4⟩) args kw) rfl
  · simp only [step, setDep]
    split_ifs
    · exact held_call hh args kw
    · exact held_call hh args kw
    · exact Eq.trans (held_call (xs := xs) (ys := ys) (g := g) (y := y) (by exact ⟨hh.1, hh.2, hh.3, hh.4⟩) args kw) rfl
  · exact Eq.trans (held_call (xs := xs) (ys := ys) (g := g) (y := y) (by exact ⟨hh.1, hh.2, hh.3, hh.4⟩) args kw) rfl

/-- C129 (against expectation): other names for the independent columns, once a call has succeeded: the old columns are used, under the new names. -/
theorem C129_renamed_counterexample (eqv : Same) {s : Fit} {args₀ : List Arg} {kw₀ : List (String × Arg)} {r₀ : Out} (h : (Fit.call args₀ kw₀ s).1 = .ok r₀)
    {v : List String} (hv : ∀ c ∈ v, (step eqv s (.call args₀ kw₀)).par.data.col c ≠ none) {args args' : List Arg} {kw kw' : List (String × Arg)}
    (hq : asked v args' kw' = asked (step eqv s (.call args₀ kw₀)).par.indep args kw) :
    (Fit.call args' kw' (step eqv (step eqv s (.call args₀ kw₀)) (.indep v))).1 = (Fit.call args kw (step eqv s (.call args₀ kw₀))).1 := by
  obtain ⟨xs, ys, g, y, hh⟩ := call_holds h
  obtain ⟨s', hs'⟩ : ∃ s', s' = step eqv s (.call args₀ kw₀) := ⟨_, rfl⟩
  have hh : Holds s' xs ys g y := by rw [hs']; exact hh
  rw [← hs'] at hv hq
  rw [← hs', held_call hh args kw, ← hq]
  simp only [step, setIndep]
  rw [if_neg (by push Not; exact hv)]
  exact Eq.trans (held_call (xs := xs) (ys := ys) (g := g) (y := y) (by exact ⟨hh.1, hh.2, hh.3, hh.4⟩) args' kw') rfl

end

end Verif.SimFit
