/-
C23 on the shipped galaxy parameters, counterexamples to C23, and C22.
-/
import Verif.Props.Params
import Verif.Model.GalParams

namespace Verif.Params

open Gal

variable {N V : Type} [DecidableEq N]

/-- depth of the shipped constraints -/
def galRank : Gal → Nat
  | b1_sA | b1_sB | fcB | fsigma8 | F_AP | alpha | epsilon => 1
  | b1_cB | NcBs | NsBsB | b1_s => 2
  | b1_c => 3
  | b1 => 4
  | b1sigma8 => 5
  | _ => 0

/-- the names mentioned by the shipped constraints -/
def galDeps : Gal → List Gal
  | b1_cB => [fsB, Nsat_mult, b1_sA, b1_sB]
  | b1_sA => [gamma_b1sA, b1_cA]
  | b1_sB => [gamma_b1sB, b1_cA]
  | fcB => [fs, fsB, Nsat_mult]
  | NcBs => [f1h_cBs, fcB, fs, nbar]
  | NsBsB => [f1h_sBsB, fsB, fs, nbar, fcB]
  | b1_c => [fcB, b1_cA, b1_cB]
  | b1_s => [fsB, b1_sA, b1_sB]
  | b1 => [fs, b1_c, b1_s]
  | fsigma8 => [f, sigma8_z]
  | b1sigma8 => [b1, sigma8_z]
  | F_AP => [alpha_par, alpha_perp]
  | alpha => [alpha_perp, alpha_par]
  | epsilon => [alpha_perp, alpha_par]
  | _ => []

theorem galExpr_deps (cb n e) (h : galExpr cb n = some e) : e.deps = galDeps n := by
  cases n <;> simp only [galExpr, Option.some.injEq, reduceCtorEq] at h <;> subst h <;> rfl

theorem galExpr_none (cb n) : galExpr cb n = none ↔ galDeps n = [] := by
  cases n <;> simp [galExpr, galDeps]

theorem gal_mem (n : Gal) : n ∈ galNames := by cases n <;> decide

theorem gal_complete (cb va cl) : Complete (galSys cb va cl) := fun n _ _ => ⟨gal_mem n, fun d _ => gal_mem d⟩

theorem gal_nodup : galNames.Nodup := by decide

theorem gal_acyclic (cb va cl) : Acyclic (galSys cb va cl) := by
  refine ⟨galRank, fun n e he d hd => ?_⟩
  have h : ∀ n, ∀ d ∈ galDeps n, galRank d < galRank n := by intro n; cases n <;> decide
  rw [galExpr_deps cb n e he] at hd
  exact h n d hd

/-- `prepare_params` ends on the shipped system (whatever the bounds). -/
theorem gal_prepared (cb va cl) : ∃ p, prepare (galSys cb va cl) 40 = some p := by
  have h : (fun d => ((galSys cb va cl).expr d).isSome) = fun d => decide (galDeps d ≠ []) := by
    funext d; cases d <;> rfl
  have h2 : prepInit (galSys cb va cl) = ⟨fun n => (galDeps n).eraseDups,
      fun d => galNames.filter (fun n => decide (d ∈ galDeps n))⟩ := by
    simp only [prepInit, Prep.mk.injEq]
    constructor
    · funext n; cases n <;> rfl
    · funext d; cases d <;> rfl
  unfold prepare
  rw [h, h2]
  have : (prepLoop (fun d => decide (galDeps d ≠ [])) galNames 40 40 ⟨fun n => (galDeps n).eraseDups,
      fun d => galNames.filter (fun n => decide (d ∈ galDeps n))⟩).isSome = true := by decide +kernel
  exact Option.isSome_iff_exists.1 this

/-- **C23 for the galaxy model.** Whatever the bounds and whichever parameters vary: after every history of in-bounds
assignments and reads, every parameter that is passed to the model (`to_dict`, `theory/base.py:262-267`) is up to date when
read. -/
theorem C23_gal_model_parameters (cb va cl) (p : Prep Gal) (hp : prepare (galSys cb va cl) 40 = some p)
    (st0 st : St Gal Rat) (h0 : Start (galSys cb va cl) st0) (fuel : Nat) (ops : List (Op Gal Rat))
    (hops : ∀ o ∈ ops, OpOK (galSys cb va cl) o) (hrun : run (galSys cb va cl) p.children fuel st0 ops = some st)
    (n : Gal) (hn : n ∈ galModelParams) (w : Gal → Rat) (hw : Solves (galSys cb va cl) st.val w) (v : Rat)
    (st' : St Gal Rat) (hread : getval (galSys cb va cl) p.children fuel st n = some (v, st')) : v = w n := by
  refine C23_two_levels _ gal_nodup (gal_complete cb va cl) (gal_acyclic cb va cl) 40 p hp st0 st h0 fuel ops hops hrun n
    ?_ w hw v st' hread
  intro e he d hd e' he' b hb
  have h : ∀ n ∈ galModelParams, ∀ d ∈ galDeps n, ∀ b ∈ galDeps d, galDeps b = [] := by decide
  rw [galExpr_deps cb n e he] at hd
  rw [galExpr_deps cb d e' he'] at hb
  exact (galExpr_none cb b).2 (h n hn d hd b hb)

/-- Values with `fs = 1/10`, `fsB = 2/5`, `Nsat_mult = 12/5`, `b1_cA = x`, the rest 1; nothing in the symbol table. -/
def galStart (x : Rat) : St Gal Rat :=
  { val := fun n => match n with
      | fs => 1 / 10 | fsB => 2 / 5 | Nsat_mult => 12 / 5 | b1_cA => x | gamma_b1sA => 3 / 2 | gamma_b1sB => 2 | _ => 1
    sym := fun _ => none }

example (cb va) : Start (galSys cb va (fun _ v => v)) (galStart 2) :=
  ⟨fun _ _ _ => rfl, fun _ _ _ => Or.inl rfl⟩

/-- the constrained parameters in dictionary order, as read by `constrained_values` (`parameterset.py:446-473`) -/
def galConstrained : List Gal := galNames.filter (fun n => decide (galDeps n ≠ []))

/-- children sets left by `prepare_params` -/
def galChildren : Gal → List Gal :=
  fun d => if galDeps d = [] then galNames.filter (fun n => decide (d ∈ galDeps n)) else []

/-- the position of `b1` in the list -/
def b1Of (r : Option (List Rat × St Gal Rat)) : Option Rat :=
  r.bind (fun x => (galConstrained.zip x.1).lookup b1)

/-- C23 is false for the derived parameters: with `b1_cA` the only parameter that changes (from 2 to 3), computing the
constrained parameters in dictionary order, as is done for every sample of a chain (`emcee_results.py:428-441`), reports a
total bias `b1` that mixes old and new values; computing them a second time without any change still gives a wrong value; only
the third time is right. -/
theorem C23_gal_b1_counterexample :
    let sys := galSys (fun x => x) (fun _ => true) (fun _ v => v)
    let first := (readAll sys galChildren 20 (galStart 2) galConstrained).map (·.2)
    let changed := first.map (fun st => st.set galChildren b1_cA 3)
    let once := changed.bind (fun st => readAll sys galChildren 20 st galConstrained)
    let twice := once.bind (fun r => readAll sys galChildren 20 r.2 galConstrained)
    let fresh := readAll sys galChildren 20 (galStart 3) galConstrained
    let thrice := twice.bind (fun r => readAll sys galChildren 20 r.2 galConstrained)
    b1Of thrice = b1Of fresh ∧ (b1Of fresh).isSome ∧ b1Of once ≠ b1Of fresh ∧ b1Of twice ≠ b1Of fresh := by
  decide +kernel

/-- `galChildren` is what `prepare_params` leaves. -/
theorem galChildren_prepared (cb va cl) (p : Prep Gal) (hp : prepare (galSys cb va cl) 40 = some p) (d n : Gal) :
    n ∈ p.children d ↔ n ∈ galChildren d := by
  have h := prepare_direct gal_nodup (gal_complete cb va cl) 40 p hp
  unfold galChildren
  split
  next hd =>
    rw [h.base d n ((galExpr_none cb d).2 hd)]
    simp only [List.mem_filter, decide_eq_true_eq, gal_mem n, true_and]
    constructor
    · rintro ⟨e, he, hm⟩; rw [galExpr_deps cb n e he] at hm; exact hm
    · intro hm
      cases hx : galExpr cb n with
      | none => rw [(galExpr_none cb n).1 hx] at hm; cases hm
      | some e => exact ⟨e, hx, by rw [galExpr_deps cb n e hx]; exact hm⟩
  next hd =>
    rw [h.con d (fun hx => hd ((galExpr_none cb d).1 hx))]

/-! ### General counterexamples to C23 -/

/-- A chain of three constraints `3 → 2 → 1 → 0`, each equal to the next. -/
def chain3 (V : Type) [Inhabited V] (clamp : Nat → V → V) : Sys Nat V :=
  { names := [0, 1, 2, 3]
    expr := fun n => if n = 0 then none else if n ≤ 3 then some ⟨[n - 1], fun vs => vs.headD default⟩ else none
    vary := fun _ => true
    clamp := clamp }

/-- children sets of `chain3` -/
def chainChildren : Nat → List Nat := fun n => if n = 0 then [1] else []

/-- C23 is false for every chain of three constraints: after all are up to date at `x`, assign `y` and read the last one:
it still has the old value. -/
theorem C23_deep_counterexample (V : Type) [Inhabited V] (x y : V) :
    let sys := chain3 V (fun _ v => v)
    let st0 : St Nat V := ⟨fun _ => x, fun _ => some x⟩
    Start sys st0 ∧ (getval sys chainChildren 20 (st0.set chainChildren 0 y) 3).map (·.1) = some x ∧
    ∀ w, Solves sys (st0.set chainChildren 0 y).val w → w 3 = y := by
  refine ⟨⟨fun _ _ _ => rfl, fun w hw n => Or.inr ?_⟩, ?_, ?_⟩
  · have key : ∀ n, w n = x := by
      intro n
      have h0 := hw 0
      have h1 := hw 1
      have h2 := hw 2
      have h3 := hw 3
      simp [chain3] at h0 h1 h2 h3
      have hn := hw n
      by_cases a : n = 0
      · subst a; exact h0
      · by_cases b : n ≤ 3
        · have : n = 1 ∨ n = 2 ∨ n = 3 := by omega
          rcases this with rfl | rfl | rfl
          · rw [h1, h0]
          · rw [h2, h1, h0]
          · rw [h3, h2, h1, h0]
        · simp [chain3, a, b] at hn; exact hn
    simp [key]
  · simp [getval, readDeps, chain3, St.set, upd, chainChildren]
  · intro w hw
    have h0 := hw 0
    have h1 := hw 1
    have h2 := hw 2
    have h3 := hw 3
    simp [chain3, St.set, upd] at h0 h1 h2 h3
    rw [h3, h2, h1, h0]

/-- `chainChildren` is what `prepare_params` leaves. -/
example : (prepare (chain3 Nat (fun _ v => v)) 20).map (fun p => [0, 1, 2, 3].map p.children) =
    some ([0, 1, 2, 3].map chainChildren) := by decide +kernel

/-- C23 is false for out-of-bounds assignments: a varying parameter bounded by 1 and set to 5 reads as 1, but a constraint that
copies it, read before it, reads as 5. -/
theorem C23_out_of_bounds_counterexample :
    let sys := chain3 Nat (fun n v => if n = 0 then min v 1 else v)
    let st : St Nat Nat := (⟨fun _ => 0, fun _ => some 0⟩ : St Nat Nat).set chainChildren 0 5
    (getval sys chainChildren 20 st 1).map (·.1) = some 5 ∧ (getval sys chainChildren 20 st 0).map (·.1) = some 1 := by
  decide +kernel

/-! ### C22 -/

theorem updateValues_spec [DecidableEq V] (sys : Sys N V) (ch : N → List N) (hch : Direct sys ch) (fuel : Nat)
    (within : N → V → Bool) (hwi : ∀ n v, within n v = true → sys.clamp n v = v) (kvs : List (N × V)) :
    ∀ st st', (kvs.map Prod.fst).Nodup → (∀ x ∈ kvs, sys.expr x.1 = none ∧ sys.vary x.1 = true ∧ within x.1 x.2 = true) →
      updateValues sys ch fuel st kvs = some st' →
      (∀ x ∈ kvs, st'.val x.1 = x.2) ∧
      (∀ b, sys.expr b = none → b ∉ kvs.map Prod.fst → st'.val b = st.val b) := by
  induction kvs with
  | nil =>
    intro st st' _ _ e
    simp only [updateValues, Option.some.injEq] at e
    subst e
    exact ⟨by simp, fun _ _ _ => rfl⟩
  | cons x kvs ih =>
    obtain ⟨n, v⟩ := x
    intro st st' hnd hx e
    obtain ⟨q1, q2, q3⟩ := hx (n, v) List.mem_cons_self
    simp only at q1 q2 q3
    simp only [List.map_cons, List.nodup_cons] at hnd
    simp only [updateValues] at e
    cases fuel with
    | zero => simp [getval] at e
    | succ fuel =>
      simp only [getval, q1, q2, if_true] at e
      obtain ⟨a1, a2⟩ := ih _ st' hnd.2 (fun y hy => hx y (List.mem_cons_of_mem _ hy)) e
      have hset : ∀ m, (if v ≠ sys.clamp n (st.val n) then (st.set ch n (sys.clamp n (st.val n))).set ch n v
          else st.set ch n (sys.clamp n (st.val n))).val m = if m = n then v else st.val m := by
        intro m
        split
        · simp only [St.set, upd]; split <;> rfl
        next hv =>
          have hv' : v = sys.clamp n (st.val n) := by simpa using hv
          simp only [St.set, upd, ← hv']
      refine ⟨?_, ?_⟩
      · intro y hy
        rcases List.mem_cons.1 hy with rfl | hy
        · simp only
          rw [a2 n q1 hnd.1, hset]; simp
        · exact a1 y hy
      · intro b hb hbn
        simp only [List.map_cons, List.mem_cons, not_or] at hbn
        rw [a2 b hb hbn.2, hset]
        simp [hbn.1]

/-- reading parameters does not change the values of unconstrained ones, if they are inside their bounds -/
theorem getval_val (sys : Sys N V) (ch : N → List N) (fuel : Nat) :
    (∀ st n v st', InBounds sys st.val → getval sys ch fuel st n = some (v, st') →
      ∀ b, sys.expr b = none → st'.val b = st.val b) ∧
    (∀ st ds vs st', InBounds sys st.val → readDeps sys ch fuel st ds = some (vs, st') →
      ∀ b, sys.expr b = none → st'.val b = st.val b) := by
  have inb : ∀ st st' : St N V, InBounds sys st.val → (∀ b, sys.expr b = none → st'.val b = st.val b) →
      InBounds sys st'.val := by
    intro st st' h h' n hn hv
    rw [h' n hn]; exact h n hn hv
  induction fuel with
  | zero =>
    refine ⟨fun st n v st' _ e => by simp [getval] at e, fun st ds vs st' h e => ?_⟩
    cases ds with
    | nil =>
      simp only [readDeps, Option.some.injEq, Prod.mk.injEq] at e
      obtain ⟨rfl, rfl⟩ := e
      exact fun _ _ => rfl
    | cons d ds => simp [readDeps] at e
  | succ fuel ih =>
    obtain ⟨ih1, ih2⟩ := ih
    refine ⟨fun st n v st' h e b hb => ?_, fun st ds vs st' h e b hb => ?_⟩
    · simp only [getval] at e
      cases hx : sys.expr n with
      | none =>
        simp only [hx] at e
        split at e
        next hv =>
          simp only [Option.some.injEq, Prod.mk.injEq] at e
          obtain ⟨rfl, rfl⟩ := e
          rw [h n hx hv]
          simp only [St.set, upd]; split
          next hq => subst hq; rfl
          next => rfl
        next =>
          simp only [Option.some.injEq, Prod.mk.injEq] at e
          obtain ⟨rfl, rfl⟩ := e
          rfl
      | some ex =>
        simp only [hx] at e
        have hbn : b ≠ n := by intro hq; subst hq; rw [hb] at hx; cases hx
        split at e
        · cases e
        next vs st1 e1 =>
          simp only [Option.some.injEq, Prod.mk.injEq] at e
          obtain ⟨rfl, rfl⟩ := e
          simp only [St.set, upd, hbn, if_false]
          exact ih2 st ex.deps vs st1 h e1 b hb
    · cases ds with
      | nil =>
        simp only [readDeps, Option.some.injEq, Prod.mk.injEq] at e
        obtain ⟨rfl, rfl⟩ := e
        rfl
      | cons d ds =>
        simp only [readDeps] at e
        split at e
        · split at e
          · cases e
          next ws st1 e1 =>
            simp only [Option.some.injEq, Prod.mk.injEq] at e
            obtain ⟨rfl, rfl⟩ := e
            exact ih2 st ds ws st1 h e1 b hb
        · split at e
          · cases e
          next x st0 e0 =>
            split at e
            · cases e
            next ws st1 e1 =>
              simp only [Option.some.injEq, Prod.mk.injEq] at e
              obtain ⟨rfl, rfl⟩ := e
              have h0 := ih1 st d x st0 h e0
              rw [ih2 st0 ds ws st1 (inb st st0 h h0) e1 b hb, h0 b hb]

theorem readAll_val (sys : Sys N V) (ch : N → List N) (fuel : Nat) (ns : List N) :
    ∀ st st' vs, InBounds sys st.val → readAll sys ch fuel st ns = some (vs, st') →
      (∀ b, sys.expr b = none → st'.val b = st.val b) ∧ vs.length = ns.length := by
  induction ns with
  | nil =>
    intro st st' vs _ e
    simp only [readAll, Option.some.injEq, Prod.mk.injEq] at e
    obtain ⟨rfl, rfl⟩ := e
    exact ⟨fun _ _ => rfl, rfl⟩
  | cons n ns ih =>
    intro st st' vs h e
    simp only [readAll] at e
    split at e
    · cases e
    next v st1 e1 =>
      split at e
      · cases e
      next ws st2 e2 =>
        simp only [Option.some.injEq, Prod.mk.injEq] at e
        obtain ⟨rfl, rfl⟩ := e
        have h1 := (getval_val sys ch fuel).1 st n v st1 h e1
        have hin : InBounds sys st1.val := by
          intro b hb hv; rw [h1 b hb]; exact h b hb hv
        obtain ⟨a1, a2⟩ := ih st1 st2 ws hin e2
        exact ⟨fun b hb => (a1 b hb).trans (h1 b hb), by simp [a2]⟩

/-- **C22.** `free` are distinct, unconstrained, varying parameters; a value accepted by `within_bounds` is not changed by the
bounds (this is so: `C20_lnprior_partial`, `C20_within_not_clamped`).
* If some entry of `theta` is not within its parameter's bounds, the call returns `False` and changes nothing: neither any
  parameter, nor the symbol table, nor the model.
* Otherwise it does not return `False`; if it returns `True`, every free parameter has its entry of `theta`, every other
  unconstrained parameter keeps its value (if inside its bounds), and the model holds a value for every model parameter.
Missing (false, `C22_exception_counterexample`): all-or-nothing when the model rejects the values with an exception. -/
theorem C22_all_or_nothing_partial [DecidableEq V] (sys : Sys N V) (hn : sys.names.Nodup) (hc : Complete sys) (pf : Nat)
    (p : Prep N) (hp : prepare sys pf = some p) (fuel : Nat) (free : List N) (within : N → V → Bool) (modelParams : List N)
    (accepts : List (N × V) → Bool) (st : St N V) (model : N → Option V) (theta : List V)
    (hfree : free.Nodup) (hkind : ∀ n ∈ free, sys.expr n = none ∧ sys.vary n = true)
    (hwi : ∀ n v, within n v = true → sys.clamp n v = v)
    (hother : ∀ n, sys.expr n = none → sys.vary n = true → n ∉ free → sys.clamp n (st.val n) = st.val n)
    (hlen : theta.length = free.length) :
    ((∃ (i : Nat) (n : N) (v : V), free[i]? = some n ∧ theta[i]? = some v ∧ within n v = false) →
      setFree sys p.children fuel free within modelParams accepts st model theta = .ret false st model) ∧
    ((∀ (i : Nat) (n : N) (v : V), free[i]? = some n → theta[i]? = some v → within n v = true) →
      ∀ ok st' model', setFree sys p.children fuel free within modelParams accepts st model theta = .ret ok st' model' →
        ok = true ∧ (∀ (i : Nat) (n : N) (v : V), free[i]? = some n → theta[i]? = some v → st'.val n = v) ∧
        (∀ b, sys.expr b = none → b ∉ free → st'.val b = st.val b) ∧
        (∀ m ∈ modelParams, (model' m).isSome) ∧ (∀ m, m ∉ modelParams → model' m = model m)) := by
  have hch := prepare_direct hn hc pf p hp
  have hzip : ∀ x, x ∈ free.zip theta ↔ ∃ i : Nat, free[i]? = some x.1 ∧ theta[i]? = some x.2 := by
    intro x
    rw [List.mem_iff_getElem?]
    simp only [List.getElem?_zip_eq_some]
  have hmapfst : (free.zip theta).map Prod.fst = free := List.map_fst_zip (by omega)
  constructor
  · rintro ⟨i, n, v, h1, h2, h3⟩
    unfold setFree
    rw [if_pos]
    rw [List.any_eq_true]
    exact ⟨(n, v), (hzip (n, v)).2 ⟨i, h1, h2⟩, by simp [h3]⟩
  · intro hall ok st' model' e
    have hnot : ¬ (free.zip theta).any (fun x => !within x.1 x.2) = true := by
      rw [List.any_eq_true]
      rintro ⟨x, hx, hb⟩
      obtain ⟨i, h1, h2⟩ := (hzip x).1 hx
      simp [hall i _ _ h1 h2] at hb
    unfold setFree at e
    rw [if_neg hnot] at e
    split at e
    · cases e
    next st1 e1 =>
      obtain ⟨a1, a2⟩ := updateValues_spec sys p.children hch fuel within hwi _ st st1 (by rw [hmapfst]; exact hfree)
        (by
          intro x hx
          obtain ⟨i, h1, h2⟩ := (hzip x).1 hx
          have hm : x.1 ∈ free := List.mem_iff_getElem?.2 ⟨i, h1⟩
          exact ⟨(hkind _ hm).1, (hkind _ hm).2, hall i _ _ h1 h2⟩) e1
      rw [hmapfst] at a2
      have hin : InBounds sys st1.val := by
        intro b hb hv
        by_cases hbf : b ∈ free
        · obtain ⟨i, hi, hi'⟩ := List.getElem_of_mem hbf
          have hz : (b, theta[i]'(by omega)) ∈ free.zip theta :=
            (hzip _).2 ⟨i, by rw [List.getElem?_eq_getElem hi, hi'], by rw [List.getElem?_eq_getElem]⟩
          have := a1 _ hz
          simp only at this
          rw [this]
          refine hwi _ _ (hall i b _ (by rw [List.getElem?_eq_getElem hi, hi']) (by rw [List.getElem?_eq_getElem]))
        · rw [a2 b hb hbf]; exact hother b hb hv hbf
      split at e
      · cases e
      next vs st2 e2 =>
        obtain ⟨b1, b2⟩ := readAll_val sys p.children fuel modelParams st1 st2 vs hin e2
        simp only at e
        split at e
        · simp only [Outcome.ret.injEq] at e
          obtain ⟨rfl, rfl, rfl⟩ := e
          have hk : (modelParams.zip vs).map Prod.fst = modelParams := List.map_fst_zip (by omega)
          have hlook : ∀ (l : List (N × V)) (m : N), (l.lookup m).isSome ↔ m ∈ l.map Prod.fst := by
            intro l m
            induction l with
            | nil => simp
            | cons y l ih =>
              obtain ⟨a, c⟩ := y
              simp only [List.lookup_cons, List.map_cons, List.mem_cons]
              by_cases hq : m = a
              · subst hq; simp
              · have : (m == a) = false := by simpa using hq
                simp [this, hq, ih]
          refine ⟨rfl, ?_, ?_, ?_, ?_⟩
          · intro i n v h1 h2
            have hm : n ∈ free := List.mem_iff_getElem?.2 ⟨i, h1⟩
            rw [b1 n (hkind n hm).1]
            exact a1 (n, v) ((hzip _).2 ⟨i, h1, h2⟩)
          · intro b hb hbf
            rw [b1 b hb, a2 b hb hbf]
          · intro m hm
            have := (hlook (modelParams.zip vs) m).2 (by rw [hk]; exact hm)
            cases hq : (modelParams.zip vs).lookup m with
            | none => rw [hq] at this; cases this
            | some y => simp [hq]
          · intro m hm
            have : (modelParams.zip vs).lookup m = none := by
              cases hq : (modelParams.zip vs).lookup m with
              | none => rfl
              | some y =>
                have := (hlook (modelParams.zip vs) m).1 (by rw [hq]; rfl)
                rw [hk] at this; exact absurd this hm
            simp [this]
        · cases e

theorem updateValues_inv [DecidableEq V] {sys : Sys N V} {ch : N → List N} (hch : Direct sys ch) (ha : Acyclic sys)
    (fuel : Nat) (kvs : List (N × V)) (hk : ∀ x ∈ kvs, sys.expr x.1 = none ∧ sys.clamp x.1 x.2 = x.2) :
    ∀ (st st' : St N V) (w : N → V),
      (∀ n e, sys.expr n = some e → w n = sys.clamp n (e.eval (e.deps.map w))) → Inv sys w (Flat sys) st →
      updateValues sys ch fuel st kvs = some st' → ∃ w', Solves sys st'.val w' ∧ Inv sys w' (Flat sys) st' := by
  induction kvs with
  | nil =>
    intro st st' w hw h e
    simp only [updateValues, Option.some.injEq] at e
    subst e
    exact ⟨w, Solves.mk h.base hw, h⟩
  | cons x kvs ih =>
    obtain ⟨n, v⟩ := x
    intro st st' w hw h e
    simp only [updateValues] at e
    split at e
    · cases e
    next u st1 e1 =>
      have h1 := ((eval_spec sys ch hch w (Flat sys) (Flat.closed sys) hw fuel).1 st n u st1 h e1).1
      obtain ⟨q1, q2⟩ := hk (n, v) List.mem_cons_self
      have ih' := ih (fun x hx => hk x (List.mem_cons_of_mem _ hx))
      by_cases hv : v ≠ u
      · rw [if_pos hv] at e
        obtain ⟨w', hw'⟩ := solution_exists sys ha (upd st1.val n v)
        exact ih' _ st' w' hw'.eqs (h1.set_base hch n v q1 (fun _ => q2) hw hw') e
      · rw [if_neg hv] at e
        exact ih' _ st' w hw h1 e

theorem readAll_flat {sys : Sys N V} {ch : N → List N} (hch : Direct sys ch) (fuel : Nat) (w : N → V)
    (hw : ∀ n e, sys.expr n = some e → w n = sys.clamp n (e.eval (e.deps.map w))) (ns : List N)
    (hr : ∀ n ∈ ns, ReadOK sys (Flat sys) n) :
    ∀ (st st' : St N V) (vs : List V), Inv sys w (Flat sys) st → readAll sys ch fuel st ns = some (vs, st') →
      vs = ns.map w ∧ Inv sys w (Flat sys) st' := by
  induction ns with
  | nil =>
    intro st st' vs h e
    simp only [readAll, Option.some.injEq, Prod.mk.injEq] at e
    obtain ⟨rfl, rfl⟩ := e
    exact ⟨rfl, h⟩
  | cons n ns ih =>
    intro st st' vs h e
    simp only [readAll] at e
    split at e
    · cases e
    next v st1 e1 =>
      split at e
      · cases e
      next ws st2 e2 =>
        simp only [Option.some.injEq, Prod.mk.injEq] at e
        obtain ⟨rfl, rfl⟩ := e
        obtain ⟨a1, -, a3, -⟩ := (eval_spec sys ch hch w (Flat sys) (Flat.closed sys) hw fuel).1 st n v st1 h e1
        obtain ⟨b1, b2⟩ := ih (fun m hm => hr m (List.mem_cons_of_mem _ hm)) st1 st2 ws a1 e2
        rw [a3 (hr n List.mem_cons_self), b1]
        exact ⟨rfl, b2⟩

/-- **C22, the model.** When `set_free_parameters` returns `True` from a good state, every model parameter that mentions only
unconstrained and flat constrained parameters (all of them in the galaxy model, `C23_gal_model_parameters`) reaches the model
with its meaning at the new values. -/
theorem C22_model_values [DecidableEq V] (sys : Sys N V) (hn : sys.names.Nodup) (hc : Complete sys) (ha : Acyclic sys)
    (pf : Nat) (p : Prep N) (hp : prepare sys pf = some p) (fuel : Nat) (free : List N) (within : N → V → Bool)
    (modelParams : List N) (accepts : List (N × V) → Bool) (st : St N V) (model : N → Option V) (theta : List V)
    (hkind : ∀ n ∈ free, sys.expr n = none) (hwi : ∀ n v, within n v = true → sys.clamp n v = v) (h0 : Start sys st)
    (hflat : ∀ n ∈ modelParams, ∀ e, sys.expr n = some e → ∀ d ∈ e.deps, sys.expr d = none ∨ Flat sys d)
    (st' : St N V) (model' : N → Option V)
    (hret : setFree sys p.children fuel free within modelParams accepts st model theta = .ret true st' model')
    (w : N → V) (hw : Solves sys st'.val w) : ∀ m ∈ modelParams, model' m = some (w m) := by
  have hch := prepare_direct hn hc pf p hp
  unfold setFree at hret
  split at hret
  · cases hret
  next hnot =>
    have hk : ∀ x ∈ free.zip theta, sys.expr x.1 = none ∧ sys.clamp x.1 x.2 = x.2 := by
      intro x hx
      refine ⟨hkind _ (List.of_mem_zip hx).1, hwi _ _ ?_⟩
      have hall : ∀ x ∈ free.zip theta, ¬ (!within x.1 x.2) = true := by
        intro y hy hb
        exact hnot (List.any_eq_true.2 ⟨y, hy, hb⟩)
      simpa using hall x hx
    split at hret
    · cases hret
    next st1 e1 =>
      obtain ⟨w0, hw0⟩ := solution_exists sys ha st.val
      obtain ⟨w1, s1, i1⟩ := updateValues_inv hch ha fuel _ hk st st1 w0 hw0.eqs (h0.inv w0 hw0 _) e1
      split at hret
      · cases hret
      next vs st2 e2 =>
        obtain ⟨b1, b2⟩ := readAll_flat hch fuel w1 s1.eqs modelParams hflat st1 st2 vs i1 e2
        simp only at hret
        split at hret
        · simp only [Outcome.ret.injEq, true_and] at hret
          obtain ⟨rfl, rfl⟩ := hret
          have hww := solution_unique sys ha st2.val w w1 hw (Solves.mk b2.base s1.eqs)
          subst hww
          intro m hm
          subst b1
          have : (modelParams.zip (modelParams.map w)).lookup m = some (w m) := by
            rename_i hacc
            clear e2 hflat hacc
            induction modelParams with
            | nil => cases hm
            | cons a l ih =>
              simp only [List.map_cons, List.zip_cons_cons, List.lookup_cons]
              by_cases hq : m = a
              · subst hq; simp
              · have hb : (m == a) = false := by simpa using hq
                simp only [hb]
                rcases List.mem_cons.1 hm with rfl | hm
                · exact absurd rfl hq
                · exact ih hm
          simp [this]
        · cases hret

/-- Not all-or-nothing under exceptions: if the model rejects the values, the parameters have already been changed. -/
theorem C22_exception_counterexample :
    let sys : Sys Nat Nat := { names := [0], expr := fun _ => none, vary := fun _ => true, clamp := fun _ v => v }
    let st : St Nat Nat := ⟨fun _ => 0, fun _ => none⟩
    (match setFree sys (fun _ => []) 5 [0] (fun _ _ => true) [0] (fun _ => false) st (fun _ => none) [7] with
      | .error st' _ => st'.val 0
      | .ret _ st' _ => st'.val 0 + 100) = 7 := by
  decide +kernel

/-- an instance: one free parameter within `[0, 9]`, accepted -/
example :
    let sys : Sys Nat Nat := { names := [0], expr := fun _ => none, vary := fun _ => true, clamp := fun _ v => min v 9 }
    (∀ n v, decide (v ≤ 9) = true → sys.clamp n v = v) ∧
    (match setFree sys (fun _ => []) 5 [0] (fun _ v => decide (v ≤ 9)) [0] (fun _ => true) ⟨fun _ => 0, fun _ => none⟩
        (fun _ => none) [7] with
      | .ret ok st' m' => (ok, st'.val 0, m' 0)
      | .error st' _ => (false, st'.val 0 + 100, none)) = (true, 7, some 7) := by
  refine ⟨fun n v h => ?_, by decide +kernel⟩
  simp only [decide_eq_true_eq] at h
  simp only
  omega

end Verif.Params
