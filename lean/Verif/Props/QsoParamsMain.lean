/-
C151: the theorems on the quasar model.
-/
import Verif.Props.QsoParams
import Mathlib.Tactic.FieldSimp
import Mathlib.Tactic.NormNum

namespace Verif.Params

open Qso

noncomputable section

/-- the names mentioned by the expressions -/
def qsoDeps : Qso → List Qso
  | fsigma8 => [f, sigma8_z]
  | b1sigma8 => [b1, sigma8_z]
  | F_AP => [alpha_par, alpha_perp]
  | alpha => [alpha_perp, alpha_par]
  | epsilon => [alpha_perp, alpha_par]
  | _ => []

/-- `prepare_params` ends -/
theorem qso_prepared (va : Qso → Bool) (cl : Qso → ℝ → ℝ) : ∃ p, prepare (qsoSys va cl) 20 = some p := by
  have h : (fun d => ((qsoSys va cl).expr d).isSome) = fun d => decide (qsoDeps d ≠ []) := by
    funext d; cases d <;> rfl
  have h2 : prepInit (qsoSys va cl) = ⟨fun n => (qsoDeps n).eraseDups, fun d => qsoNames.filter (fun n => decide (d ∈ qsoDeps n))⟩ := by
    simp only [prepInit, Prep.mk.injEq]
    constructor
    · funext n; cases n <;> rfl
    · funext d; cases d <;> rfl
  unfold prepare
  rw [h, h2]
  have : (prepLoop (fun d => decide (qsoDeps d ≠ [])) qsoNames 20 20 ⟨fun n => (qsoDeps n).eraseDups,
      fun d => qsoNames.filter (fun n => decide (d ∈ qsoDeps n))⟩).isSome = true := by decide +kernel
  exact Option.isSome_iff_exists.1 this

/-- what the meaning of the system is -/
theorem qso_solves {va : Qso → Bool} {cl : Qso → ℝ → ℝ} (hcl : ∀ n, qsoExpr n ≠ none → ∀ v, cl n v = v) {base w : Qso → ℝ} (h : Solves (qsoSys va cl) base w) :
    (∀ n, qsoExpr n = none → w n = base n) ∧ w fsigma8 = base f*base sigma8_z ∧ w b1sigma8 = base b1*base sigma8_z ∧ w F_AP = base alpha_par/base alpha_perp ∧
      w alpha = (base alpha_perp^2*base alpha_par)^((1:ℝ)/3) ∧ w epsilon = (base alpha_perp/base alpha_par)^(-(1:ℝ)/3) - 1 := by
  have base_eq : ∀ n, qsoExpr n = none → w n = base n := by
    intro n hn
    have := h n
    rw [show (qsoSys va cl).expr n = none from hn] at this
    exact this
  have e1 := h fsigma8
  have e2 := h b1sigma8
  have e3 := h F_AP
  have e4 := h alpha
  have e5 := h epsilon
  simp only [qsoSys, qsoExpr, List.map_cons, List.map_nil] at e1 e2 e3 e4 e5
  rw [hcl _ (by simp [qsoExpr])] at e1 e2 e3 e4 e5
  rw [base_eq f rfl, base_eq sigma8_z rfl] at e1
  rw [base_eq b1 rfl, base_eq sigma8_z rfl] at e2
  rw [base_eq alpha_par rfl, base_eq alpha_perp rfl] at e3 e4 e5
  exact ⟨base_eq, e1, e2, e3, e4, e5⟩

/-- **C151** (derived parameters): whatever varies and whatever the bounds of the unconstrained parameters, after every history of assignments inside the bounds and of reads, with positive dilations: `fsigma8` is read as `f sigma8`, `b1sigma8` as `b1 sigma8`, `F_AP` as the ratio of the dilations,
`alpha` as the cube root of `alpha_perp² alpha_par`, `1 + epsilon` as the cube root of `alpha_par/alpha_perp`, all at the current values; and every other parameter as its current value -/
theorem C151_derived {va : Qso → Bool} {cl : Qso → ℝ → ℝ} (hcl : ∀ n, qsoExpr n ≠ none → ∀ v, cl n v = v) {p : Prep Qso} (hp : prepare (qsoSys va cl) 20 = some p)
    {st0 st : St Qso ℝ} (h0 : Start (qsoSys va cl) st0) {fuel : ℕ} {ops : List (Op Qso ℝ)} (hops : ∀ o ∈ ops, OpOK (qsoSys va cl) o) (hrun : run (qsoSys va cl) p.children fuel st0 ops = some st)
    (ha : 0 < st.val alpha_perp) (hb : 0 < st.val alpha_par) {n : Qso} {v : ℝ} {st' : St Qso ℝ} (hread : getval (qsoSys va cl) p.children fuel st n = some (v, st')) :
    (n = fsigma8 → v = st.val f*st.val sigma8_z) ∧ (n = b1sigma8 → v = st.val b1*st.val sigma8_z) ∧ (n = F_AP → v = st.val alpha_par/st.val alpha_perp) ∧
      (n = alpha → 0 < v ∧ v^3 = st.val alpha_perp^2*st.val alpha_par) ∧ (n = epsilon → -1 < v ∧ (1 + v)^3 = st.val alpha_par/st.val alpha_perp) ∧ (qsoExpr n = none → v = st.val n) := by
  obtain ⟨w, hw, -⟩ := C23_meaning (qsoSys va cl) (qso_acyclic va cl) st.val
  have hv := C23_two_levels (qsoSys va cl) qso_nodup (qso_complete va cl) (qso_acyclic va cl) 20 p hp st0 st h0 fuel ops hops hrun n
    (fun e he d hd e' he' => absurd (qso_deps n e he d hd) (by rw [show qsoExpr d = some e' from he']; simp)) w hw v st' hread
  obtain ⟨h1, h2, h3, h4, h5, h6⟩ := qso_solves hcl hw
  have cube : ∀ x : ℝ, 0 < x → (x^((1:ℝ)/3))^3 = x := by
    intro x hx
    rw [← Real.rpow_natCast, ← Real.rpow_mul hx.le]
    norm_num
  refine ⟨?_, ?_, ?_, ?_, ?_, ?_⟩
  · rintro rfl; rw [hv, h2]
  · rintro rfl; rw [hv, h3]
  · rintro rfl; rw [hv, h4]
  · rintro rfl
    rw [hv, h5]
    exact ⟨by positivity, cube _ (by positivity)⟩
  · rintro rfl
    have e : (st.val alpha_perp/st.val alpha_par)^(-(1:ℝ)/3) = (st.val alpha_par/st.val alpha_perp)^((1:ℝ)/3) := by
      rw [show -(1:ℝ)/3 = -((1:ℝ)/3) by ring, Real.rpow_neg (by positivity), ← Real.inv_rpow (by positivity), inv_div]
    rw [hv, h6, e]
    have : 0 < (st.val alpha_par/st.val alpha_perp)^((1:ℝ)/3) := by positivity
    refine ⟨by linarith, ?_⟩
    rw [add_sub_cancel]
    exact cube _ (by positivity)
  · intro hn; rw [hv, h1 n hn]

/-- **C151** (dilations): the isotropic dilation and the warping say the same as the two dilations: `alpha_par = alpha (1 + epsilon)²`, `alpha_perp = alpha/(1 + epsilon)`; and `F_AP = (1 + epsilon)³` -/
theorem C151_dilations {a b α ε : ℝ} (ha : 0 < a) (hb : 0 < b) (hα : 0 < α ∧ α^3 = a^2*b) (hε : -1 < ε ∧ (1 + ε)^3 = b/a) : b = α*(1 + ε)^2 ∧ a = α/(1 + ε) ∧ b/a = (1 + ε)^3 := by
  obtain ⟨h1, h2⟩ := hα
  obtain ⟨h3, h4⟩ := hε
  have h5 : 0 < 1 + ε := by linarith
  have e1 : b = a*(1 + ε)^3 := by rw [h4]; field_simp
  have e2 : (a*(1 + ε))^3 = α^3 := by rw [h2, mul_pow]; rw [e1]; ring
  have e3 : a*(1 + ε) = α := by
    refine (pow_left_inj₀ (by positivity) h1.le (by norm_num : 3 ≠ 0)).1 e2
  refine ⟨?_, ?_, h4.symm⟩
  · rw [← e3, e1]; ring
  · rw [← e3]; field_simp

/-- **C151** (dilations): every `alpha > 0` and `epsilon > -1` belong to exactly one pair of dilations -/
theorem C151_dilations_exist {α ε : ℝ} (hα : 0 < α) (hε : -1 < ε) :
    ∃ a b : ℝ, (0 < a ∧ 0 < b ∧ α^3 = a^2*b ∧ (1 + ε)^3 = b/a) ∧ ∀ a' b', 0 < a' → 0 < b' → α^3 = a'^2*b' → (1 + ε)^3 = b'/a' → a' = a ∧ b' = b := by
  have h5 : 0 < 1 + ε := by linarith
  refine ⟨α/(1 + ε), α*(1 + ε)^2, ⟨by positivity, by positivity, by field_simp, by field_simp⟩, fun a' b' ha hb h1 h2 => ?_⟩
  obtain ⟨e1, e2, -⟩ := C151_dilations ha hb ⟨hα, h1⟩ ⟨hε, h2⟩
  exact ⟨e2, e1⟩

theorem qso_model_iff (n : Qso) : n ∈ qsoModelParams ↔ qsoExpr n = none := by cases n <;> simp [qsoModelParams, qsoExpr]

/-- **C151** (the model): when the free parameters have been set, the model holds what was given for each of them and the values of the parameters that are not free; it holds nothing else than before for any other name -/
theorem C151_model {va : Qso → Bool} {cl : Qso → ℝ → ℝ} {p : Prep Qso} (hp : prepare (qsoSys va cl) 20 = some p) {fuel : ℕ} {free : List Qso} {within : Qso → ℝ → Bool}
    {accepts : List (Qso × ℝ) → Bool} {st : St Qso ℝ} {model : Qso → Option ℝ} {theta : List ℝ} (hfree : free.Nodup) (hkind : ∀ n ∈ free, qsoExpr n = none ∧ va n = true) (hwi : ∀ n v, within n v = true → cl n v = v)
    (h0 : Start (qsoSys va cl) st) (hlen : theta.length = free.length) {st' : St Qso ℝ} {model' : Qso → Option ℝ}
    (hret : setFree (qsoSys va cl) p.children fuel free within qsoModelParams accepts st model theta = .ret true st' model') :
    (∀ (i : ℕ) n v, free[i]? = some n → theta[i]? = some v → model' n = some v) ∧ (∀ n, qsoExpr n = none → n ∉ free → model' n = some (st.val n)) ∧ ∀ n, qsoExpr n ≠ none → model' n = model n := by
  obtain ⟨w, hw, -⟩ := C23_meaning (qsoSys va cl) (qso_acyclic va cl) st'.val
  have hm := C22_model_values (qsoSys va cl) qso_nodup (qso_complete va cl) (qso_acyclic va cl) 20 p hp fuel free within qsoModelParams accepts st model theta (fun n hn => (hkind n hn).1) hwi h0
    (fun n hn e he => absurd ((qso_model_iff n).1 hn) (by rw [show qsoExpr n = some e from he]; simp)) st' model' hret w hw
  have hbase : ∀ n, qsoExpr n = none → w n = st'.val n := by
    intro n hn
    have := hw n
    rw [show (qsoSys va cl).expr n = none from hn] at this
    exact this
  obtain ⟨hbad, hgood⟩ := C22_all_or_nothing_partial (qsoSys va cl) qso_nodup (qso_complete va cl) 20 p hp fuel free within qsoModelParams accepts st model theta hfree (fun n hn => hkind n hn) hwi
    (fun n hn hv _ => h0.1 n hn hv) hlen
  have hin : ∀ (i : ℕ) (n : Qso) (v : ℝ), free[i]? = some n → theta[i]? = some v → within n v = true := by
    intro i n v h1 h2
    by_contra hc
    have := hbad ⟨i, n, v, h1, h2, by simpa using hc⟩
    rw [hret] at this
    simp at this
  obtain ⟨-, hset, hkeep, -, hother⟩ := hgood hin true st' model' hret
  refine ⟨fun i n v h1 h2 => ?_, fun n hn hnf => ?_, fun n hn => hother n fun h => hn ((qso_model_iff n).1 h)⟩
  · have hn := (hkind n (List.mem_of_getElem? h1)).1
    rw [hm n ((qso_model_iff n).2 hn), hbase n hn, hset i n v h1 h2]
  · rw [hm n ((qso_model_iff n).2 hn), hbase n hn, hkeep n hn hnf]

/-- the bounds of the uniform priors, as `min`/`max` -/
def qsoClamp (n : Qso) (v : ℝ) : ℝ :=
  match (qsoFiducial n).2 with
  | some (lo, hi) => max lo (min hi v)
  | none => v

/-- **C151** (defaults): the values that the parameters have at first are inside the priors, every parameter declared free has a prior, and both dilations stay positive inside theirs -/
theorem C151_defaults (n : Qso) :
    (∀ lo hi, (qsoFiducial n).2 = some (lo, hi) → lo ≤ (qsoFiducial n).1 ∧ (qsoFiducial n).1 ≤ hi) ∧
    (n.str ∈ (schema qsoAttrs).free → ∃ lo hi, (qsoFiducial n).2 = some (lo, hi) ∧ lo < hi) ∧
    (n = alpha_perp ∨ n = alpha_par → ∃ lo hi, (qsoFiducial n).2 = some (lo, hi) ∧ 0 < lo) := by
  refine ⟨fun lo hi h => ?_, fun h => ?_, fun h => ?_⟩
  · cases n <;> simp only [qsoFiducial, Option.some.injEq, Prod.mk.injEq, reduceCtorEq] at h ⊢ <;> obtain ⟨rfl, rfl⟩ := h <;> norm_num
  · cases n <;> first
      | exact ⟨_, _, rfl, by norm_num⟩
      | exact absurd h (by decide +kernel)
  · rcases h with rfl | rfl <;> exact ⟨_, _, rfl, by norm_num⟩

/-- the state after loading: the values, and nothing in the symbol table -/
def qsoFirst : St Qso ℝ := { val := fun n => (qsoFiducial n).1, sym := fun _ => none }

/-- a case of `C151_derived` and of `C151_model`: the state after loading is a starting state -/
theorem qsoFirst_start (va : Qso → Bool) : Start (qsoSys va qsoClamp) qsoFirst := by
  refine ⟨fun n _ _ => ?_, fun w _ n => Or.inl rfl⟩
  show qsoClamp n (qsoFiducial n).1 = (qsoFiducial n).1
  unfold qsoClamp
  cases h : (qsoFiducial n).2 with
  | none => rfl
  | some b =>
    obtain ⟨lo, hi⟩ := b
    obtain ⟨h1, h2⟩ := (C151_defaults n).1 lo hi h
    simp only
    rw [min_eq_right h2, max_eq_right h1]

/-- a case of `C151_derived`: the derived parameters can be read after an assignment -/
example : ∃ p, prepare (qsoSys (fun _ => true) qsoClamp) 20 = some p ∧ ∃ fuel st v st', run (qsoSys (fun _ => true) qsoClamp) p.children fuel qsoFirst [.set alpha_par 1.1] = some st ∧
    getval (qsoSys (fun _ => true) qsoClamp) p.children fuel st epsilon = some (v, st') ∧ (1 + v)^3 = 1.1 := by
  obtain ⟨p, hp⟩ := qso_prepared (fun _ => true) qsoClamp
  obtain ⟨F, hF⟩ := C23_reads_terminate (qsoSys (fun _ => true) qsoClamp) p.children (qso_acyclic _ _) epsilon
  have hrun : run (qsoSys (fun _ => true) qsoClamp) p.children F qsoFirst [.set alpha_par 1.1] = some (qsoFirst.set p.children alpha_par 1.1) := rfl
  obtain ⟨⟨v, st'⟩, hr⟩ := Option.isSome_iff_exists.1 (hF F le_rfl (qsoFirst.set p.children alpha_par 1.1))
  have h1 : (qsoFirst.set p.children alpha_par 1.1).val alpha_par = 1.1 := by simp [St.set, upd]
  have h2 : (qsoFirst.set p.children alpha_par 1.1).val alpha_perp = 1 := by simp [St.set, upd, qsoFirst, qsoFiducial]; norm_num
  refine ⟨p, hp, F, _, v, st', hrun, hr, ?_⟩
  have := (C151_derived (va := fun _ => true) (cl := qsoClamp) (fun n hn v => by cases n <;> first | rfl | exact absurd rfl hn) hp (qsoFirst_start _) (fun o ho => by
    simp only [List.mem_cons, List.not_mem_nil, or_false] at ho
    subst ho
    exact ⟨rfl, fun _ => by simp [qsoSys, qsoClamp, qsoFiducial]; norm_num⟩) hrun (by rw [h2]; norm_num) (by rw [h1]; norm_num) hr).2.2.2.2.1 rfl
  rw [this.2, h1, h2]
  norm_num

end

end Verif.Params
