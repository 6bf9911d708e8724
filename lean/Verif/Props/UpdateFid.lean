/-
C142: the fiducial of a constrained parameter is its constraint at the fiducials, and taking it changes no value.
-/
import Verif.Model.UpdateFid
import Verif.Spec.UpdateFid
import Verif.Props.GalParams

namespace Verif.UpdateFid

open Verif.Params

variable {N V : Type} [DecidableEq N]

theorem readAll_inv {sys : Sys N V} {ch : N → List N} (hch : Direct sys ch) {w : N → V} {G : N → Prop} (hG : GClosed sys G)
    (hw : ∀ n e, sys.expr n = some e → w n = sys.clamp n (e.eval (e.deps.map w))) (fuel : Nat) (ns : List N) :
    ∀ (st st' : St N V) (vs : List V), Inv sys w G st → readAll sys ch fuel st ns = some (vs, st') →
      Inv sys w G st' ∧ (∀ b, sys.expr b = none → st'.val b = st.val b) ∧ vs.length = ns.length ∧
      ∀ x ∈ ns.zip vs, ReadOK sys G x.1 → x.2 = w x.1 := by
  induction ns with
  | nil =>
    intro st st' vs h e
    simp only [readAll, Option.some.injEq, Prod.mk.injEq] at e
    obtain ⟨rfl, rfl⟩ := e
    exact ⟨h, fun _ _ => rfl, rfl, by simp⟩
  | cons n ns ih =>
    intro st st' vs h e
    simp only [readAll] at e
    split at e
    · cases e
    next v st1 e1 =>
      split at e
      · cases e
      next vs1 st2 e2 =>
        simp only [Option.some.injEq, Prod.mk.injEq] at e
        obtain ⟨rfl, rfl⟩ := e
        obtain ⟨a1, a2, a3, -⟩ := (eval_spec sys ch hch w G hG hw fuel).1 st n v st1 h e1
        obtain ⟨b1, b2, b3, b4⟩ := ih st1 st2 vs1 a1 e2
        refine ⟨b1, fun b hb => (b2 b hb).trans (a2 b hb), by simp [b3], ?_⟩
        intro x hx
        simp only [List.zip_cons_cons, List.mem_cons] at hx
        rcases hx with rfl | hx
        · exact a3
        · exact b4 x hx

/-- the assignments of `toFiducials` -/
def fidOps (sys : Sys N V) (inf : V) (fid : N → Option V) (ns : List N) : List (Op N V) :=
  (ns.filter (fun n => (sys.expr n).isNone)).map (fun n => .set n ((fid n).getD inf))

theorem toFiducials_run (sys : Sys N V) (ch : N → List N) (inf : V) (fid : N → Option V) (fuel : Nat) (ns : List N) :
    ∀ st, run sys ch fuel st (fidOps sys inf fid ns) = some (toFiducials sys ch inf fid st ns) := by
  induction ns with
  | nil => intro st; rfl
  | cons n ns ih =>
    intro st
    simp only [toFiducials]
    cases hx : sys.expr n with
    | none =>
      simp only [fidOps, hx, Option.isNone_none, List.filter_cons_of_pos, List.map_cons, run, step, Option.bind_some]
      exact ih _
    | some e =>
      have : fidOps sys inf fid (n :: ns) = fidOps sys inf fid ns := by
        simp [fidOps, hx]
      rw [this]
      exact ih _

theorem toFiducials_val (sys : Sys N V) (ch : N → List N) (inf : V) (fid : N → Option V) (ns : List N) :
    ∀ st b, sys.expr b = none →
      (toFiducials sys ch inf fid st ns).val b = if b ∈ ns then (fid b).getD inf else st.val b := by
  induction ns with
  | nil => intro st b _; simp [toFiducials]
  | cons n ns ih =>
    intro st b hb
    simp only [toFiducials]
    cases hx : sys.expr n with
    | none =>
      dsimp only
      rw [ih _ b hb]
      by_cases hbn : b = n
      · subst hbn; simp [St.set, upd]
      · simp [St.set, upd, hbn]
    | some e =>
      have hbn : b ≠ n := by intro h; subst h; rw [hb] at hx; cases hx
      dsimp only
      rw [ih _ b hb]
      simp [hbn]

/-- the assignments of `restore` -/
def resOps (sys : Sys N V) (kvs : List (N × V)) : List (Op N V) :=
  (kvs.filter (fun x => (sys.expr x.1).isNone)).map (fun x => .set x.1 x.2)

theorem restore_run (sys : Sys N V) (ch : N → List N) (fuel : Nat) (kvs : List (N × V)) :
    ∀ st, run sys ch fuel st (resOps sys kvs) = some (restore sys ch st kvs) := by
  induction kvs with
  | nil => intro st; rfl
  | cons x kvs ih =>
    intro st
    obtain ⟨n, v⟩ := x
    simp only [restore]
    cases hx : sys.expr n with
    | none =>
      simp only [resOps, hx, Option.isNone_none, List.filter_cons_of_pos, List.map_cons, run, step, Option.bind_some]
      exact ih _
    | some e =>
      have : resOps sys ((n, v) :: kvs) = resOps sys kvs := by
        simp [resOps, hx]
      rw [this]
      exact ih _

/-- when the pairs all hold the values of `g`, `restore` gives them back -/
theorem restore_val (sys : Sys N V) (ch : N → List N) (g : N → V) (kvs : List (N × V)) :
    ∀ st, (∀ x ∈ kvs, sys.expr x.1 = none → x.2 = g x.1) → ∀ b, sys.expr b = none →
      (restore sys ch st kvs).val b = if b ∈ kvs.map Prod.fst then g b else st.val b := by
  induction kvs with
  | nil => intro st _ b _; simp [restore]
  | cons x kvs ih =>
    intro st hk b hb
    obtain ⟨n, v⟩ := x
    have hk' : ∀ x ∈ kvs, sys.expr x.1 = none → x.2 = g x.1 := fun x hx => hk x (List.mem_cons_of_mem _ hx)
    simp only [restore]
    cases hx : sys.expr n with
    | none =>
      dsimp only
      rw [ih _ hk' b hb]
      by_cases hbn : b = n
      · subst hbn
        have := hk (b, v) List.mem_cons_self hx
        dsimp only at this
        subst this
        simp only [St.set, upd, List.map_cons, List.mem_cons, true_or, if_true]
        split <;> rfl
      · simp only [St.set, upd, hbn, List.map_cons, List.mem_cons, false_or, if_false]
    | some e =>
      have hbn : b ≠ n := by intro h; subst h; rw [hb] at hx; cases hx
      dsimp only
      rw [ih _ hk' b hb]
      simp only [hbn, List.map_cons, List.mem_cons, false_or]

/-- the constrained parameters of a list, in order -/
def conNames (sys : Sys N V) (ns : List N) : List N := ns.filter (fun n => (sys.expr n).isSome)

theorem readFiducials_spec (sys : Sys N V) (ch : N → List N) (fuel : Nat) (finite : V → Bool) (w : N → V) (P : N → Prop)
    (ns : List N) : ∀ (s s' : FSt N V), readFiducials sys ch fuel finite s ns = some s' →
      ∃ vs, readAll sys ch fuel s.st (conNames sys ns) = some (vs, s'.st) ∧
        (∀ n, n ∉ conNames sys ns → s'.fid n = s.fid n) ∧
        ((∀ x ∈ (conNames sys ns).zip vs, P x.1 → x.2 = w x.1) → ∀ n ∈ conNames sys ns, P n → s'.fid n = known finite (w n)) := by
  induction ns with
  | nil =>
    intro s s' e
    simp only [readFiducials, Option.some.injEq] at e
    subst e
    exact ⟨[], rfl, fun _ _ => rfl, by simp [conNames]⟩
  | cons n ns ih =>
    intro s s' e
    simp only [readFiducials] at e
    cases hx : sys.expr n with
    | none =>
      simp only [hx] at e
      have : conNames sys (n :: ns) = conNames sys ns := by simp [conNames, hx]
      rw [this]
      exact ih s s' e
    | some ex =>
      simp only [hx] at e
      have hcn : conNames sys (n :: ns) = n :: conNames sys ns := by simp [conNames, hx]
      rw [hcn]
      split at e
      · cases e
      next v st1 e1 =>
        obtain ⟨vs, h1, h2, h3⟩ := ih _ s' e
        refine ⟨v :: vs, ?_, ?_, ?_⟩
        · simp only [readAll, e1, h1]
        · intro m hm
          simp only [List.mem_cons, not_or] at hm
          rw [h2 m hm.2]
          simp [upd, hm.1]
        · intro hz m hm hP
          by_cases hmt : m ∈ conNames sys ns
          · exact h3 (fun x hx' => hz x (by simp [hx'])) m hmt hP
          · rw [h2 m hmt]
            have hmn : m = n := by
              rcases List.mem_cons.1 hm with q | q
              · exact q
              · exact absurd q hmt
            subst hmn
            have := hz (m, v) (by simp) hP
            dsimp only at this
            simp [upd, known, this]

theorem zip_same {A : Type} (l : List A) : ∀ x ∈ l.zip l, x.1 = x.2 := by
  induction l with
  | nil => simp
  | cons a l ih =>
    intro x hx
    simp only [List.zip_cons_cons, List.mem_cons] at hx
    rcases hx with rfl | hx
    · rfl
    · exact ih x hx

omit [DecidableEq N] in
/-- two solutions at the same values of the unconstrained parameters agree on the dictionary -/
theorem solution_agree {sys : Sys N V} (hc : Complete sys) (ha : Acyclic sys) {w w' : N → V}
    (hb : ∀ b ∈ sys.names, sys.expr b = none → w b = w' b)
    (h : ∀ n e, sys.expr n = some e → w n = sys.clamp n (e.eval (e.deps.map w)))
    (h' : ∀ n e, sys.expr n = some e → w' n = sys.clamp n (e.eval (e.deps.map w'))) :
    ∀ n ∈ sys.names, w n = w' n := by
  obtain ⟨rank, hr⟩ := ha
  have key : ∀ k n, rank n < k → n ∈ sys.names → w n = w' n := by
    intro k
    induction k with
    | zero => intro n hn; omega
    | succ k ih =>
      intro n hn hnn
      cases hx : sys.expr n with
      | none => exact hb n hnn hx
      | some e =>
        rw [h n e hx, h' n e hx]
        have : e.deps.map w = e.deps.map w' := by
          refine List.map_congr_left fun d hd => ?_
          refine ih d ?_ ((hc n e hx).2 d hd)
          have := hr n e hx d hd
          omega
        rw [this]
  intro n hn
  exact key _ n (Nat.lt_succ_self _) hn

/-- everything about a call that ends -/
theorem update_all {sys : Sys N V} (hn : sys.names.Nodup) (hc : Complete sys) (ha : Acyclic sys) {pf : Nat} {p : Prep N}
    (hp : prepare sys pf = some p) {inf : V} {finite : V → Bool} {fuel : Nat} {s r : FSt N V} (h0 : Start sys s.st)
    (hf : FiducialsInBounds sys inf s.fid) (hr : updateFiducial sys p.children fuel inf finite true s = .done r)
    {w : N → V} (hw : AtFiducials sys inf s.fid w) :
    ((∀ n, sys.expr n = none → r.fid n = s.fid n) ∧
      (∀ n, (sys.expr n).isSome → ReadOK sys (Flat sys) n → r.fid n = known finite (w n)) ∧
      (DependencyOrder sys [] (conNames sys sys.names) → ∀ n, (sys.expr n).isSome → r.fid n = known finite (w n))) ∧
    (∀ b, sys.expr b = none → r.st.val b = s.st.val b) ∧
    ∃ w', Solves sys r.st.val w' ∧ Inv sys w' (Flat sys) r.st := by
  have hch := prepare_direct hn hc pf p hp
  obtain ⟨w0, hw0⟩ := solution_exists sys ha s.st.val
  have hi0 := h0.inv w0 hw0 (Flat sys)
  simp only [updateFiducial] at hr
  split at hr
  · cases hr
  next values st1 e1 =>
    rw [if_neg (by simp)] at hr
    split at hr
    · cases hr
    next s2 e2 =>
      simp only [Outcome.done.injEq] at hr
      subst hr
      obtain ⟨hi1, hv1, hl1, hz1⟩ := readAll_inv hch (Flat.closed sys) hw0.eqs fuel sys.names s.st st1 values hi0 e1
      have hzb : ∀ x ∈ sys.names.zip values, sys.expr x.1 = none → x.2 = s.st.val x.1 := by
        intro x hx hxn
        rw [hz1 x hx (fun e he => by rw [hxn] at he; cases he), hw0.base _ hxn]
      obtain ⟨w2, hs2, hi2⟩ := run_inv hch ha fuel (fidOps sys inf s.fid sys.names) (by
        intro o ho
        simp only [fidOps, List.mem_map, List.mem_filter, Option.isNone_iff_eq_none] at ho
        obtain ⟨n, ⟨hnn, hne⟩, rfl⟩ := ho
        exact ⟨hne, fun hvn => hf n hnn hne hvn⟩) st1 _ w0 hw0.eqs hi1 (toFiducials_run sys p.children inf s.fid fuel sys.names st1)
      have hag : ∀ n ∈ sys.names, w2 n = w n := by
        refine solution_agree hc ha ?_ hs2.eqs hw.2
        intro b hb hbn
        rw [hs2.base b hbn, toFiducials_val sys p.children inf s.fid sys.names st1 b hbn, if_pos hb, hw.1 b hb hbn]
      obtain ⟨vs, hra, hout, -⟩ := readFiducials_spec sys p.children fuel finite w (fun _ => True) sys.names _ s2 e2
      have hmem : ∀ n, (sys.expr n).isSome → n ∈ conNames sys sys.names := by
        intro n hns
        obtain ⟨e, he⟩ := Option.isSome_iff_exists.1 hns
        exact List.mem_filter.2 ⟨(hc n e he).1, by simpa using hns⟩
      have hmem' : ∀ n ∈ conNames sys sys.names, n ∈ sys.names := fun n h => (List.mem_filter.1 h).1
      obtain ⟨hi4, hv4, hl4, hz4⟩ := readAll_inv hch (Flat.closed sys) hs2.eqs fuel _ _ s2.st vs hi2 hra
      have hvs : ∀ (P : N → Prop), (∀ x ∈ (conNames sys sys.names).zip vs, P x.1 → x.2 = w x.1) →
          ∀ n ∈ conNames sys sys.names, P n → s2.fid n = known finite (w n) := by
        intro P hP
        obtain ⟨vs', hra', -, h3⟩ := readFiducials_spec sys p.children fuel finite w P sys.names _ s2 e2
        rw [hra] at hra'
        simp only [Option.some.injEq, Prod.mk.injEq, and_true] at hra'
        subst hra'
        exact h3 hP
      refine ⟨⟨?_, ?_, ?_⟩, ?_, ?_⟩
      · intro n hnn
        refine hout n ?_
        intro hm
        have := (List.mem_filter.1 hm).2
        rw [hnn] at this; cases this
      · intro n hns hok
        refine hvs (ReadOK sys (Flat sys)) ?_ n (hmem n hns) hok
        intro x hx hx'
        rw [hz4 x hx hx']
        exact hag _ (hmem' _ (List.of_mem_zip hx).1)
      · intro hord n hns
        have := C23_dependency_order sys hn hc pf p hp fuel _ s2.st
          (fun b hb => by rw [← hi2.base b hb]; exact hi2.sbase b hb) hi2.inb _ hord w2 hs2 vs hra
        refine hvs (fun _ => True) ?_ n (hmem n hns) trivial
        intro x hx _
        rw [this, List.zip_map_right] at hx
        simp only [List.mem_map, Prod.exists] at hx
        obtain ⟨a, b, hab, rfl⟩ := hx
        have hab' : a = b := zip_same _ (a, b) hab
        subst hab'
        exact hag _ (hmem' _ (List.of_mem_zip hab).1)
      · intro b hb
        dsimp only
        rw [restore_val sys p.children s.st.val _ s2.st hzb b hb]
        split
        · rfl
        next hbn =>
          have hbn' : b ∉ sys.names := by
            intro hx
            refine hbn ?_
            rw [List.map_fst_zip (by omega)]
            exact hx
          rw [hv4 b hb, toFiducials_val sys p.children inf s.fid sys.names st1 b hb, if_neg hbn', hv1 b hb]
      · refine run_inv hch ha fuel (resOps sys (sys.names.zip values)) ?_ s2.st _ w2 hs2.eqs hi4
          (restore_run sys p.children fuel _ s2.st)
        intro o ho
        simp only [resOps, List.mem_map, List.mem_filter, Option.isNone_iff_eq_none] at ho
        obtain ⟨x, ⟨hxm, hxn⟩, rfl⟩ := ho
        refine ⟨hxn, fun hvn => ?_⟩
        rw [hzb x hxm hxn]
        exact h0.1 _ hxn hvn

/-- **C142, fiducials (partial).** For every prepared parameter set with acyclic constraints, in every good state: when the call
ends, the fiducials of the unconstrained parameters are untouched, and the fiducial of a constrained parameter is its constraint
evaluated at the fiducials (of the unconstrained parameters; infinity for those without), or none when that is not finite.
Missing: parameters that mention a constrained parameter which is not flat (`C142_stale_fiducial_counterexample`), fiducials out of the
bounds of a free parameter. -/
theorem C142_fiducials_partial (sys : Sys N V) (hn : sys.names.Nodup) (hc : Complete sys) (ha : Acyclic sys) (pf : Nat)
    (p : Prep N) (hp : prepare sys pf = some p) (inf : V) (finite : V → Bool) (fuel : Nat) (s r : FSt N V)
    (h0 : Start sys s.st) (hf : FiducialsInBounds sys inf s.fid)
    (hr : updateFiducial sys p.children fuel inf finite true s = .done r) (w : N → V) (hw : AtFiducials sys inf s.fid w) :
    (∀ n, sys.expr n = none → r.fid n = s.fid n) ∧
    ∀ n e, sys.expr n = some e → (∀ d ∈ e.deps, sys.expr d = none ∨ Flat sys d) → r.fid n = known finite (w n) := by
  obtain ⟨⟨h1, h2, -⟩, -⟩ := update_all hn hc ha hp h0 hf hr hw
  refine ⟨h1, fun n e he hd => h2 n (by rw [he]; rfl) ?_⟩
  intro e' he'
  rw [he] at he'; cases he'
  exact hd

/-- **C142, in dependency order.** When the dictionary lists every constrained parameter after the constrained ones it mentions, the
fiducials are right at any depth of constraints. -/
theorem C142_dependency_order (sys : Sys N V) (hn : sys.names.Nodup) (hc : Complete sys) (ha : Acyclic sys) (pf : Nat)
    (p : Prep N) (hp : prepare sys pf = some p) (inf : V) (finite : V → Bool) (fuel : Nat) (s r : FSt N V)
    (h0 : Start sys s.st) (hf : FiducialsInBounds sys inf s.fid)
    (hr : updateFiducial sys p.children fuel inf finite true s = .done r) (w : N → V) (hw : AtFiducials sys inf s.fid w)
    (hord : DependencyOrder sys [] (sys.names.filter (fun n => (sys.expr n).isSome))) (n : N) (hns : (sys.expr n).isSome) :
    r.fid n = known finite (w n) :=
  (update_all hn hc ha hp h0 hf hr hw).1.2.2 hord n hns

/-- **C142, values (partial).** After the call every unconstrained parameter has the value it had, and, after any further history of
assignments and reads, reading a parameter whose constraints are flat gives its constraint at the current values: the fiducials leave
no trace in the values. Missing: deeper constraints (`C142_trace_counterexample`). -/
theorem C142_values_partial (sys : Sys N V) (hn : sys.names.Nodup) (hc : Complete sys) (ha : Acyclic sys) (pf : Nat)
    (p : Prep N) (hp : prepare sys pf = some p) (inf : V) (finite : V → Bool) (fuel : Nat) (s r : FSt N V)
    (h0 : Start sys s.st) (hf : FiducialsInBounds sys inf s.fid)
    (hr : updateFiducial sys p.children fuel inf finite true s = .done r) :
    (∀ b, sys.expr b = none → r.st.val b = s.st.val b) ∧
    ∀ (ops : List (Op N V)) (st : St N V), (∀ o ∈ ops, OpOK sys o) → run sys p.children fuel r.st ops = some st →
      ∀ n, (∀ e, sys.expr n = some e → ∀ d ∈ e.deps, sys.expr d = none ∨ Flat sys d) →
      ∀ w v st', Solves sys st.val w → getval sys p.children fuel st n = some (v, st') → v = w n := by
  obtain ⟨w0, hw0⟩ := solution_exists sys ha (fun b => (s.fid b).getD inf)
  obtain ⟨-, h2, w', hs', hi'⟩ := update_all hn hc ha hp h0 hf hr (w := w0) ⟨fun b _ hb => hw0.base b hb, hw0.eqs⟩
  refine ⟨h2, ?_⟩
  intro ops st hops hrun n hflat w v st' hw hg
  have hch := prepare_direct hn hc pf p hp
  obtain ⟨w1, hs, hi⟩ := run_inv hch ha fuel ops hops r.st st w' hs'.eqs hi' hrun
  have := solution_unique sys ha st.val w w1 hw hs
  subst this
  exact ((eval_spec sys p.children hch w (Flat sys) (Flat.closed sys) hw.eqs fuel).1 st n v st' hi hg).2.2.1 hflat

theorem readAll_total (sys : Sys N V) (ch : N → List N) (ha : Acyclic sys) (ns : List N) :
    ∃ F, ∀ fuel, F ≤ fuel → ∀ st, (readAll sys ch fuel st ns).isSome := by
  induction ns with
  | nil => exact ⟨0, fun _ _ _ => rfl⟩
  | cons n ns ih =>
    obtain ⟨F1, h1⟩ := getval_total sys ch ha n
    obtain ⟨F2, h2⟩ := ih
    refine ⟨max F1 F2, fun fuel hf st => ?_⟩
    obtain ⟨⟨v, st1⟩, e1⟩ := Option.isSome_iff_exists.1 (h1 fuel (Nat.le_trans (Nat.le_max_left _ _) hf) st)
    obtain ⟨⟨vs, st2⟩, e2⟩ := Option.isSome_iff_exists.1 (h2 fuel (Nat.le_trans (Nat.le_max_right _ _) hf) st1)
    simp [readAll, e1, e2]

theorem readFiducials_total (sys : Sys N V) (ch : N → List N) (ha : Acyclic sys) (finite : V → Bool) (ns : List N) :
    ∃ F, ∀ fuel, F ≤ fuel → ∀ s, (readFiducials sys ch fuel finite s ns).isSome := by
  induction ns with
  | nil => exact ⟨0, fun _ _ _ => rfl⟩
  | cons n ns ih =>
    obtain ⟨F1, h1⟩ := getval_total sys ch ha n
    obtain ⟨F2, h2⟩ := ih
    refine ⟨max F1 F2, fun fuel hf s => ?_⟩
    simp only [readFiducials]
    cases hx : sys.expr n with
    | none => exact h2 fuel (Nat.le_trans (Nat.le_max_right _ _) hf) s
    | some e =>
      obtain ⟨⟨v, st1⟩, e1⟩ := Option.isSome_iff_exists.1 (h1 fuel (Nat.le_trans (Nat.le_max_left _ _) hf) s.st)
      simp only [e1]
      exact h2 fuel (Nat.le_trans (Nat.le_max_right _ _) hf) _

/-- **C142: the call ends** on every prepared set with acyclic constraints, for every large enough recursion limit: the hypothesis
`… = .done r` of the theorems above is met. -/
theorem C142_ends (sys : Sys N V) (ch : N → List N) (ha : Acyclic sys) (inf : V) (finite : V → Bool) :
    ∃ F, ∀ fuel, F ≤ fuel → ∀ s, ∃ r, updateFiducial sys ch fuel inf finite true s = .done r := by
  obtain ⟨F1, h1⟩ := readAll_total sys ch ha sys.names
  obtain ⟨F2, h2⟩ := readFiducials_total sys ch ha finite sys.names
  refine ⟨max F1 F2, fun fuel hf s => ?_⟩
  obtain ⟨⟨vs, st1⟩, e1⟩ := Option.isSome_iff_exists.1 (h1 fuel (Nat.le_trans (Nat.le_max_left _ _) hf) s.st)
  obtain ⟨s2, e2⟩ := Option.isSome_iff_exists.1
    (h2 fuel (Nat.le_trans (Nat.le_max_right _ _) hf) ⟨toFiducials sys ch inf s.fid st1 sys.names, s.fid⟩)
  exact ⟨⟨restore sys ch s2.st (sys.names.zip vs), s2.fid⟩, by simp [updateFiducial, e1, e2]⟩

/-! ### A concrete case -/

/-- Values of the concrete cases: integers and infinity (`none`), with `1/infinity = 0`. -/
abbrev X := Option Int

/-- `2 = 0 + 1`, `3 = 10 / 0`. -/
def demo : Sys Nat X :=
  { names := [0, 1, 2, 3]
    expr := fun n =>
      if n = 2 then some ⟨[0, 1], fun vs => match vs with
        | [some a, some b] => some (a + b)
        | _ => none⟩
      else if n = 3 then some ⟨[0], fun vs => match vs with
        | [some a] => some (10 / a)
        | _ => some 0⟩
      else none
    vary := fun n => n == 0
    clamp := fun _ v => v }

def demoChildren : Nat → List Nat := fun n => if n = 0 then [2, 3] else if n = 1 then [2] else []

example : (prepare demo 20).map (fun p => [0, 1, 2, 3].map p.children) = some ([0, 1, 2, 3].map demoChildren) := by decide +kernel

/-- what is seen of an outcome: the fiducials and the values of the parameters `0 … 3`, read in order -/
def seen (sys : Sys Nat X) (ch : Nat → List Nat) : Outcome Nat X → List (Option X) × Option (List X)
  | .done r => ([0, 1, 2, 3].map r.fid, (readAll sys ch 30 r.st [0, 1, 2, 3]).map (·.1))
  | .notPrepared r => ([0, 1, 2, 3].map r.fid, (readAll sys ch 30 r.st [0, 1, 2, 3]).map (·.1))
  | .recursion => ([], none)

/-- values 5 and 7, fiducials 1 and 2: the constrained fiducials become 3 and 10, the values stay 5, 7, 12 and 2 -/
theorem C142_case : seen demo demoChildren (updateFiducial demo demoChildren 20 none Option.isSome true
    ⟨⟨fun n => if n = 0 then some 5 else some 7, fun _ => none⟩, fun n => if n = 0 then some (some 1) else if n = 1 then some (some 2) else none⟩) =
    ([some (some 1), some (some 2), some (some 3), some (some 10)], some [some 5, some 7, some 12, some 2]) := by decide +kernel

/-- The hypotheses of the theorems are met by that case. -/
example : demo.names.Nodup ∧ Complete demo ∧ Acyclic demo ∧
    Start demo ⟨fun n => if n = 0 then some 5 else some 7, fun _ => none⟩ ∧
    FiducialsInBounds demo none (fun n => if n = 0 then some (some 1) else if n = 1 then some (some 2) else none) := by
  refine ⟨by decide, ?_, ⟨id, ?_⟩, ⟨fun _ _ _ => rfl, fun _ _ _ => Or.inl rfl⟩, fun _ _ _ _ => rfl⟩
  · intro n e he
    by_cases h2 : n = 2
    · subst h2; simp [demo] at he; subst he; simp [demo]
    · by_cases h3 : n = 3
      · subst h3; simp [demo] at he; subst he; simp [demo]
      · simp [demo, h2, h3] at he
  · intro n e he d hd
    by_cases h2 : n = 2
    · subst h2; simp [demo] at he; subst he; simp at hd; simp only [id]; omega
    · by_cases h3 : n = 3
      · subst h3; simp [demo] at he; subst he; simp at hd; simp only [id]; omega
      · simp [demo, h2, h3] at he

/-! ### Where the property fails -/

/-- A missing fiducial does not always show: with no fiducial for the parameter `0`, the constrained parameter `2` has none, but
`3 = 10/0` gets the fiducial 0, a number no value of the model stands for. -/
theorem C142_missing_counterexample : seen demo demoChildren (updateFiducial demo demoChildren 20 none Option.isSome true
    ⟨⟨fun n => if n = 0 then some 5 else some 7, fun _ => none⟩, fun n => if n = 1 then some (some 2) else none⟩) =
    ([none, some (some 2), none, some (some 0)], some [some 5, some 7, some 12, some 2]) := by decide +kernel

/-- Called before the set is prepared, the call raises and leaves the *fiducials* as values (the analysis goes on after that
exception, `analysis/tools.py:200-203`). -/
theorem C142_not_prepared_counterexample : seen demo demoChildren (updateFiducial demo demoChildren 20 none Option.isSome false
    ⟨⟨fun n => if n = 0 then some 5 else some 7, fun _ => none⟩, fun n => if n = 0 then some (some 1) else if n = 1 then some (some 2) else none⟩) =
    ([some (some 1), some (some 2), none, none], some [some 1, some 2, some 3, some 10]) := by decide +kernel

/-- With three levels of constraints the fiducials do leave a trace: in the chain `3 = 2`, `2 = 1`, `1 = 0` with value 5 and fiducial 1,
up to date before the call, the parameter `3` reads as the fiducial afterwards. -/
theorem C142_trace_counterexample :
    Start (chain3 X (fun _ v => v)) ⟨fun _ => some 5, fun _ => some (some 5)⟩ ∧
    ∃ r, updateFiducial (chain3 X (fun _ v => v)) chainChildren 20 none Option.isSome true
      ⟨⟨fun _ => some 5, fun _ => some (some 5)⟩, fun n => if n = 0 then some (some 1) else none⟩ = .done r ∧
      r.st.val 0 = some 5 ∧ (getval (chain3 X (fun _ v => v)) chainChildren 20 r.st 3).map (·.1) = some (some 1) := by
  refine ⟨(C23_deep_counterexample X (some 5) (some 5)).1, ?_⟩
  refine ⟨_, rfl, ?_⟩
  decide +kernel

/-- the chain with the deepest parameter first in the dictionary -/
def chainRev : Sys Nat X :=
  { chain3 X (fun _ v => v) with names := [3, 2, 1, 0] }

/-- … and when the dictionary lists a parameter before those it depends on, its fiducial is its *value*. -/
theorem C142_stale_fiducial_counterexample :
    Start chainRev ⟨fun _ => some 5, fun _ => some (some 5)⟩ ∧
    ∃ r, updateFiducial chainRev chainChildren 20 none Option.isSome true
      ⟨⟨fun _ => some 5, fun _ => some (some 5)⟩, fun n => if n = 0 then some (some 1) else none⟩ = .done r ∧
      r.fid 3 = some (some 5) ∧ r.fid 1 = some (some 1) := by
  refine ⟨(C23_deep_counterexample X (some 5) (some 5)).1, ?_⟩
  refine ⟨_, rfl, ?_⟩
  decide +kernel

end Verif.UpdateFid
