/-
C73, C80, C81, C82: result containers.
-/
import Verif.Model.Results
import Mathlib.Data.List.Perm.Basic
import Mathlib.Data.List.Nodup
import Mathlib.Data.List.Induction
import Mathlib.Data.List.Lookmap
import Mathlib.Tactic.Linarith
import Mathlib.Tactic.NormNum
import Mathlib.Tactic.Ring

namespace Verif.Results

noncomputable section

/-! ### C81: statistics follow the burn-in -/

/-- The burn-in in force after the operations (the last one set, 0 initially). -/
def burninOf (ops : List POp) : ℕ := ops.foldl (fun b o => match o with | .burnin b' => b' | _ => b) 0

/-- The rescaling in force after the operations. -/
def rescaleOf (ops : List POp) : ℝ := ops.foldl (fun b o => match o with | .rescale b' => b' | _ => b) 1

/-- The samples left after removing `b` iterations of every walker. -/
def samples (trace : List (List ℝ)) (b : ℕ) : List ℝ := (trace.map (List.drop b)).flatten

/-- The interval between the percentiles `lo` and `hi` about the median, rescaled. -/
def intervalSpec (S : Stats) (l : List ℝ) (r lo hi : ℝ) : ℝ × ℝ :=
  ((S.percentile l lo - S.percentile l 50) * r, (S.percentile l hi - S.percentile l 50) * r)

theorem interval_eq (S : Stats) (p : Param) (lo hi : ℝ) : interval S p lo hi = intervalSpec S (samples p.trace p.burnin) p.rescale lo hi := by
  simp only [interval, intervalSpec, Param.flat, samples, Prod.mk.injEq]
  constructor <;> ring

structure PInv (S : Stats) (p : Param) : Prop where
  median : ∀ m, p.median = some m → m = S.percentile (samples p.trace p.burnin) 50
  sigma1 : ∀ m, p.sigma1 = some m → m = intervalSpec S (samples p.trace p.burnin) p.rescale 15.86555 84.13445
  sigma2 : ∀ m, p.sigma2 = some m → m = intervalSpec S (samples p.trace p.burnin) p.rescale 2.2775 97.7225
  sigma3 : ∀ m, p.sigma3 = some m → m = intervalSpec S (samples p.trace p.burnin) p.rescale 0.135 99.865

theorem readMedian_val {S : Stats} {p : Param} (h : PInv S p) : (p.readMedian S).1 = S.percentile (samples p.trace p.burnin) 50 := by
  unfold Param.readMedian
  cases hm : p.median with
  | none => rfl
  | some m => exact h.median m hm

theorem PInv.readMedian {S : Stats} {p : Param} (h : PInv S p) : PInv S (p.readMedian S).2 := by
  unfold Param.readMedian
  cases hm : p.median with
  | some m => exact h
  | none => exact ⟨fun m e => by cases e; rfl, h.sigma1, h.sigma2, h.sigma3⟩

theorem PInv.op {S : Stats} {p : Param} (h : PInv S p) (o : POp) : PInv S (p.op S o) := by
  cases o with
  | burnin b => exact ⟨fun m e => by simp [Param.op, Param.setBurnin] at e, fun m e => by simp [Param.op, Param.setBurnin] at e,
      fun m e => by simp [Param.op, Param.setBurnin] at e, fun m e => by simp [Param.op, Param.setBurnin] at e⟩
  | rescale r => exact ⟨h.median, fun m e => by simp [Param.op, Param.setRescale] at e,
      fun m e => by simp [Param.op, Param.setRescale] at e, fun m e => by simp [Param.op, Param.setRescale] at e⟩
  | median => exact h.readMedian
  | peak =>
    simp only [Param.op, Param.readPeak]
    cases p.peak with
    | some v => exact h
    | none =>
      have := h.readMedian
      exact ⟨this.median, this.sigma1, this.sigma2, this.sigma3⟩
  | sigma1 =>
    simp only [Param.op, Param.readSigma1]
    cases hs : p.sigma1 with
    | some v => exact h
    | none => exact ⟨h.median, fun m e => by cases e; exact interval_eq S p _ _, h.sigma2, h.sigma3⟩
  | sigma2 =>
    simp only [Param.op, Param.readSigma2]
    cases hs : p.sigma2 with
    | some v => exact h
    | none => exact ⟨h.median, h.sigma1, fun m e => by cases e; exact interval_eq S p _ _, h.sigma3⟩
  | sigma3 =>
    simp only [Param.op, Param.readSigma3]
    cases hs : p.sigma3 with
    | some v => exact h
    | none => exact ⟨h.median, h.sigma1, h.sigma2, fun m e => by cases e; exact interval_eq S p _ _⟩
  | delPeak => exact ⟨h.median, h.sigma1, h.sigma2, h.sigma3⟩

theorem readMedian_keeps (S : Stats) (p : Param) :
    (p.readMedian S).2.trace = p.trace ∧ (p.readMedian S).2.burnin = p.burnin ∧ (p.readMedian S).2.rescale = p.rescale ∧ (p.readMedian S).2.peak = p.peak := by
  unfold Param.readMedian
  cases p.median <;> exact ⟨rfl, rfl, rfl, rfl⟩

/-- How the operations act on trace, burn-in and rescaling. -/
theorem op_keeps (S : Stats) (p : Param) (o : POp) :
    (p.op S o).trace = p.trace ∧ (p.op S o).burnin = (match o with | .burnin b => b | _ => p.burnin) ∧
    (p.op S o).rescale = (match o with | .rescale r => r | _ => p.rescale) := by
  cases o with
  | burnin b => exact ⟨rfl, rfl, rfl⟩
  | rescale r => exact ⟨rfl, rfl, rfl⟩
  | median => obtain ⟨h1, h2, h3, -⟩ := readMedian_keeps S p; exact ⟨h1, h2, h3⟩
  | peak =>
    simp only [Param.op, Param.readPeak]
    cases p.peak with
    | some v => exact ⟨rfl, rfl, rfl⟩
    | none => obtain ⟨h1, h2, h3, -⟩ := readMedian_keeps S p; exact ⟨h1, h2, h3⟩
  | sigma1 => simp only [Param.op, Param.readSigma1]; cases p.sigma1 <;> exact ⟨rfl, rfl, rfl⟩
  | sigma2 => simp only [Param.op, Param.readSigma2]; cases p.sigma2 <;> exact ⟨rfl, rfl, rfl⟩
  | sigma3 => simp only [Param.op, Param.readSigma3]; cases p.sigma3 <;> exact ⟨rfl, rfl, rfl⟩
  | delPeak => exact ⟨rfl, rfl, rfl⟩

theorem ops_inv (S : Stats) (trace : List (List ℝ)) (ops : List POp) :
    PInv S (ops.foldl (Param.op S) (Param.new trace)) ∧ (ops.foldl (Param.op S) (Param.new trace)).trace = trace ∧
    (ops.foldl (Param.op S) (Param.new trace)).burnin = burninOf ops ∧ (ops.foldl (Param.op S) (Param.new trace)).rescale = rescaleOf ops := by
  induction ops using List.reverseRecOn with
  | nil =>
    refine ⟨⟨?_, ?_, ?_, ?_⟩, rfl, rfl, rfl⟩
    · intro m e; cases e
    · intro m e; cases e
    · intro m e; cases e
    · intro m e; cases e
  | append_singleton t o ih =>
    obtain ⟨i1, i2, i3, i4⟩ := ih
    obtain ⟨k1, k2, k3⟩ := op_keeps S (t.foldl (Param.op S) (Param.new trace)) o
    simp only [List.foldl_append, List.foldl_cons, List.foldl_nil, burninOf, rescaleOf] at *
    refine ⟨i1.op o, k1.trans i2, ?_, ?_⟩
    · rw [k2, i3]
    · rw [k3, i4]

/-- C81 (partial: the peak is missing): after any history of reads, burn-in changes and rescalings, the median and the intervals reported are those of the
chain with the current burn-in removed, with the current rescaling. -/
theorem C81_partial (S : Stats) (trace : List (List ℝ)) (ops : List POp) :
    let p := ops.foldl (Param.op S) (Param.new trace)
    (p.readMedian S).1 = S.percentile (samples trace (burninOf ops)) 50 ∧
    (p.readSigma1 S).1 = intervalSpec S (samples trace (burninOf ops)) (rescaleOf ops) 15.86555 84.13445 ∧
    (p.readSigma2 S).1 = intervalSpec S (samples trace (burninOf ops)) (rescaleOf ops) 2.2775 97.7225 ∧
    (p.readSigma3 S).1 = intervalSpec S (samples trace (burninOf ops)) (rescaleOf ops) 0.135 99.865 := by
  intro p
  obtain ⟨hi, ht, hb, hr⟩ := ops_inv S trace ops
  rw [← ht, ← hb, ← hr]
  refine ⟨readMedian_val hi, ?_, ?_, ?_⟩
  · unfold Param.readSigma1
    cases hs : p.sigma1 with
    | none => exact interval_eq S p _ _
    | some v => exact hi.sigma1 v hs
  · unfold Param.readSigma2
    cases hs : p.sigma2 with
    | none => exact interval_eq S p _ _
    | some v => exact hi.sigma2 v hs
  · unfold Param.readSigma3
    cases hs : p.sigma3 with
    | none => exact interval_eq S p _ _
    | some v => exact hi.sigma3 v hs

/-- The peak of the samples left. -/
def peakSpec (S : Stats) (l : List ℝ) : ℝ := S.peak l (S.percentile l 50)

/-- C81 (partial): the peak is right if the burn-in has not been changed since the peak was first read (or deleted). -/
theorem C81_peak_partial (S : Stats) (trace : List (List ℝ)) (ops1 ops2 : List POp)
    (h1 : (∀ o ∈ ops1, o ≠ .peak) ∨ ops1.getLast? = some .delPeak) (h2 : ∀ b, .burnin b ∉ ops2) :
    (((ops1 ++ ops2).foldl (Param.op S) (Param.new trace)).readPeak S).1 = peakSpec S (samples trace (burninOf (ops1 ++ ops2))) := by
  have hnone : (ops1.foldl (Param.op S) (Param.new trace)).peak = none := by
    rcases h1 with h1 | h1
    · have : ∀ (l : List POp) (p : Param), p.peak = none → (∀ o ∈ l, o ≠ .peak) → (l.foldl (Param.op S) p).peak = none := by
        intro l
        induction l with
        | nil => intro p hp _; exact hp
        | cons o t ih =>
          intro p hp ho
          refine ih _ ?_ fun o' ho' => ho o' (List.mem_cons_of_mem _ ho')
          cases o with
          | burnin b => exact hp
          | rescale r => exact hp
          | median => exact (readMedian_keeps S p).2.2.2.trans hp
          | peak => exact absurd rfl (ho _ List.mem_cons_self)
          | sigma1 => simp only [Param.op, Param.readSigma1]; cases p.sigma1 <;> exact hp
          | sigma2 => simp only [Param.op, Param.readSigma2]; cases p.sigma2 <;> exact hp
          | sigma3 => simp only [Param.op, Param.readSigma3]; cases p.sigma3 <;> exact hp
          | delPeak => rfl
      exact this ops1 _ rfl h1
    · obtain ⟨l, rfl⟩ := List.getLast?_eq_some_iff.1 h1
      rw [List.foldl_append]; rfl
  have key : ∀ (l : List POp) (p : Param), (∀ b, .burnin b ∉ l) → PInv S p → (∀ v, p.peak = some v → v = peakSpec S (samples p.trace p.burnin)) →
      ∀ v, (l.foldl (Param.op S) p).peak = some v → v = peakSpec S (samples p.trace p.burnin) := by
    intro l
    induction l with
    | nil => intro p _ _ hp; exact hp
    | cons o t ih =>
      intro p hb hi hp
      obtain ⟨k1, k2, -⟩ := op_keeps S p o
      have k2' : (p.op S o).burnin = p.burnin := by
        rw [k2]
        cases o with
        | burnin b => exact absurd List.mem_cons_self (hb b)
        | _ => rfl
      have := ih (p.op S o) (fun b hm => hb b (List.mem_cons_of_mem _ hm)) (hi.op o) (by
        rw [k1, k2']
        intro v hv
        cases o with
        | burnin b => exact hp v hv
        | rescale r => exact hp v hv
        | median => rw [Param.op, (readMedian_keeps S p).2.2.2] at hv; exact hp v hv
        | peak =>
          simp only [Param.op, Param.readPeak] at hv
          cases hpk : p.peak with
          | some u => rw [hpk] at hv; simp only at hv; rw [hpk] at hv; cases hv; exact hp _ hpk
          | none =>
            rw [hpk] at hv
            simp only [Option.some.injEq] at hv
            rw [← hv, readMedian_val hi]; rfl
        | sigma1 => revert hv; simp only [Param.op, Param.readSigma1]; cases p.sigma1 <;> exact hp v
        | sigma2 => revert hv; simp only [Param.op, Param.readSigma2]; cases p.sigma2 <;> exact hp v
        | sigma3 => revert hv; simp only [Param.op, Param.readSigma3]; cases p.sigma3 <;> exact hp v
        | delPeak => cases hv)
      rw [k1, k2'] at this
      exact this
  obtain ⟨hi, ht, hb, -⟩ := ops_inv S trace (ops1 ++ ops2)
  obtain ⟨hi1, ht1, hb1, -⟩ := ops_inv S trace ops1
  have hbe : burninOf (ops1 ++ ops2) = burninOf ops1 := by
    unfold burninOf
    rw [List.foldl_append]
    generalize List.foldl _ 0 ops1 = b0
    clear key hi ht hb hnone h1
    induction ops2 generalizing b0 with
    | nil => rfl
    | cons o t ih =>
      rw [List.foldl_cons]
      cases o with
      | burnin b => exact absurd List.mem_cons_self (h2 b)
      | _ => exact ih (fun b hm => h2 b (List.mem_cons_of_mem _ hm)) _
  have hk := key ops2 _ h2 hi1 (by rw [hnone]; intro v e; cases e)
  rw [← List.foldl_append, ht1, hb1] at hk
  set p := (ops1 ++ ops2).foldl (Param.op S) (Param.new trace)
  unfold Param.readPeak
  cases hpk : p.peak with
  | some v => simp only; rw [hk v hpk, hbe]
  | none =>
    simp only
    rw [readMedian_val hi, ht, hb]
    simp only [Param.flat, peakSpec, samples, ht, hb]

/-- C81, violation: the peak read before the burn-in was changed is still reported afterwards. -/
theorem C81_peak_counterexample : ∃ (S : Stats) (trace : List (List ℝ)) (ops : List POp),
    ((ops.foldl (Param.op S) (Param.new trace)).readPeak S).1 ≠ peakSpec S (samples trace (burninOf ops)) := by
  refine ⟨⟨fun l _ => l.headD 0, fun l _ => l.headD 0⟩, [[1, 2]], [.peak, .burnin 1], ?_⟩
  simp [Param.op, Param.readPeak, Param.new, Param.readMedian, Param.setBurnin, peakSpec, samples, burninOf, Param.flat]

/-! ### C80: re-ordering -/

/-- The trace a name should have: the column of its position among the free names, else the field of that name. -/
def traceOf (r : Emcee) (name : String) : Option (List (List ℝ)) :=
  if name ∈ r.free then some (column r.chain (r.free.idxOf name))
  else match r.consChain with
    | none => none
    | some c => if name ∈ r.cons then some (field c name) else none

theorem traceOf_save (r : Emcee) (name : String) : traceOf (saveResults r) name = traceOf r name := rfl

theorem traceOf_mk (f c : List String) (ch : Chain) (cc : Option (List (String × List (List ℝ)))) (l : List (List ℝ)) (b : ℕ) (res : List (String × Param))
    (name : String) : traceOf ⟨f, c, ch, cc, l, b, res⟩ name =
      if name ∈ f then some (column ch (f.idxOf name))
      else match cc with
        | none => none
        | some c' => if name ∈ c then some (field c' name) else none := rfl

theorem lookup_map_of_mem {β : Type} (l : List String) (f : String → β) (name : String) :
    (l.map fun n => (n, f n)).lookup name = if name ∈ l then some (f name) else none := by
  induction l with
  | nil => rfl
  | cons a t ih =>
    rw [List.map_cons, List.lookup_cons]
    by_cases h : name = a
    · subst h; simp
    · rw [beq_false_of_ne h]
      simp only [ih, List.mem_cons, h, false_or]

theorem lookup_mapIdx {β : Type} (l : List String) (f : ℕ → β) (name : String) :
    (l.mapIdx fun i n => (n, f i)).lookup name = if name ∈ l then some (f (l.idxOf name)) else none := by
  induction l generalizing f with
  | nil => rfl
  | cons a t ih =>
    rw [List.mapIdx_cons, List.lookup_cons]
    by_cases h : name = a
    · subst h; simp
    · rw [beq_false_of_ne h]
      simp only
      rw [ih fun i => f (i + 1)]
      simp only [List.mem_cons, h, false_or]
      rw [List.idxOf_cons_ne _ (Ne.symm h)]

theorem lookup_append {β : Type} (l1 l2 : List (String × β)) (name : String) : (l1 ++ l2).lookup name = (l1.lookup name).or (l2.lookup name) := by
  induction l1 with
  | nil => rfl
  | cons a t ih =>
    obtain ⟨k, v⟩ := a
    rw [List.cons_append, List.lookup_cons, List.lookup_cons]
    split
    · rfl
    · exact ih

theorem get_save (r : Emcee) (name : String) : (saveResults r).get name = (traceOf r name).map Param.new := by
  unfold Emcee.get saveResults traceOf
  simp only
  rw [lookup_append, lookup_mapIdx r.free (fun i => Param.new (column r.chain i))]
  by_cases hf : name ∈ r.free
  · rw [if_pos hf, if_pos hf]; rfl
  · rw [if_neg hf, if_neg hf]
    simp only [Option.none_or]
    cases r.consChain with
    | none => rfl
    | some c =>
      simp only
      rw [lookup_map_of_mem r.cons (fun n => Param.new (field c n))]
      split <;> rfl

/-- A result object in which every name gives its own trace. -/
def Good (r : Emcee) : Prop := ∀ name, (r.get name).map (·.trace) = traceOf r name

theorem good_save (r : Emcee) : Good (saveResults r) := by
  intro name
  rw [get_save, Option.map_map]
  have : ((fun p : Param => p.trace) ∘ Param.new) = id := rfl
  rw [this, Option.map_id]
  rfl

theorem good_burnin (r : Emcee) (h : Good r) (b : ℕ) : Good (r.setBurnin b) := by
  intro name
  have h1 := h name
  unfold Emcee.setBurnin
  simp only [Emcee.get] at h1 ⊢
  have : ∀ (l : List (String × Param)) (b : ℕ), ((l.map fun p => (p.1, p.2.setBurnin b)).lookup name).map (·.trace) = (l.lookup name).map (·.trace) := by
    intro l b
    induction l with
    | nil => rfl
    | cons a t ih =>
      obtain ⟨k, v⟩ := a
      rw [List.map_cons, List.lookup_cons, List.lookup_cons]
      by_cases h : name = k
      · subst h; simp [Param.setBurnin]
      · rw [beq_false_of_ne h]; exact ih
  rw [this, h1]
  rfl

theorem column_reorder (c : Chain) (old new : List String) (name : String) (hn : name ∈ new) :
    column (c.map (List.map fun row => new.map fun k => row.getD (old.idxOf k) 0)) (new.idxOf name) = column c (old.idxOf name) := by
  unfold column
  rw [List.map_map]
  refine List.map_congr_left fun w _ => ?_
  simp only [Function.comp, List.map_map]
  refine List.map_congr_left fun row _ => ?_
  have hlt : new.idxOf name < new.length := List.idxOf_lt_length_iff.2 hn
  simp only [Function.comp]
  rw [List.getD_eq_getElem?_getD, List.getElem?_map, List.getElem?_eq_getElem hlt, Option.map_some, Option.getD_some, List.getElem_idxOf hlt]

/-- C80 (traces): whatever the new order, looking up a free or constrained parameter by name gives the same trace before and after; names that are not
a permutation of the stored ones are refused. -/
theorem C80_emcee_partial (r : Emcee) (hr : Good r) (free cons : List String) :
    ((r.verify free cons).isSome ↔ r.free.Perm free ∧ r.cons.Perm cons) ∧
    (∀ r', r.verify free cons = some r' → Good r' ∧ r'.free = free ∧ r'.cons = cons ∧
      ∀ name, (r'.get name).map (·.trace) = (r.get name).map (·.trace)) := by
  unfold Emcee.verify
  by_cases h1 : r.free.Perm free
  · by_cases h2 : r.cons.Perm cons
    · simp only [h1, h2, not_true_eq_false, if_false]
      refine ⟨by simp only [and_self, iff_true]; split <;> rfl, fun r' hr' => ?_⟩
      by_cases hne : r.free ≠ free ∨ r.cons ≠ cons
      · rw [if_pos hne] at hr'
        cases hr'
        refine ⟨good_save _, rfl, rfl, fun name => ?_⟩
        rw [good_save _ name, hr name]
        rw [traceOf_save, traceOf_mk]
        unfold traceOf
        have hm : name ∈ free ↔ name ∈ r.free := h1.symm.mem_iff
        have hm2 : name ∈ cons ↔ name ∈ r.cons := h2.symm.mem_iff
        by_cases hf : name ∈ r.free
        · rw [if_pos (hm.2 hf), if_pos hf]
          by_cases he : r.free = free
          · simp [he]
          · simp only [ne_eq, he, not_false_eq_true, if_true]
            rw [column_reorder _ _ _ _ (hm.2 hf)]
        · rw [if_neg (fun h => hf (hm.1 h)), if_neg hf]
          cases r.consChain with
          | none => rfl
          | some c => simp only [hm2]
      · rw [if_neg hne] at hr'
        cases hr'
        rw [not_or, not_not, not_not] at hne
        exact ⟨hr, hne.1, hne.2, fun name => rfl⟩
    · simp [h1, h2]
  · simp [h1]

/-- C80, what is lost: when the order changes, every parameter forgets its burn-in (statistics include the burn-in phase again) although the object
still reports the old one. -/
theorem C80_burnin_forgotten (r r' : Emcee) (free cons : List String) (h : r.verify free cons = some r') (hne : r.free ≠ free ∨ r.cons ≠ cons) :
    r'.burnin = r.burnin ∧ ∀ name p, r'.get name = some p → p.burnin = 0 := by
  unfold Emcee.verify at h
  split at h
  · cases h
  split at h
  · cases h
  simp only [Option.some.injEq] at h
  subst h
  refine ⟨rfl, fun name p hp => ?_⟩
  rw [get_save] at hp
  obtain ⟨t, -, rfl⟩ := Option.map_eq_some_iff.1 hp
  rfl

/-- a result with two free and two constrained parameters, one walker, two iterations -/
def sample : Emcee :=
  (saveResults ⟨["a", "b"], ["c", "d"], [[[1, 2], [3, 4]]], some [("c", [[5, 6]]), ("d", [[7, 8]])], [[0, 1]], 0, []⟩).setBurnin 1

example : Good sample ∧ sample.burnin = 1 ∧ sample.free.Nodup := by
  refine ⟨good_burnin _ (good_save _) _, ?_, ?_⟩
  · simp [sample, Emcee.setBurnin, saveResults]
  · simp [sample, Emcee.setBurnin, saveResults]

/-- C80, violation (1): the burn-in of a re-ordered result. -/
theorem C80_burnin_counterexample : ∃ (r r' : Emcee) (p p' : Param), Good r ∧ r.verify ["b", "a"] ["c", "d"] = some r' ∧
    r.get "a" = some p ∧ r'.get "a" = some p' ∧ p.flat = [3] ∧ p'.flat = [1, 3] ∧ r'.burnin = 1 := by
  have hv : ∃ r', sample.verify ["b", "a"] ["c", "d"] = some r' := by
    have := (C80_emcee_partial sample (good_burnin _ (good_save _) _) ["b", "a"] ["c", "d"]).1
    apply Option.isSome_iff_exists.1
    rw [this]
    simp only [sample, Emcee.setBurnin, saveResults]
    exact ⟨List.Perm.swap _ _ _, List.Perm.refl _⟩
  obtain ⟨r', hr'⟩ := hv
  have hb := (C80_burnin_forgotten sample r' _ _ hr' (by left; simp [sample, Emcee.setBurnin, saveResults])).1
  have hg := (C80_emcee_partial sample (good_burnin _ (good_save _) _) ["b", "a"] ["c", "d"]).2 r' hr'
  have hs : sample.get "a" = some ((Param.new [[1, 3]]).setBurnin 1) := by
    simp [sample, Emcee.setBurnin, saveResults, Emcee.get, column]
  have ht := hg.2.2.2 "a"
  rw [hs] at ht
  cases hp' : r'.get "a" with
  | none => rw [hp'] at ht; cases ht
  | some p' =>
    rw [hp'] at ht
    simp only [Option.map_some, Option.some.injEq] at ht
    have hb' := (C80_burnin_forgotten sample r' _ _ hr' (by left; simp [sample, Emcee.setBurnin, saveResults])).2 "a" p' hp'
    refine ⟨sample, r', _, p', good_burnin _ (good_save _) _, hr', hs, hp', ?_, ?_, ?_⟩
    · simp [Param.flat, Param.setBurnin, Param.new]
    · rw [Param.flat, ht, hb']; simp [Param.setBurnin, Param.new]
    · rw [hb]; simp [sample, Emcee.setBurnin, saveResults]

/-- C80, violation (2): after the constrained parameters were re-ordered, the best-fit dictionary attaches their values to the wrong names. -/
theorem C80_maxlnprob_counterexample (A : ArgMax) (hA : A.pos [[0, 1]] = (0, 1)) : ∃ r' : Emcee, sample.verify ["a", "b"] ["d", "c"] = some r' ∧
    sample.maxConsDict A = [("c", 6), ("d", 8)] ∧ r'.maxConsDict A = [("d", 6), ("c", 8)] := by
  have hp : sample.cons.Perm ["d", "c"] := by simp only [sample, Emcee.setBurnin, saveResults]; exact List.Perm.swap _ _ _
  refine ⟨saveResults { sample with free := ["a", "b"], cons := ["d", "c"] }, ?_, ?_, ?_⟩
  · unfold Emcee.verify
    have hfree : sample.free = ["a", "b"] := by simp [sample, Emcee.setBurnin, saveResults]
    have hcons : sample.cons ≠ ["d", "c"] := by simp [sample, Emcee.setBurnin, saveResults]
    rw [if_neg (by rw [hfree]; simp), if_neg (not_not.2 hp)]
    simp only [hfree, ne_eq, not_true_eq_false, if_false, false_or]
    rw [if_pos hcons]
  · simp [Emcee.maxConsDict, Emcee.maxCons, sample, Emcee.setBurnin, saveResults, hA]
  · simp [Emcee.maxConsDict, Emcee.maxCons, sample, Emcee.setBurnin, saveResults, hA]

/-- C80 (LBFGS, free parameters): values stay attached to the names of the free parameters; constrained values do iff the order of the constrained
names is unchanged or the values do not depend on it (the array is not permuted). -/
theorem C80_lbfgs_partial (r r' : Lbfgs) (free cons : List String) (h : r.verify free cons = some r')
    (hlen : r.values.length = r.free.length) (hdisj : ∀ x ∈ r.cons, x ∉ r.free) :
    (∀ name ∈ r.free, r'.get name = r.get name) ∧
    (∀ name ∈ r.cons, r.get name = r.consValues[r.cons.idxOf name]? ∧ r'.get name = r.consValues[cons.idxOf name]?) := by
  unfold Lbfgs.verify at h
  split at h
  · cases h
  rename_i h1
  rw [not_not] at h1
  split at h
  · cases h
  rename_i h2
  rw [not_not] at h2
  simp only [Option.some.injEq] at h
  subst h
  refine ⟨fun name hn => ?_, fun name hn => ⟨?_, ?_⟩⟩
  · unfold Lbfgs.get
    simp only
    have hn' : name ∈ free := h1.mem_iff.1 hn
    rw [if_pos hn', if_pos hn]
    by_cases he : r.free = free
    · simp [he]
    · simp only [ne_eq, he, not_false_eq_true, if_true]
      have hlt : free.idxOf name < free.length := List.idxOf_lt_length_iff.2 hn'
      have hlt2 : r.free.idxOf name < r.values.length := by rw [hlen]; exact List.idxOf_lt_length_iff.2 hn
      rw [List.getElem?_map, List.getElem?_eq_getElem hlt, Option.map_some, List.getElem_idxOf hlt, List.getD_eq_getElem?_getD,
        List.getElem?_eq_getElem hlt2, Option.getD_some]
  · unfold Lbfgs.get
    rw [if_neg (hdisj name hn), if_pos hn]
  · unfold Lbfgs.get
    simp only
    rw [if_neg (fun hf => hdisj name hn (h1.mem_iff.2 hf)), if_pos (h2.mem_iff.1 hn)]

/-- C80, violation (3): re-ordering the constrained parameters of an LBFGS result swaps their values. -/
theorem C80_lbfgs_counterexample : ∃ r r' : Lbfgs, r.verify ["a"] ["d", "c"] = some r' ∧ r.get "c" = some 1 ∧ r'.get "c" = some 2 := by
  refine ⟨⟨["a"], ["c", "d"], [0], [1, 2]⟩, ⟨["a"], ["d", "c"], [0], [1, 2]⟩, ?_, ?_, ?_⟩
  · unfold Lbfgs.verify
    rw [if_neg (by simp), if_neg (not_not.2 (List.Perm.swap _ _ _))]
    simp
  · simp [Lbfgs.get]
  · simp [Lbfgs.get]

/-! ### C73: restarting -/

/-- C73: a restarted run starts from the last positions and log-probabilities of every walker and asks for exactly the further iterations. -/
theorem C73_request (old : Emcee) (further : ℕ) :
    restartRequest old further = (old.chain.map (fun w => w.getLast?.getD []), old.lnprobs.map (fun l => l.getLast?.getD 0), (further : ℤ)) := by
  simp [restartRequest]

theorem column_append (a b : Chain) (i : ℕ) : column (List.zipWith (· ++ ·) a b) i = List.zipWith (· ++ ·) (column a i) (column b i) := by
  unfold column
  rw [List.map_zipWith, List.zipWith_map]
  congr 1
  funext x y
  rw [List.map_append]

theorem lookup_zip {β : Type} (l : List (String × β)) (f : String × β → β) (name : String) :
    (l.map fun p => (p.1, f p)).lookup name = (l.lookup name).map fun v => f (name, v) := by
  induction l with
  | nil => rfl
  | cons a t ih =>
    obtain ⟨k, v⟩ := a
    rw [List.map_cons, List.lookup_cons, List.lookup_cons]
    by_cases h : name = k
    · subst h; simp
    · rw [beq_false_of_ne h]; exact ih

/-- C73: adding the new run to the old one gives, for every parameter by name and whatever the order of the names in the new run, the old trace
followed by the new one, walker by walker; the chain and the log-probabilities likewise. -/
theorem C73_append_partial (a b r : Emcee) (hb : Good b) (h : a.add b = .ok r)
    (hdt : ∀ ca, a.consChain = some ca → ∀ name ∈ a.cons, (ca.lookup name).isSome) :
    Good r ∧ r.free = a.free ∧ r.cons = a.cons ∧ r.lnprobs = List.zipWith (· ++ ·) a.lnprobs b.lnprobs ∧
    a.chain.length = b.chain.length ∧ r.chain.length = a.chain.length ∧
    (∀ w (hw : w < r.chain.length) (ha : w < a.chain.length), a.chain[w] <+: r.chain[w]) ∧
    (∀ name ∈ a.free ++ a.cons, (r.get name).map (·.trace) =
      some (List.zipWith (· ++ ·) ((traceOf a name).getD []) (((b.get name).map (·.trace)).getD []))) := by
  unfold Emcee.add at h
  split at h
  · cases h
  rename_i hl
  rw [not_not] at hl
  cases hv : b.verify a.free a.cons with
  | none => rw [hv] at h; cases h
  | some b' =>
    rw [hv] at h
    dsimp only at h
    obtain ⟨hgb, hbf, hbc, htr⟩ := (C80_emcee_partial b hb a.free a.cons).2 b' hv
    have hlp : b'.lnprobs = b.lnprobs := by
      unfold Emcee.verify at hv
      split at hv
      · cases hv
      split at hv
      · cases hv
      simp only at hv
      split at hv
      · cases hv; rfl
      · cases hv; rfl
    have hlen : b'.chain.length = b.chain.length := by
      unfold Emcee.verify at hv
      split at hv
      · cases hv
      split at hv
      · cases hv
      simp only at hv
      split at hv
      · cases hv
        simp only [saveResults]
        split <;> simp
      · cases hv; rfl
    cases hca : a.consChain with
    | none => rw [hca] at h; cases h
    | some ca =>
      cases hcb : b'.consChain with
      | none => rw [hca, hcb] at h; cases h
      | some cb =>
        rw [hca, hcb] at h
        simp only [Except.ok.injEq] at h
        subst h
        refine ⟨good_save _, rfl, rfl, by simp only [saveResults]; rw [hlp], hl, ?_, ?_, ?_⟩
        · simp only [saveResults, List.length_zipWith]; omega
        · intro w hw ha
          simp only [saveResults, List.getElem_zipWith]
          exact List.prefix_append _ _
        · intro name hn
          rw [good_save _ name, ← htr name, hgb name]
          rw [traceOf_save, traceOf_mk]
          unfold traceOf
          simp only [hbf, hbc, hca, hcb]
          by_cases hf : name ∈ a.free
          · rw [if_pos hf, if_pos hf, if_pos hf, column_append]; rfl
          · rw [if_neg hf, if_neg hf, if_neg hf]
            have hc : name ∈ a.cons := (List.mem_append.1 hn).resolve_left hf
            simp only [if_pos hc, Option.getD_some, Option.some.injEq]
            obtain ⟨v, hv2⟩ := Option.isSome_iff_exists.1 (hdt ca hca name hc)
            simp only [field]
            rw [lookup_zip ca (fun f => List.zipWith (· ++ ·) f.2 ((cb.lookup f.1).getD [])) name, hv2]
            rfl

/-- C73, violation (1): when the model has no constrained parameters the old and the new chain cannot be put together: the run fails after sampling. -/
theorem C73_no_constrained_counterexample (a b : Emcee) (ha : a.consChain = none) : ∀ r, a.add b ≠ .ok r := by
  intro r h
  unfold Emcee.add at h
  split at h
  · cases h
  · split at h
    · cases h
    · rw [ha] at h; cases h

/-- C73, violation (2): the combined result reports the burn-in of the old run but its statistics do not remove it. -/
theorem C73_burnin_counterexample (a b r : Emcee) (h : a.add b = .ok r) : r.burnin = a.burnin ∧ ∀ name p, r.get name = some p → p.burnin = 0 := by
  unfold Emcee.add at h
  split at h
  · cases h
  · split at h
    · cases h
    · split at h
      · cases h
        refine ⟨rfl, fun name p hp => ?_⟩
        rw [get_save] at hp
        obtain ⟨t, -, rfl⟩ := Option.map_eq_some_iff.1 hp
        rfl
      · cases h

/-- the sample result can be added to itself -/
example : ∃ r, sample.add sample = .ok r := by
  unfold Emcee.add
  rw [if_neg (by simp)]
  have hv : sample.verify sample.free sample.cons = some sample := by
    unfold Emcee.verify
    rw [if_neg (by simp), if_neg (by simp)]
    simp
  rw [hv]
  have : ∃ c, sample.consChain = some c := ⟨_, rfl⟩
  obtain ⟨c, hc⟩ := this
  simp only [hc]
  exact ⟨_, rfl⟩

/-! ### C82 -/

theorem chunks_flatten {α : Type} (k : ℕ) (L : List (List α)) (h : ∀ l ∈ L, l.length = k) : chunks L.length k L.flatten = L := by
  unfold chunks
  induction L with
  | nil => rfl
  | cons a t ih =>
    have ha : a.length = k := h a (by simp)
    rw [List.length_cons, List.range_succ_eq_map, List.map_cons, List.map_map]
    congr 1
    · simp [ha]
    · refine Eq.trans ?_ (ih fun l hl => h l (by simp [hl]))
      refine List.map_congr_left fun i _ => ?_
      simp only [Function.comp, List.flatten_cons, Nat.succ_eq_add_one]
      rw [List.drop_append, List.drop_of_length_le (by rw [ha]; nlinarith), List.nil_append]
      congr 2
      rw [ha]
      have : (i + 1) * k = i * k + k := by ring
      omega

/-- The array of a sampler that was asked for more iterations than were done: the rest is zero. -/
def padded (rest ndim : ℕ) (c : Chain) : Chain := c.map fun w => w ++ List.replicate rest (List.replicate ndim 0)

/-- C82 (partial): if no sampled value is exactly zero, the chain recovered is the sampled one, in order, whatever was left unfilled (also nothing). -/
theorem C82_partial (m ndim rest : ℕ) (hd : 0 < ndim) (c : Chain) (hc : c ≠ []) (hm : ∀ w ∈ c, w.length = m) (hn : ∀ w ∈ c, ∀ row ∈ w, row.length = ndim)
    (hz : ∀ w ∈ c, ∀ row ∈ w, ∀ x ∈ row, x ≠ 0) : nonzeroChain ndim (padded rest ndim c) = some c := by
  classical
  have hflat : (padded rest ndim c).flatten.flatten.filter (fun x => decide (x ≠ 0)) = (c.map List.flatten).flatten := by
    unfold padded
    clear hc
    induction c with
    | nil => rfl
    | cons w t ih =>
      rw [List.map_cons, List.flatten_cons, List.flatten_append, List.filter_append, List.flatten_append, List.filter_append]
      rw [ih (fun w hw => hm w (by simp [hw])) (fun w hw => hn w (by simp [hw])) (fun w hw => hz w (by simp [hw]))]
      rw [List.map_cons, List.flatten_cons]
      congr 1
      rw [List.filter_eq_self.2, List.filter_eq_nil_iff.2]
      · simp
      · intro x hx
        obtain ⟨l, hl, hx⟩ := List.mem_flatten.1 hx
        have := List.eq_of_mem_replicate hl
        subst this
        simp [List.eq_of_mem_replicate hx]
      · intro x hx
        obtain ⟨row, hrow, hx⟩ := List.mem_flatten.1 hx
        simpa using hz w (by simp) row hrow x hx
  have hwl : ∀ l ∈ c.map List.flatten, l.length = m * ndim := by
    intro l hl
    obtain ⟨w, hw, rfl⟩ := List.mem_map.1 hl
    rw [List.length_flatten]
    have : w.map List.length = List.replicate m ndim := by
      rw [List.eq_replicate_iff]
      refine ⟨by simp [hm w hw], fun b hb => ?_⟩
      obtain ⟨row, hr, rfl⟩ := List.mem_map.1 hb
      exact hn w hw row hr
    rw [this]; simp
  have hlen : (c.map List.flatten).flatten.length = c.length * (m * ndim) := by
    rw [List.length_flatten]
    have : (c.map List.flatten).map List.length = List.replicate c.length (m * ndim) := by
      rw [List.eq_replicate_iff]
      refine ⟨by simp, fun b hb => ?_⟩
      obtain ⟨l, hl, rfl⟩ := List.mem_map.1 hb
      exact hwl l hl
    rw [this]; simp
  have hcl : 0 < c.length := List.length_pos_iff.2 hc
  have hpl : (padded rest ndim c).length = c.length := by simp [padded]
  have hpos : 0 < c.length * ndim := Nat.mul_pos hcl hd
  have e1 : c.length * (m * ndim) = m * (c.length * ndim) := by ring
  unfold nonzeroChain
  simp only
  have hflat' := hflat
  rw [hpl]
  have hfl : List.filter (fun x => decide (x ≠ 0)) (padded rest ndim c).flatten.flatten = (c.map List.flatten).flatten := hflat'
  have hconv : ∀ inst : DecidablePred fun x : ℝ => x ≠ 0, List.filter (fun x => @decide (x ≠ 0) (inst x)) (padded rest ndim c).flatten.flatten = (c.map List.flatten).flatten := by
    intro inst
    rw [← hfl]
    congr 1
    funext x
    congr
  rw [hconv, hlen, e1, if_neg (by rw [Nat.mul_mod_left]; omega), Nat.mul_div_cancel _ hpos]
  congr 1
  have := chunks_flatten (m * ndim) (c.map List.flatten) hwl
  rw [List.length_map] at this
  rw [this, List.map_map]
  conv_rhs => rw [← List.map_id c]
  refine List.map_congr_left fun w hw => ?_
  simp only [Function.comp, id]
  rw [← hm w hw]
  exact chunks_flatten ndim w (hn w hw)

/-- C82, violation: samples that are exactly zero are dropped; the rest is then refused, or silently re-assembled into rows that were never sampled
(here two iterations `(0, 1)` and `(2, 0)` of two parameters become one iteration `(1, 2)`). -/
theorem C82_zero_counterexample : nonzeroChain 2 [[[0, 1], [2, 0]]] = some [[[1, 2]]] ∧ nonzeroChain 2 [[[0, 1], [2, 3]]] = none := by
  constructor
  · simp [nonzeroChain, chunks]
  · simp [nonzeroChain]

example : ∀ w ∈ ([[[1, 2], [3, 4]]] : Chain), ∀ row ∈ w, ∀ x ∈ row, x ≠ 0 := by
  intro w hw row hr x hx
  simp only [List.mem_singleton] at hw
  subst hw
  simp only [List.mem_cons, List.not_mem_nil, or_false] at hr
  rcases hr with rfl | rfl <;> simp at hx <;> rcases hx with rfl | rfl <;> norm_num

end

end Verif.Results
