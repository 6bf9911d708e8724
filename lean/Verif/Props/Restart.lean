/-
C73: restarted runs from beginning to end.
-/
import Verif.Model.Restart
import Verif.Props.Results
import Verif.Props.Solvers

namespace Verif.Restart

open Verif.Results Verif.Solvers

noncomputable section

/-- The array of log-probabilities of a sampler asked for more iterations than were done. -/
def paddedRows (rest : ℕ) (l : List (List ℝ)) : List (List ℝ) := l.map fun w => w ++ List.replicate rest 0

/-- The arrays left by a sampler that was asked for `n` iterations and did `m` of them: chain `c`, log-probabilities `l`, the rest zero. No sampled
value is exactly zero (see C82). -/
structure Sampled (ndim walkers n m : ℕ) (arrays : Chain × List (List ℝ)) (c : Chain) (l : List (List ℝ)) : Prop where
  le : m ≤ n
  chain : arrays.1 = padded (n - m) ndim c
  lnprob : arrays.2 = paddedRows (n - m) l
  nw : c.length = walkers
  nw' : l.length = walkers
  rows : ∀ w ∈ c, w.length = m
  rows' : ∀ w ∈ l, w.length = m
  cols : ∀ w ∈ c, ∀ row ∈ w, row.length = ndim
  nz : ∀ w ∈ c, ∀ row ∈ w, ∀ x ∈ row, x ≠ 0
  nz' : ∀ w ∈ l, ∀ x ∈ w, x ≠ 0

theorem nonzeroRows_padded (m rest : ℕ) (l : List (List ℝ)) (hl : l ≠ []) (hm : ∀ w ∈ l, w.length = m) (hz : ∀ w ∈ l, ∀ x ∈ w, x ≠ 0) :
    nonzeroRows (paddedRows rest l) = some l := by
  have hconv : ∀ inst : DecidablePred fun x : ℝ => x ≠ 0, List.filter (fun x => @decide (x ≠ 0) (inst x)) (paddedRows rest l).flatten = l.flatten := by
    intro inst
    unfold paddedRows
    clear hl
    induction l with
    | nil => rfl
    | cons w t ih =>
      rw [List.map_cons, List.flatten_cons, List.filter_append, ih (fun w hw => hm w (by simp [hw])) (fun w hw => hz w (by simp [hw])),
        List.flatten_cons, List.filter_append]
      congr 1
      rw [List.filter_eq_self.2, List.filter_eq_nil_iff.2]
      · simp
      · intro x hx
        simp [List.eq_of_mem_replicate hx]
      · intro x hx
        simpa using hz w (by simp) x hx
  have hlen : l.flatten.length = l.length * m := by
    rw [List.length_flatten]
    have : l.map List.length = List.replicate l.length m := by
      rw [List.eq_replicate_iff]
      refine ⟨by simp, fun b hb => ?_⟩
      obtain ⟨w, hw, rfl⟩ := List.mem_map.1 hb
      exact hm w hw
    rw [this]; simp
  have hpos : 0 < l.length := List.length_pos_iff.2 hl
  have hpl : (paddedRows rest l).length = l.length := by simp [paddedRows]
  unfold nonzeroRows
  simp only
  rw [hpl, hconv, hlen, if_neg (by rw [Nat.mul_mod_right]; omega), Nat.mul_div_cancel_left _ hpos, chunks_flatten m l hm]

/-- What the new part contributes to the trace of a parameter: the column of a free parameter, the derived values of a constrained one. -/
def newTrace (free : List String) (derive : List ℝ → String → ℝ) (c : Chain) (name : String) : List (List ℝ) :=
  if name ∈ free then column c (free.idxOf name) else c.map (List.map fun row => derive row name)

theorem newResults_eq (free cons : List String) (derive : List ℝ → String → ℝ) {walkers n m : ℕ} {arrays : Chain × List (List ℝ)} {c : Chain}
    {l : List (List ℝ)} (hf : free ≠ []) (hw : walkers ≠ 0) (hc : cons ≠ []) (h : Sampled free.length walkers n m arrays c l) :
    ∃ r, newResults free cons derive arrays 0 = some r ∧ Good r ∧ r.free = free ∧ r.cons = cons ∧ r.chain = c ∧ r.lnprobs = l ∧
      r.consChain.isSome ∧ ∀ name ∈ free ++ cons, traceOf r name = some (newTrace free derive c name) := by
  have h1 : nonzeroChain free.length arrays.1 = some c := by
    rw [h.chain]
    exact C82_partial m free.length (n - m) (List.length_pos_iff.2 hf) c (by rintro rfl; exact hw h.nw.symm) h.rows h.cols h.nz
  have h2 : nonzeroRows arrays.2 = some l := by
    rw [h.lnprob]
    exact nonzeroRows_padded m (n - m) l (by rintro rfl; exact hw h.nw'.symm) h.rows' h.nz'
  refine ⟨_, by unfold newResults; rw [h1, h2], good_burnin _ (good_save _) _, rfl, rfl, rfl, rfl, ?_, fun name hn => ?_⟩
  · simp only [Emcee.setBurnin, saveResults, if_neg hc, Option.isSome_some]
  · refine (traceOf_mk free cons c _ l _ _ name).trans ?_
    unfold newTrace
    by_cases hfr : name ∈ free
    · rw [if_pos hfr, if_pos hfr]
    · rw [if_neg hfr, if_neg hfr]
      have hcn : name ∈ cons := (List.mem_append.1 hn).resolve_left hfr
      simp only [saveResults, if_neg hc, if_pos hcn, field]
      rw [lookup_map_of_mem cons (fun name => c.map (List.map fun row => derive row name)), if_pos hcn]
      rfl

/-- A stored result that can be continued: every name gives its own trace, there is a constrained chain with all constrained names. -/
structure Usable (r : Emcee) : Prop where
  good : Good r
  cons : ∃ cc, r.consChain = some cc ∧ ∀ name ∈ r.cons, (cc.lookup name).isSome

/-- The last row of every walker, in the order `free`. -/
def lastPositions (old : Emcee) (free : List String) : List (List ℝ) :=
  old.chain.map fun w => (w.getLast?.map fun row => free.map fun k => row.getD (old.free.idxOf k) 0).getD []

theorem verify_keeps {r r' : Emcee} {free cons : List String} (h : r.verify free cons = some r') :
    r'.lnprobs = r.lnprobs ∧ r'.consChain = r.consChain ∧ r'.chain.length = r.chain.length ∧
    (r'.chain = if r.free ≠ free then r.chain.map (List.map fun row => free.map fun k => row.getD (r.free.idxOf k) 0) else r.chain) := by
  unfold Emcee.verify at h
  split at h
  · cases h
  split at h
  · cases h
  simp only at h
  split at h
  · cases h
    simp only [saveResults, true_and, and_true]
    split <;> simp
  · rename_i hn
    cases h
    rw [not_or, not_not] at hn
    simp [hn.1]

/-- Rows have one value per free parameter. -/
def Shaped (r : Emcee) : Prop := ∀ w ∈ r.chain, ∀ row ∈ w, row.length = r.free.length

theorem getD_map_idxOf (free : List String) (hnd : free.Nodup) (row : List ℝ) (hl : row.length = free.length) :
    (free.map fun k => row.getD (free.idxOf k) 0) = row := by
  apply List.ext_getElem (by simp [hl])
  intro i h1 h2
  rw [List.getElem_map, hnd.idxOf_getElem]
  simp [List.getD_eq_getElem?_getD, h2]

theorem verify_chain {r r' : Emcee} {free cons : List String} (hs : Shaped r) (hnd : r.free.Nodup) (h : r.verify free cons = some r') :
    r'.chain = r.chain.map (List.map fun row => free.map fun k => row.getD (r.free.idxOf k) 0) := by
  rw [(verify_keeps h).2.2.2]
  by_cases he : r.free = free
  · rw [if_neg (not_not.2 he), ← he]
    conv_lhs => rw [← List.map_id r.chain]
    refine List.map_congr_left fun w hw => ?_
    conv_lhs => rw [id, ← List.map_id w]
    refine List.map_congr_left fun row hrow => ?_
    rw [getD_map_idxOf r.free hnd row (hs w hw row hrow)]; rfl
  · rw [if_pos he]

/-- C73 (partial: constrained parameters must exist and no sample be exactly zero): a restart asks the sampler to start at the last position of every
walker (values attached to the right names) with the last log-probabilities and for exactly the further iterations; the result is, for every parameter by
name, the old trace followed by the newly sampled one, and the same for the log-probabilities, whether or not the sampler completed. -/
theorem C73_restart_partial (S : Sampler) (derive : List ℝ → String → ℝ) (free cons : List String) (old : Emcee) (further m : ℕ) (c : Chain) (l : List (List ℝ))
    (hold : Usable old) (hs : Shaped old) (hnd : old.free.Nodup) (hp : old.free.Perm free) (hpc : old.cons.Perm cons) (hf : free ≠ []) (hc : cons ≠ []) (hw : old.chain ≠ [])
    (hadm : Admissible old.chain.length free.length)
    (hS : Sampled free.length old.chain.length further m
      (S (lastPositions old free) (old.lnprobs.map fun l => l.getLast?.getD 0) further) c l) :
    ∃ r, restart S derive free cons old further = .ok r ∧ Usable r ∧ Shaped r ∧ r.free = free ∧ r.cons = cons ∧
      r.chain.length = old.chain.length ∧ r.lnprobs = List.zipWith (· ++ ·) old.lnprobs l ∧
      r.chain = List.zipWith (· ++ ·) (old.chain.map (List.map fun row => free.map fun k => row.getD (old.free.idxOf k) 0)) c ∧
      ∀ name ∈ free ++ cons, (r.get name).map (·.trace) =
        some (List.zipWith (· ++ ·) (((old.get name).map (·.trace)).getD []) (newTrace free derive c name)) := by
  obtain ⟨hv1, hv2⟩ := C80_emcee_partial old hold.good free cons
  obtain ⟨old', hold'⟩ := Option.isSome_iff_exists.1 (hv1.2 ⟨hp, hpc⟩)
  obtain ⟨hg', hf', hc', htr⟩ := hv2 old' hold'
  obtain ⟨k1, k2, k3, -⟩ := verify_keeps hold'
  have hch := verify_chain hs hnd hold'
  obtain ⟨new, hn1, hn2, hn3, hn4, hn5, hn6, hn7, hn8⟩ := newResults_eq free cons derive hf (fun h => hw (List.length_eq_zero_iff.1 h)) hc hS
  obtain ⟨cc, hcc, hall⟩ := hold.cons
  have hreq : restartRequest old' further = (lastPositions old free, old.lnprobs.map (fun l => l.getLast?.getD 0), (further : ℤ)) := by
    rw [C73_request, k1, hch]
    simp only [lastPositions, List.map_map, Prod.mk.injEq, and_true]
    refine List.map_congr_left fun w _ => ?_
    simp only [Function.comp, List.getLast?_map]
  have hadd : ∃ r, old'.add new = .ok r := by
    unfold Emcee.add
    rw [if_neg (by rw [k3, hn5, hS.nw, not_not])]
    have : new.verify old'.free old'.cons = some new := by
      unfold Emcee.verify
      rw [hn3, hn4, hf', hc']
      simp
    rw [this]
    obtain ⟨nc, hnc⟩ := Option.isSome_iff_exists.1 hn7
    simp only [k2, hcc, hnc]
    exact ⟨_, rfl⟩
  obtain ⟨r, hr⟩ := hadd
  have hallr : ∀ ca, old'.consChain = some ca → ∀ name ∈ old'.cons, (ca.lookup name).isSome := by
    intro ca hca name hname
    rw [k2, hcc] at hca
    cases hca
    rw [hc'] at hname
    exact hall name (hpc.mem_iff.2 hname)
  obtain ⟨a1, a2, a3, a4, a5, a6, a7, a8⟩ := C73_append_partial old' new r hn2 hr hallr
  have hrch : r.chain = List.zipWith (· ++ ·) old'.chain new.chain ∧ ∃ ca, r.consChain = some ca ∧ ∀ name ∈ r.cons, (ca.lookup name).isSome := by
    have hv : new.verify old'.free old'.cons = some new := by
      unfold Emcee.verify
      rw [hn3, hn4, hf', hc']
      simp
    unfold Emcee.add at hr
    split at hr
    · cases hr
    rw [hv] at hr
    obtain ⟨nc, hnc⟩ := Option.isSome_iff_exists.1 hn7
    have hoc : old'.consChain = some cc := k2.trans hcc
    simp only [hoc, hnc] at hr
    cases hr
    refine ⟨rfl, _, rfl, fun name hname => ?_⟩
    rw [lookup_zip cc (fun f => List.zipWith (· ++ ·) f.2 (field nc f.1)), Option.isSome_map]
    exact hallr cc hoc name hname
  refine ⟨r, ?_, ⟨a1, hrch.2⟩, ?_, a2.trans hf', a3.trans hc', a6.trans k3, ?_, ?_, ?_⟩
  · unfold restart
    rw [hold']
    simp only
    have hwk : nWalkers (old'.chain.length : ℤ) (free.length : ℤ) = (old'.chain.length : ℤ) := by
      rw [k3]; exact (C72_walkers _ _).2.2.2 hadm
    rw [if_neg (not_not.2 hwk), hreq]
    simp only [hn1, hr]
  · intro w hw row hrow
    rw [a2, hf']
    rw [hrch.1, hn5, hch] at hw
    obtain ⟨i, hi, rfl⟩ := List.getElem_of_mem hw
    rw [List.getElem_zipWith] at hrow
    rcases List.mem_append.1 hrow with hrow | hrow
    · rw [List.getElem_map] at hrow
      obtain ⟨row', -, rfl⟩ := List.mem_map.1 hrow
      simp
    · exact hS.cols _ (List.getElem_mem _) row hrow
  · rw [a4, k1, hn6]
  · rw [hrch.1, hn5, hch]
  · intro name hname
    rw [a8 name (by rw [hf', hc']; exact hname), ← htr name, hg' name, hn2 name, hn8 name hname]
    rfl

/-- Restarting again and again with the given numbers of further iterations. -/
def restarts (S : Sampler) (derive : List ℝ → String → ℝ) (free cons : List String) : Emcee → List ℕ → Except Err Emcee
  | old, [] => .ok old
  | old, n :: t =>
    match restart S derive free cons old n with
    | .error e => .error e
    | .ok r => restarts S derive free cons r t

/-- The sampler always completes the iterations asked for. -/
def Completes (ndim : ℕ) (S : Sampler) : Prop :=
  ∀ (p0 : List (List ℝ)) (lp : List ℝ) (n : ℕ), ∃ c l, Sampled ndim p0.length n n (S p0 lp n) c l

/-- C73, any number of restarts: no restart is refused, the stored chain is always extended, never changed, and its length is the sum of all iterations
asked for. -/
theorem C73_restarts_partial (S : Sampler) (derive : List ℝ → String → ℝ) (free cons : List String) (old : Emcee) (ns : List ℕ) (k : ℕ)
    (hold : Usable old) (hs : Shaped old) (hnd : old.free.Nodup) (hp : old.free = free) (hpc : old.cons = cons) (hf : free ≠ []) (hc : cons ≠ []) (hw : old.chain ≠ [])
    (hadm : Admissible old.chain.length free.length) (hS : Completes free.length S) (hk : ∀ w ∈ old.chain, w.length = k) :
    ∃ r, restarts S derive free cons old ns = .ok r ∧ r.free = free ∧ r.cons = cons ∧ r.chain.length = old.chain.length ∧
      (∀ w ∈ r.chain, w.length = k + ns.sum) ∧
      ∀ i (h : i < old.chain.length) (h' : i < r.chain.length), old.chain[i] <+: r.chain[i] := by
  induction ns generalizing old k with
  | nil => exact ⟨old, rfl, hp, hpc, rfl, by simpa using hk, fun i h h' => List.prefix_rfl⟩
  | cons n t ih =>
    obtain ⟨c, l, hcl⟩ := hS (lastPositions old free) (old.lnprobs.map fun l => l.getLast?.getD 0) n
    have hlen : (lastPositions old free).length = old.chain.length := by simp [lastPositions]
    rw [hlen] at hcl
    obtain ⟨r1, e1, u1, s1, f1, c1, len1, -, ch1, -⟩ := C73_restart_partial S derive free cons old n n c l hold hs hnd (hp ▸ List.Perm.refl _)
      (hpc ▸ List.Perm.refl _) hf hc hw hadm hcl
    have hid : (old.chain.map (List.map fun row => free.map fun k => row.getD (old.free.idxOf k) 0)) = old.chain := by
      conv_rhs => rw [← List.map_id old.chain]
      refine List.map_congr_left fun w hw => ?_
      conv_rhs => rw [id, ← List.map_id w]
      refine List.map_congr_left fun row hrow => ?_
      rw [hp]
      have := hs w hw row hrow
      rw [hp] at this hnd
      rw [getD_map_idxOf free hnd row this]; rfl
    rw [hid] at ch1
    have hk1 : ∀ w ∈ r1.chain, w.length = k + n := by
      intro w hw
      rw [ch1] at hw
      obtain ⟨i, hi, rfl⟩ := List.getElem_of_mem hw
      rw [List.getElem_zipWith, List.length_append, hk _ (List.getElem_mem _), hcl.rows _ (List.getElem_mem _)]
    obtain ⟨r, e, f, cr, len, hl, hpre⟩ := ih r1 (k + n) u1 s1 (by rw [f1, ← hp]; exact hnd) f1 c1 (by
      intro h0; apply hw; rw [← List.length_eq_zero_iff, ← len1, h0]; rfl) (by rw [len1]; exact hadm) hk1
    refine ⟨r, ?_, f, cr, len.trans len1, ?_, ?_⟩
    · rw [restarts, e1]; exact e
    · intro w hw
      rw [hl w hw, List.sum_cons]; omega
    · intro i h h'
      have hi1 : i < r1.chain.length := by omega
      refine List.IsPrefix.trans ?_ (hpre i hi1 h')
      simp only [ch1, List.getElem_zipWith]
      exact List.prefix_append _ _

/-- C73, violation (3): a model without constrained parameters cannot be restarted: the run fails after sampling (and what was sampled is lost). -/
theorem C73_restart_counterexample (S : Sampler) (derive : List ℝ → String → ℝ) (free : List String) (old : Emcee) (further : ℕ) (h : old.consChain = none) :
    ∀ r, restart S derive free [] old further ≠ .ok r := by
  intro r hr
  unfold restart at hr
  split at hr
  · cases hr
  · rename_i old' ho
    split at hr
    · cases hr
    · simp only at hr
      split at hr
      · cases hr
      · split at hr
        · cases hr
        · rename_i hadd
          exact C73_no_constrained_counterexample _ _ ((verify_keeps ho).2.1.trans h) _ hadd

/-- a sampler that always completes: every walker stays at 1 -/
def onesSampler (ndim : ℕ) : Sampler := fun p0 _ n =>
  (List.replicate p0.length (List.replicate n.toNat (List.replicate ndim 1)), List.replicate p0.length (List.replicate n.toNat (-1)))

example (ndim : ℕ) : Completes ndim (onesSampler ndim) := by
  intro p0 lp n
  refine ⟨_, _, le_rfl, by simp [onesSampler, padded], by simp [onesSampler, paddedRows], List.length_replicate (a := List.replicate n (List.replicate ndim (1 : ℝ))),
    List.length_replicate (a := List.replicate n (-1 : ℝ)), ?_, ?_, ?_, ?_, ?_⟩
  · intro w hw; rw [List.eq_of_mem_replicate hw]; simp
  · intro w hw; rw [List.eq_of_mem_replicate hw]; simp
  · intro w hw row hr; rw [List.eq_of_mem_replicate hw] at hr; rw [List.eq_of_mem_replicate hr]; simp
  · intro w hw row hr x hx; rw [List.eq_of_mem_replicate hw] at hr; rw [List.eq_of_mem_replicate hr] at hx; rw [List.eq_of_mem_replicate hx]; norm_num
  · intro w hw x hx; rw [List.eq_of_mem_replicate hw] at hx; rw [List.eq_of_mem_replicate hx]; norm_num

/-- four walkers, two free parameters and a constrained one: all the hypotheses hold -/
example : let old := saveResults ⟨["a", "b"], ["c"], List.replicate 4 [[1, 2]], some [("c", List.replicate 4 [3])], List.replicate 4 [-1], 0, []⟩
    Usable old ∧ Shaped old ∧ old.free.Nodup ∧ old.chain ≠ [] ∧ Admissible old.chain.length old.free.length ∧ ∀ w ∈ old.chain, w.length = 1 := by
  refine ⟨⟨good_save _, _, rfl, ?_⟩, ?_, ?_, ?_, ?_, ?_⟩
  · intro name hn
    simp only [saveResults, List.mem_singleton] at hn
    subst hn
    simp
  · intro w hw row hr
    simp only [saveResults] at hw ⊢
    rw [List.eq_of_mem_replicate hw, List.mem_singleton] at hr
    subst hr; rfl
  · simp [saveResults]
  · simp [saveResults]
  · simp [saveResults, Admissible]
  · intro w hw
    simp only [saveResults] at hw
    rw [List.eq_of_mem_replicate hw]; rfl

end

end Verif.Restart
