import Verif.Lemmas.Setup
/-!
The set-up comes to its end; particular runs of it.
-/
namespace Verif.Setup

variable {σ M Cfg : Type}

/-- What has to be there for a set-up to succeed: a model, and a place for the files that are written. -/
structure Ready (j : Job σ M Cfg) (a : Args) (fs : FS σ M) (c : Cfg) : Prop where
  model : ∃ m, IsModel j fs a c m
  dst : isDir fs (join a.folder paramsName) = false
  save : a.model = none → a.noSave = false → isDir fs ((j.modelDir c).getD a.folder) = true ∧
    isDir fs (join ((j.modelDir c).getD a.folder) modelName) = false

theorem chooseModel_ok {j : Job σ M Cfg} {fs : FS σ M} {a : Args} {c : Cfg} {m : M} (h : IsModel j fs a c m) :
    ∃ sv, chooseModel j fs a c = .ok (m, sv) := by
  unfold IsModel at h
  unfold chooseModel
  split
  · rename_i p hp
    rw [hp] at h
    simp only at h
    simp only [readModel, h]
    exact ⟨_, rfl⟩
  · rename_i hp
    rw [hp] at h
    simp only at h
    subst h
    split_ifs <;> exact ⟨_, rfl⟩

theorem isDir_none_or {fs : FS σ M} {p : Path} (h : fs p = none) : isDir fs p = false := by unfold isDir; rw [h]

theorem not_failed_step {j : Job σ M Cfg} {a : Args} {fs0 : FS σ M} {src : Path} {f : Sections σ} {n : ℕ} {s t : State σ M Cfg n} {c : Cfg}
    (hsrc : a.params = some src) (h : Inv j a fs0 src f s) (hc : j.load f = some c) (hr : Ready j a fs0 c)
    (hnf : ∀ q, s.rank q ≠ .failed) (r : Fin n) (hs : step j a s r = some t) : ∀ q, t.rank q ≠ .failed := by
  have key : ∀ x : RState σ M Cfg, t.rank = (s.set r x).rank → x ≠ .failed → ∀ q, t.rank q ≠ .failed := by
    intro x ht hx q
    rw [ht]
    by_cases e : q = r
    · subst e; rw [set_rank_self]; exact hx
    · rw [set_rank_other _ _ e]; exact hnf q
  have hgr := h.good r
  unfold step at hs
  split at hs
  · rename_i tt todo got hst
    have hrd : (s.rank r).isReading = true := by rw [hst]; rfl
    rw [hsrc, Option.bind_some, h.src (Or.inr ⟨r, hrd⟩)] at hs
    simp only [Option.some.injEq] at hs
    exact key (.reading todo fun q => if q = tt then f tt else got q) (by rw [← hs]) (by simp)
  · rename_i got hst
    rw [hst] at hgr
    obtain ⟨done, hd, hg⟩ := hgr
    have hgot : got = f := by
      rw [hg]; funext q
      have : q ∈ done := by rw [List.append_nil] at hd; rw [hd]; exact all_read q
      simp [this]
    rw [hgot, hc] at hs
    simp only at hs
    obtain ⟨m, hm⟩ := hr.model
    have hm' : IsModel j s.fs a c m := by
      unfold IsModel at hm ⊢
      cases hmod : a.model with
      | none => rw [hmod] at hm; exact hm
      | some p => rw [hmod] at hm; simp only at hm ⊢; rw [h.mod p hmod]; exact hm
    obtain ⟨sv, hsv⟩ := chooseModel_ok hm'
    rw [hsv] at hs
    simp only [Option.some.injEq] at hs
    exact key (.doing (ops j a r.val c sv) c m) (by rw [← hs]) (by simp)
  · rename_i o todo c' m hst
    have hap : ∃ fs', o.apply s.fs = some fs' := by
      rw [hst] at hgr
      obtain ⟨hc', -, hcase⟩ := hgr
      have hcc : c' = c := by rw [hc] at hc'; exact (Option.some.inj hc').symm
      subst hcc
      rcases hcase with ⟨_, e⟩ | ⟨h0, ⟨pre, e, hpre⟩ | ⟨done, rest, hdr, e⟩⟩
      · cases e
      · rcases hpre with hpre | ⟨hmn, hns, hpre⟩
        · subst hpre; cases e
          refine ⟨put s.fs (join a.folder paramsName) (.par fun _ => none), ?_⟩
          simp only [Op.apply]
          rw [h.dirs, hr.dst]; rfl
        · subst hpre; cases e
          refine ⟨put s.fs (savePath j a c') (.mod m), ?_⟩
          obtain ⟨h1, h2⟩ := hr.save hmn hns
          have h3 : (savePath j a c').dropLast = (j.modelDir c').getD a.folder := by simp [savePath, join]
          have h4 : isDir fs0 (savePath j a c') = false := h2
          simp only [Op.apply]
          rw [h.dirs, h.dirs, h3, h1, h4]; rfl
      · cases rest with
        | nil => cases e
        | cons q rest =>
          have hw := h.written r h0
          rw [hst] at hw
          have := hw.1 done (q :: rest) hdr e
          cases e
          show ∃ fs', Op.apply s.fs (.add (join a.folder paramsName) q (j.save c' q)) = some fs'
          simp only [Op.apply, this]
          exact ⟨_, rfl⟩
    obtain ⟨fs', hap⟩ := hap
    rw [hap] at hs
    simp only [Option.some.injEq] at hs
    exact key (.doing todo c' m) (by rw [← hs]; rfl) (by simp)
  · rename_i c' m hst
    simp only [Option.some.injEq] at hs
    exact key (.waiting c' m) (by rw [← hs]) (by simp)
  · rename_i c' m hst
    split_ifs at hs
    simp only [Option.some.injEq] at hs
    exact key (.running c' m) (by rw [← hs]) (by simp)
  · cases hs
  · cases hs

theorem not_failed {j : Job σ M Cfg} {a : Args} {fs0 : FS σ M} {src : Path} {f : Sections σ} {n : ℕ} {s : State σ M Cfg n} {c : Cfg}
    (hsrc : a.params = some src) (hlast : src.getLast? ≠ some modelName) (hm : a.model ≠ some (join a.folder paramsName))
    (hn : src ≠ join a.folder paramsName ∨ n = 1) (hf : fs0 src = some (.par f)) (hc : j.load f = some c) (hr : Ready j a fs0 c)
    (h : Reach j a fs0 s) : ∀ q, s.rank q ≠ .failed := by
  obtain ⟨k, h⟩ := h
  generalize hb : (begin_ fs0 n : State σ M Cfg n) = b at h
  induction h with
  | refl s => subst hb; intro q e; cases e
  | next r hk hs ih => exact not_failed_step hsrc (inv_reach hsrc hlast hm hn hf ⟨_, hb ▸ hk⟩) hc hr (ih hb) r hs

theorem stuck_running {j : Job σ M Cfg} {a : Args} {n : ℕ} {s : State σ M Cfg n} (hnf : ∀ q, s.rank q ≠ .failed) (h : Stuck j a s) :
    ∀ q, ∃ c m, s.rank q = .running c m := by
  have harr : ∀ q, (s.rank q).arrived = true := by
    intro q
    have hq := h q
    unfold step at hq
    split at hq
    · split at hq <;> cases hq
    · split at hq
      · cases hq
      · split at hq <;> cases hq
    · split at hq <;> cases hq
    · cases hq
    · rename_i hst; rw [hst]; rfl
    · rename_i hst; rw [hst]; rfl
    · rename_i hst; exact absurd hst (hnf q)
  intro q
  have hq := h q
  unfold step at hq
  split at hq
  · split at hq <;> cases hq
  · split at hq
    · cases hq
    · split at hq <;> cases hq
  · split at hq <;> cases hq
  · cases hq
  · rw [if_pos harr] at hq; cases hq
  · rename_i c m hst; exact ⟨c, m, hst⟩
  · rename_i hst; exact absurd hst (hnf q)

theorem run_bound {j : Job σ M Cfg} {a : Args} {n : ℕ} {b s : State σ M Cfg n} {k : ℕ} (h : Run j a k b s) :
    k + ∑ q, (s.rank q).weight ≤ ∑ q, (b.rank q).weight := by
  induction h with
  | refl s => simp
  | next r _ hs ih => have := step_weight hs; omega

theorem begin_weight (fs : FS σ M) (n : ℕ) : ∑ q, ((begin_ fs n : State σ M Cfg n).rank q).weight = 15 * n := by
  simp [begin_, RState.weight, readOrder, Nat.mul_comm]

theorem Run.trans {j : Job σ M Cfg} {a : Args} {n : ℕ} {x y z : State σ M Cfg n} {k l : ℕ} (h1 : Run j a k x y) (h2 : Run j a l y z) :
    Run j a (k + l) x z := by
  induction h2 with
  | refl _ => exact h1
  | next r _ hs ih => exact .next r (ih h1) hs

theorem reach_trans {j : Job σ M Cfg} {a : Args} {n : ℕ} {fs : FS σ M} {y z : State σ M Cfg n} {l : ℕ} (h1 : Reach j a fs y)
    (h2 : Run j a l y z) : Reach j a fs z := by
  obtain ⟨k, h1⟩ := h1; exact ⟨_, h1.trans h2⟩

theorem reach_step {j : Job σ M Cfg} {a : Args} {n : ℕ} {fs : FS σ M} {y z : State σ M Cfg n} (r : Fin n) (h1 : Reach j a fs y)
    (h2 : step j a y r = some z) : Reach j a fs z := reach_trans h1 (.next r (.refl _) h2)

/-- A rank reads some sections. -/
theorem solo_read {j : Job σ M Cfg} {a : Args} {n : ℕ} {fs0 : FS σ M} {src : Path} {f : Sections σ} (hsrc : a.params = some src) (r : Fin n) (l1 : List Sec) :
    ∀ (l2 : List Sec) (got : Sections σ) (s : State σ M Cfg n), Reach j a fs0 s → s.rank r = .reading (l1 ++ l2) got →
      s.fs src = some (.par f) → ∃ s', Reach j a fs0 s' ∧ s'.fs = s.fs ∧
        s'.rank r = .reading l2 (fun q => if q ∈ l1 then f q else got q) ∧ ∀ q, q ≠ r → s'.rank q = s.rank q := by
  induction l1 with
  | nil => intro l2 got s h1 h2 _; exact ⟨s, h1, rfl, by simpa using h2, fun _ _ => rfl⟩
  | cons t l1 ih =>
    intro l2 got s h1 h2 h3
    have hs : step j a s r = some (s.set r (.reading (l1 ++ l2) fun q => if q = t then f t else got q)) := by
      unfold step; rw [h2]; simp only [List.cons_append, hsrc, Option.bind_some, h3]
    obtain ⟨s', g1, g2, g3, g4⟩ := ih l2 _ _ (reach_step r h1 hs) (set_rank_self _ _ _) h3
    refine ⟨s', g1, g2, ?_, fun q hq => by rw [g4 q hq, set_rank_other _ _ hq]⟩
    rw [g3]
    congr 1
    funext q
    by_cases e1 : q ∈ l1 <;> by_cases e2 : q = t <;> simp [e1, e2]

/-- Several steps on the files. -/
def applyAll : FS σ M → List (Op σ M) → Option (FS σ M)
  | fs, [] => some fs
  | fs, o :: l => (o.apply fs).bind fun fs' => applyAll fs' l

/-- A rank does some of its steps. -/
theorem solo_do {j : Job σ M Cfg} {a : Args} {n : ℕ} {fs0 : FS σ M} (r : Fin n) (c : Cfg) (m : M) (l1 : List (Op σ M)) :
    ∀ (l2 : List (Op σ M)) (s : State σ M Cfg n) (fs' : FS σ M), Reach j a fs0 s → s.rank r = .doing (l1 ++ l2) c m →
      applyAll s.fs l1 = some fs' → ∃ s', Reach j a fs0 s' ∧ s'.fs = fs' ∧ s'.rank r = .doing l2 c m ∧ ∀ q, q ≠ r → s'.rank q = s.rank q := by
  induction l1 with
  | nil => intro l2 s fs' h1 h2 h3; exact ⟨s, h1, by simpa [applyAll] using h3, by simpa using h2, fun _ _ => rfl⟩
  | cons o l1 ih =>
    intro l2 s fs' h1 h2 h3
    simp only [applyAll, Option.bind_eq_some_iff] at h3
    obtain ⟨g, hg, h3⟩ := h3
    have hs : step j a s r = some ({ s with fs := g }.set r (.doing (l1 ++ l2) c m)) := by
      unfold step; rw [h2]; simp only [List.cons_append, hg]
    obtain ⟨s', g1, g2, g3, g4⟩ := ih l2 _ fs' (reach_step r h1 hs) (set_rank_self _ _ _) h3
    exact ⟨s', g1, g2, g3, fun q hq => by rw [g4 q hq, set_rank_other _ _ hq]⟩

/-- A rank makes its driver. -/
theorem solo_load {j : Job σ M Cfg} {a : Args} {n : ℕ} {fs0 : FS σ M} (r : Fin n) {got : Sections σ} {s : State σ M Cfg n} {c : Cfg} {m : M}
    {sv : Option (Path × M)} (h1 : Reach j a fs0 s) (h2 : s.rank r = .reading [] got) (h3 : j.load got = some c)
    (h4 : chooseModel j s.fs a c = .ok (m, sv)) : ∃ s', Reach j a fs0 s' ∧ s'.fs = s.fs ∧
      s'.rank r = .doing (ops j a r.val c sv) c m ∧ ∀ q, q ≠ r → s'.rank q = s.rank q := by
  have hs : step j a s r = some (s.set r (.doing (ops j a r.val c sv) c m)) := by
    unfold step; rw [h2]; simp only [h3, h4]
  exact ⟨_, reach_step r h1 hs, rfl, set_rank_self _ _ _, fun q hq => set_rank_other _ _ hq⟩

/-- A rank comes to the barrier. -/
theorem solo_wait {j : Job σ M Cfg} {a : Args} {n : ℕ} {fs0 : FS σ M} (r : Fin n) {s : State σ M Cfg n} {c : Cfg} {m : M}
    (h1 : Reach j a fs0 s) (h2 : s.rank r = .doing [] c m) : ∃ s', Reach j a fs0 s' ∧ s'.fs = s.fs ∧ s'.rank r = .waiting c m ∧
      ∀ q, q ≠ r → s'.rank q = s.rank q := by
  have hs : step j a s r = some (s.set r (.waiting c m)) := by
    unfold step; rw [h2]
  exact ⟨_, reach_step r h1 hs, rfl, set_rank_self _ _ _, fun q hq => set_rank_other _ _ hq⟩

/-- A rank passes the barrier. -/
theorem solo_pass {j : Job σ M Cfg} {a : Args} {n : ℕ} {fs0 : FS σ M} (r : Fin n) {s : State σ M Cfg n} {c : Cfg} {m : M}
    (h1 : Reach j a fs0 s) (h2 : s.rank r = .waiting c m) (h3 : ∀ q, (s.rank q).arrived = true) :
    ∃ s', Reach j a fs0 s' ∧ s'.fs = s.fs ∧ s'.rank r = .running c m ∧ ∀ q, q ≠ r → s'.rank q = s.rank q := by
  have hs : step j a s r = some (s.set r (.running c m)) := by
    unfold step; rw [h2]; simp only [h3, implies_true, if_true]
  exact ⟨_, reach_step r h1 hs, rfl, set_rank_self _ _ _, fun q hq => set_rank_other _ _ hq⟩

/-- In a folder that has a parameter file, no model is saved. -/
theorem chooseModel_existing {j : Job σ M Cfg} {fs : FS σ M} {a : Args} {c : Cfg} {m : M} (h1 : isDir fs a.folder = true)
    (h2 : a.params = some (join a.folder paramsName)) (h3 : (fs (join a.folder paramsName)).isSome) (h : IsModel j fs a c m) :
    chooseModel j fs a c = .ok (m, none) := by
  unfold IsModel at h
  unfold chooseModel
  split
  · rename_i p hp
    rw [hp] at h; simp only at h
    simp only [readModel, h]
  · rename_i hp
    rw [hp] at h; simp only at h
    rw [if_pos ⟨h1, h2, h3⟩, h]

theorem isModel_put {j : Job σ M Cfg} {fs fs' : FS σ M} {a : Args} {c : Cfg} {m : M} (h : IsModel j fs a c m)
    (he : ∀ p, a.model = some p → fs' p = fs p) : IsModel j fs' a c m := by
  unfold IsModel at h ⊢
  cases hmod : a.model with
  | none => rw [hmod] at h; exact h
  | some p => rw [hmod] at h; simp only at h ⊢; rw [he p hmod]; exact h

/-- Adding the sections to the file. -/
theorem applyAll_adds (j : Job σ M Cfg) (a : Args) (c : Cfg) (l : List Sec) : ∀ (fs : FS σ M) (g : Sections σ),
    fs (join a.folder paramsName) = some (.par g) →
    ∃ fs', applyAll fs (adds j a c l) = some fs' ∧
      fs' (join a.folder paramsName) = some (.par fun s => if s ∈ l then some (j.save c s) else g s) ∧
      ∀ p, p ≠ join a.folder paramsName → fs' p = fs p := by
  induction l with
  | nil => intro fs g h; exact ⟨fs, rfl, by simpa using h, fun _ _ => rfl⟩
  | cons t l ih =>
    intro fs g h
    obtain ⟨fs', h1, h2, h3⟩ := ih (put fs (join a.folder paramsName) (.par fun s => if s = t then some (j.save c t) else g s)) _ (put_same _ _ _)
    refine ⟨fs', ?_, ?_, fun p hp => by rw [h3 p hp, put_other _ _ hp]⟩
    · show (Op.apply fs (.add _ t (j.save c t))).bind _ = _
      simp only [Op.apply, h, Option.bind_some]
      exact h1
    · rw [h2]
      congr 2
      funext s
      by_cases e1 : s ∈ l <;> by_cases e2 : s = t <;> simp [e1, e2]

end Verif.Setup
