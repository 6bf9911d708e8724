import Verif.Props.Setup
/-!
C126: where the set-up goes wrong.
-/
namespace Verif.Setup

variable {σ M Cfg : Type}

theorem begin_reach (j : Job σ M Cfg) (a : Args) (fs : FS σ M) (n : ℕ) : Reach j a fs (begin_ fs n : State σ M Cfg n) := ⟨0, .refl _⟩

/-- In an old folder rank 0 reads the file, makes its driver and empties the file; the others have not done anything. -/
theorem old_cleared {fs fs' : FS σ M} {a a' : Args} {f : Sections σ} (h : OldRun fs fs' a a' f) (j : Job σ M Cfg) {c : Cfg} {m : M}
    (hc : j.load f = some c) (hm : IsModel j fs' a' c m) {n : ℕ} (r : Fin n) (hr : r.val = 0) (s : State σ M Cfg n) (hs : Reach j a' fs' s)
    (hfs : s.fs = fs') (hst : s.rank r = .reading readOrder fun _ => none) :
    ∃ s', Reach j a' fs' s' ∧ s'.fs = put fs' (join a'.folder paramsName) (.par fun _ => none) ∧
      s'.rank r = .doing (adds j a' c writeOrder) c m ∧ ∀ q, q ≠ r → s'.rank q = s.rank q := by
  obtain ⟨f1, f2, f3, f4, f5, f6⟩ := h.facts
  obtain ⟨s1, g1, g2, g3, g4⟩ := solo_read f1 r readOrder [] _ s hs (by simpa using hst) (by rw [hfs]; exact f4)
  have hall : (fun q => if q ∈ readOrder then f q else none) = f := by funext q; simp [all_read]
  rw [hall] at g3
  obtain ⟨s2, k1, k2, k3, k4⟩ := solo_load r g1 g3 hc (by
    rw [g2, hfs]; exact chooseModel_existing f6 f1 (by rw [f4]; rfl) hm)
  have hops : ops j a' r.val c (none : Option (Path × M)) = [.clear (join a'.folder paramsName)] ++ adds j a' c writeOrder := by
    simp [ops, hr, adds]
  rw [hops] at k3
  obtain ⟨s3, l1, l2, l3, l4⟩ := solo_do r c m [.clear (join a'.folder paramsName)] _ s2 (put fs' (join a'.folder paramsName) (.par fun _ => none)) k1 k3 (by
    rw [k2, g2, hfs]
    have : isDir fs' (join a'.folder paramsName) = false := by unfold isDir; rw [f4]
    simp [applyAll, Op.apply, this])
  exact ⟨s3, l1, l2, l3, fun q hq => by rw [l4 q hq, k4 q hq, g4 q hq]⟩

/-- **C126, false of the code.** In a folder that has a `params.dat`, rank 0 writes that file while the others may still read it: two
ranks can start with different parameters, the second one with those of a file without a section. -/
theorem C126_race_counterexample {fs fs' : FS σ M} {a a' : Args} {f : Sections σ} (h : OldRun fs fs' a a' f) (j : Job σ M Cfg) {c c' : Cfg}
    {m m' : M} (hc : j.load f = some c) (hc' : j.load (fun t => if t = .theory then none else f t) = some c')
    (hm : IsModel j fs' a' c m) (hm' : IsModel j fs' a' c' m') :
    ∃ s : State σ M Cfg 2, Reach j a' fs' s ∧ s.rank 0 = .running c m ∧ s.rank 1 = .running c' m' := by
  obtain ⟨f1, f2, f3, f4, f5, f6⟩ := h.facts
  have h01 : (0 : Fin 2) ≠ 1 := by decide
  -- rank 1 reads all but the last section
  obtain ⟨s1, g1, g2, g3, g4⟩ := solo_read (f := f) f1 (1 : Fin 2) [.driver, .data, .model, .extra] [.theory] (fun _ => none) (begin_ fs' 2)
    (begin_reach j a' fs' 2) rfl f4
  -- rank 0 empties the file
  obtain ⟨s2, k1, k2, k3, k4⟩ := old_cleared h j hc hm (0 : Fin 2) rfl s1 g1 g2 (by rw [g4 0 h01]; rfl)
  have hfile : s2.fs (join a'.folder paramsName) = some (.par fun _ => none) := by rw [k2]; exact put_same _ _ _
  -- rank 1 reads the last section
  obtain ⟨s3, l1, l2, l3, l4⟩ := solo_read (f := fun _ => none) f1 (1 : Fin 2) [.theory] [] _ s2 k1
    (by rw [k4 1 h01.symm]; exact g3) hfile
  have hgot : (fun q : Sec => if q ∈ [Sec.theory] then (none : Option σ) else if q ∈ [Sec.driver, .data, .model, .extra] then f q else none) =
      fun t => if t = .theory then none else f t := by
    funext q; cases q <;> simp
  rw [hgot] at l3
  have hmod : ∀ p, a'.model = some p → s3.fs p = fs' p := by
    intro p hp
    rw [l2, k2, put_other]
    intro e; exact f3 (by rw [hp, e])
  have hch : chooseModel j s3.fs a' c' = .ok (m', none) := by
    refine chooseModel_existing ?_ f1 (by rw [l2, hfile]; rfl) (isModel_put hm' hmod)
    rw [l2, k2]
    rw [isDir_put _ (by unfold isDir; rw [f4]) (by simp)]
    exact f6
  obtain ⟨s4, p1, p2, p3, p4⟩ := solo_load 1 l1 l3 hc' hch
  have hops : ops j a' (1 : Fin 2).val c' (none : Option (Path × M)) = [] := by simp [ops]
  rw [hops] at p3
  obtain ⟨s5, q1, q2, q3, q4⟩ := solo_wait 1 p1 p3
  -- rank 0 writes
  have h50 : s5.rank 0 = .doing (adds j a' c writeOrder ++ []) c m := by
    rw [q4 0 h01, p4 0 h01, l4 0 h01, k3, List.append_nil]
  obtain ⟨gg, hg1, -, -⟩ := applyAll_adds j a' c writeOrder s5.fs _ (by rw [q2, p2, l2, hfile])
  obtain ⟨s6, t1, t2, t3, t4⟩ := solo_do 0 c m _ [] s5 gg q1 h50 hg1
  obtain ⟨s7, u1, u2, u3, u4⟩ := solo_wait 0 t1 t3
  have h71 : s7.rank 1 = .waiting c' m' := by rw [u4 1 h01.symm, t4 1 h01.symm, q3]
  have harr7 : ∀ q, (s7.rank q).arrived = true := by
    intro q
    match q with
    | 0 => rw [u3]; rfl
    | 1 => rw [h71]; rfl
  obtain ⟨s8, v1, v2, v3, v4⟩ := solo_pass 0 u1 u3 harr7
  have h81 : s8.rank 1 = .waiting c' m' := by rw [v4 1 h01.symm, h71]
  obtain ⟨s9, w1, w2, w3, w4⟩ := solo_pass 1 v1 h81 (by
    intro q
    match q with
    | 0 => rw [v3]; rfl
    | 1 => rw [h81]; rfl)
  exact ⟨s9, w1, by rw [w4 0 h01, v3], w3⟩

/-- **C126, false of the code.** Likewise a rank can find the file empty, and fail; then the others wait for ever. -/
theorem C126_hang_counterexample {fs fs' : FS σ M} {a a' : Args} {f : Sections σ} (h : OldRun fs fs' a a' f) (j : Job σ M Cfg) {c : Cfg}
    {m : M} (hc : j.load f = some c) (hempty : j.load (fun _ => none) = none) (hm : IsModel j fs' a' c m) :
    ∃ s : State σ M Cfg 2, Reach j a' fs' s ∧ s.rank 0 = .waiting c m ∧ s.rank 1 = .failed ∧ Stuck j a' s := by
  obtain ⟨f1, f2, f3, f4, f5, f6⟩ := h.facts
  have h01 : (0 : Fin 2) ≠ 1 := by decide
  obtain ⟨s2, k1, k2, k3, k4⟩ := old_cleared h j hc hm (0 : Fin 2) rfl (begin_ fs' 2) (begin_reach j a' fs' 2) rfl rfl
  have hfile : s2.fs (join a'.folder paramsName) = some (.par fun _ => none) := by rw [k2]; exact put_same _ _ _
  obtain ⟨s3, l1, l2, l3, l4⟩ := solo_read (f := fun _ => none) f1 (1 : Fin 2) readOrder [] (fun _ => none) s2 k1
    (by rw [k4 1 h01.symm]; rfl) hfile
  have hgot : (fun q : Sec => if q ∈ readOrder then (none : Option σ) else none) = fun _ => none := by funext q; simp
  rw [hgot] at l3
  have hstep : step j a' s3 1 = some (s3.set 1 .failed) := by unfold step; rw [l3]; simp only [hempty]
  have hq := reach_step 1 l1 hstep
  have h50 : (s3.set 1 .failed).rank 0 = .doing (adds j a' c writeOrder ++ []) c m := by
    rw [set_rank_other _ _ h01, l4 0 h01, k3, List.append_nil]
  obtain ⟨gg, hg1, -, -⟩ := applyAll_adds j a' c writeOrder (s3.set 1 .failed).fs (fun _ => none) (by
    show s3.fs _ = _
    rw [l2, hfile])
  obtain ⟨s6, t1, t2, t3, t4⟩ := solo_do 0 c m _ [] _ gg hq h50 hg1
  obtain ⟨s7, u1, u2, u3, u4⟩ := solo_wait 0 t1 t3
  have h71 : s7.rank 1 = .failed := by rw [u4 1 h01.symm, t4 1 h01.symm, set_rank_self]
  refine ⟨s7, u1, u3, h71, ?_⟩
  intro r
  match r with
  | 0 =>
    unfold step; rw [u3]; simp only
    rw [if_neg]
    intro hh
    have := hh 1
    rw [h71] at this; cases this
  | 1 => unfold step; rw [h71]

/-- **C126, false of the code.** A run in an old folder that is killed in the set-up can lose the parameters: there is a moment at
which the file is empty. -/
theorem C126_lost_counterexample {fs fs' : FS σ M} {a a' : Args} {f : Sections σ} (h : OldRun fs fs' a a' f) (j : Job σ M Cfg) {c : Cfg}
    {m : M} (hc : j.load f = some c) (hm : IsModel j fs' a' c m) (n : ℕ) (hn : 0 < n) :
    ∃ s : State σ M Cfg n, Reach j a' fs' s ∧ s.fs (a.folder ++ ["params.dat"]) = some (.par fun _ => none) := by
  obtain ⟨s2, k1, k2, -, -⟩ := old_cleared h j hc hm (⟨0, hn⟩ : Fin n) rfl (begin_ fs' n) (begin_reach j a' fs' n) rfl rfl
  refine ⟨s2, k1, ?_⟩
  have := h.facts.2.2.2.2.1
  rw [k2, ← this]; exact put_same _ _ _

/-- **C126, false of the code.** A new run that is killed in the set-up can leave a `params.dat` with the first section only, and the
same command given again then uses that file in place of the one given. -/
theorem C126_interrupted_counterexample {fs fs' : FS σ M} {a a' : Args} {src : Path} {f : Sections σ} (h : NewRun fs fs' a a' src f)
    (j : Job σ M Cfg) {c : Cfg} {m : M} {p : Path} (hc : j.load f = some c) (hp : a'.model = some p) (hm : fs' p = some (.mod m))
    (hd : fs' (a.folder ++ ["params.dat"]) ≠ some .dir) (n : ℕ) (hn : 0 < n) :
    ∃ s : State σ M Cfg n, Reach j a' fs' s ∧
      ∀ a2' fs2, verify s.fs a = .ok (a2', fs2) → a2'.params = some (a.folder ++ ["params.dat"]) ∧
        fs2 (a.folder ++ ["params.dat"]) = some (.par fun t => if t = .driver then some (j.save c .driver) else none) := by
  obtain ⟨f1, f2, f3, f4, f5, f6⟩ := h.facts
  have hdir := (C126_arguments h.args).2.2.2.2.2.1
  let r : Fin n := ⟨0, hn⟩
  obtain ⟨s1, g1, g2, g3, g4⟩ := solo_read (f := f) f1 r readOrder [] (fun _ => none) (begin_ fs' n) (begin_reach j a' fs' n) rfl f5
  have hall : (fun q => if q ∈ readOrder then f q else none) = f := by funext q; simp [all_read]
  rw [hall] at g3
  have hch : chooseModel j s1.fs a' c = .ok (m, none) := by
    rw [g2]; simp only [chooseModel, hp, readModel]
    have : (begin_ fs' n : State σ M Cfg n).fs p = some (.mod m) := hm
    simp only [this]
  obtain ⟨s2, k1, k2, k3, k4⟩ := solo_load r g1 g3 hc hch
  have hops : ops j a' r.val c (none : Option (Path × M)) =
      ([.clear (join a'.folder paramsName)] ++ adds j a' c [.driver]) ++ adds j a' c [.data, .theory, .extra, .model] := by
    simp [ops, r, adds, writeOrder]
  rw [hops] at k3
  have hnd : isDir fs' (join a'.folder paramsName) = false := by
    rw [f6]
    unfold isDir
    split
    · rename_i e; exact absurd e hd
    · rfl
  have hfs2 : s2.fs = fs' := by rw [k2, g2]; rfl
  obtain ⟨gg, hg1, hg2, hg3⟩ := applyAll_adds j a' c [.driver] (put fs' (join a'.folder paramsName) (.par fun _ => none)) _ (put_same _ _ _)
  have hap : applyAll s2.fs ([.clear (join a'.folder paramsName)] ++ adds j a' c [.driver]) = some gg := by
    rw [hfs2]
    show (Op.apply fs' (.clear _)).bind _ = _
    simp only [Op.apply, hnd, Bool.false_eq_true, if_false, Option.bind_some]
    exact hg1
  obtain ⟨s3, l1, l2, l3, l4⟩ := solo_do r c m _ _ s2 gg k1 k3 hap
  refine ⟨s3, l1, fun a2' fs2 h2 => ?_⟩
  refine C126_again ?_ ?_ rfl h2
  · rw [l2]
    have hne : a.folder ≠ join a'.folder paramsName := by
      rw [f6]; intro e
      have := congrArg List.length e
      simp [join] at this
    unfold isDir
    rw [hg3 _ hne, put_other _ _ hne]
    exact hdir
  · rw [l2, ← f6]
    show gg (join a'.folder paramsName) = _
    rw [hg2]
    congr 2
    funext t
    cases t <;> simp

/-- **C126, false of the code.** In a folder with a `params.dat` but no model, the model that is made is not saved, asked for or not. -/
theorem C126_model_counterexample {fs fs' : FS σ M} {a a' : Args} {f : Sections σ} (h : OldRun fs fs' a a' f)
    (hmod : fs' (a.folder ++ ["model.npy"]) = none) (j : Job σ M Cfg) {n : ℕ} {s : State σ M Cfg n} (hs : Reach j a' fs' s) :
    s.fs (a.folder ++ ["model.npy"]) = none := by
  obtain ⟨f1, f2, f3, f4, f5, f6⟩ := h.facts
  have key : isDir s.fs a'.folder = true ∧ (s.fs (join a'.folder paramsName)).isSome = true ∧ s.fs (join a'.folder modelName) = none ∧
      ∀ r todo c m, s.rank r = .doing todo c m → ∀ o ∈ todo, ∀ p x, o ≠ .model p x ∧
        (match o with | .clear p => p = join a'.folder paramsName | .add p _ _ => p = join a'.folder paramsName | .model _ _ => True) := by
    obtain ⟨k, hs⟩ := hs
    generalize hb : (begin_ fs' n : State σ M Cfg n) = b at hs
    induction hs with
    | refl s =>
      subst hb
      refine ⟨f6, ?_, ?_, ?_⟩
      · show (fs' _).isSome = true; rw [f4]; rfl
      · show fs' _ = none; rw [f5]; exact hmod
      · intro r todo c m e; cases e
    | @next k0 b0 s0 t0 r hk hst ih =>
      obtain ⟨i1, i2, i3, i4⟩ := ih hb
      have own : ∀ x : RState σ M Cfg, t0 = s0.set r x → (∀ todo c m, x = .doing todo c m → ∀ o ∈ todo, ∀ p y, o ≠ .model p y ∧
          (match o with | .clear p => p = join a'.folder paramsName | .add p _ _ => p = join a'.folder paramsName | .model _ _ => True)) →
          isDir t0.fs a'.folder = true ∧ (t0.fs (join a'.folder paramsName)).isSome = true ∧ t0.fs (join a'.folder modelName) = none ∧
          ∀ r todo c m, t0.rank r = .doing todo c m → ∀ o ∈ todo, ∀ p x, o ≠ .model p x ∧
            (match o with | .clear p => p = join a'.folder paramsName | .add p _ _ => p = join a'.folder paramsName | .model _ _ => True) := by
        intro x ht hx
        subst ht
        refine ⟨i1, i2, i3, fun q todo c m e => ?_⟩
        by_cases eq : q = r
        · subst eq; rw [set_rank_self] at e; exact hx todo c m e
        · rw [set_rank_other _ _ eq] at e; exact i4 q todo c m e
      unfold step at hst
      split at hst
      · split at hst <;> simp only [Option.some.injEq] at hst <;> exact own _ hst.symm (by intro _ _ _ e; cases e)
      · split at hst
        · simp only [Option.some.injEq] at hst; exact own _ hst.symm (by intro _ _ _ e; cases e)
        · rename_i c hc
          split at hst
          · simp only [Option.some.injEq] at hst; exact own _ hst.symm (by intro _ _ _ e; cases e)
          · rename_i m sv hcm
            simp only [Option.some.injEq] at hst
            refine own _ hst.symm ?_
            intro todo c' m' e o ho p y
            cases e
            have hsv : sv = none := by
              have := chooseModel_existing (j := j) (c := c) (m := m) i1 f1 i2 (chooseModel_saved hcm).1
              rw [this] at hcm; cases hcm; rfl
            subst hsv
            unfold ops at ho
            split_ifs at ho
            · simp only [List.nil_append, List.mem_cons, List.mem_map] at ho
              rcases ho with e | ⟨q, _, e⟩
              · subst e; simp
              · subst e; simp
            · cases ho
      · rename_i o todo c m hr
        split at hst
        · simp only [Option.some.injEq] at hst; exact own _ hst.symm (by intro _ _ _ e; cases e)
        · rename_i g hg
          simp only [Option.some.injEq] at hst
          have hmem := i4 r _ c m hr
          obtain ⟨p, x, e1, e2, e3, e4⟩ := apply_frame hg
          have hp : p = join a'.folder paramsName := by
            cases o with
            | model q y => exact absurd rfl (hmem _ (List.mem_cons_self ..) q y).1
            | clear q => rw [e4]; exact (hmem _ (List.mem_cons_self ..) [] m).2
            | add q t y => rw [e4]; exact (hmem _ (List.mem_cons_self ..) [] m).2
          subst hst
          refine ⟨?_, ?_, ?_, fun q todo' c' m' e => ?_⟩
          · show isDir g _ = true
            rw [e1, isDir_put _ e2 e3]; exact i1
          · show (g _).isSome = true
            rw [e1, hp, put_same]; rfl
          · show g _ = none
            rw [e1, put_other]; exact i3
            rw [hp]; exact join_ne _ _
          · by_cases eq : q = r
            · subst eq; rw [set_rank_self] at e; cases e
              intro o' ho' p y; exact hmem o' (List.mem_cons_of_mem _ ho') p y
            · rw [set_rank_other _ _ eq] at e; exact i4 q todo' c' m' e
      · simp only [Option.some.injEq] at hst; exact own _ hst.symm (by intro _ _ _ e; cases e)
      · split_ifs at hst
        simp only [Option.some.injEq] at hst; exact own _ hst.symm (by intro _ _ _ e; cases e)
      · cases hst
      · cases hst
  rw [← f5]; exact key.2.2.1

end Verif.Setup
