import Verif.Lemmas.SetupRun
/-!
C126: which files a run uses, and what the ranks of a parallel run are at the start.
-/
namespace Verif.Setup

variable {σ M Cfg : Type}

theorem makedirs_ok {fs fs' : FS σ M} {p : Path} (h : makedirs fs p = .ok fs') :
    isDir fs' p = true ∧ (∀ q x, fs q = some x → fs' q = some x) ∧
    (∀ q, fs q = none → fs' q = none ∨ (fs' q = some .dir ∧ q <+: p)) := by
  unfold makedirs at h
  split_ifs at h with h1 h2
  cases h
  have hp : fs p = none := by cases h : fs p with | none => rfl | some x => simp [h] at h1
  refine ⟨?_, ?_, ?_⟩
  · simp [isDir, hp]
  · intro q x hq; simp [hq]
  · intro q hq
    by_cases hm : q ∈ p.inits
    · right
      have hm' : q <+: p := (List.mem_inits q p).1 hm
      exact ⟨by simp [hq, hm'], hm'⟩
    · left
      have hm' : ¬ q <+: p := fun h => hm ((List.mem_inits q p).2 h)
      simp [hq, hm']

theorem isDir_mono {fs fs' : FS σ M} (h : ∀ q x, fs q = some x → fs' q = some x) {p : Path} (hp : isDir fs p = true) : isDir fs' p = true := by
  unfold isDir at hp ⊢
  cases hx : fs p with
  | none => rw [hx] at hp; cases hp
  | some x => rw [h p x hx]; rw [hx] at hp; exact hp

theorem withLogs_ok {fs fs' : FS σ M} {a a' : Args} (h : withLogs fs a = .ok (a', fs')) :
    a' = a ∧ (fs' (join a.folder "logs")).isSome ∧ (∀ q x, fs q = some x → fs' q = some x) ∧
    (∀ q, fs q = none → fs' q = none ∨ (fs' q = some .dir ∧ q <+: join a.folder "logs")) := by
  unfold withLogs at h
  split_ifs at h with h1
  · cases h; exact ⟨rfl, h1, fun _ _ h => h, fun _ h => Or.inl h⟩
  · split at h
    · cases h
    · rename_i g hg
      cases h
      obtain ⟨g1, g2, g3⟩ := makedirs_ok hg
      refine ⟨rfl, ?_, g2, g3⟩
      unfold isDir at g1
      cases hx : fs' (join a.folder "logs") with
      | none => rw [hx] at g1; cases g1
      | some x => rfl

theorem typed_iff (fs : FS σ M) (a : Args) :
    typed fs a = true ↔ (∀ p ∈ a.params, isFile fs p = true) ∧ (∀ p ∈ a.model, isFile fs p = true) := by
  unfold typed
  cases a.params <;> cases a.model <;> simp

/-- The cases of `verify`. -/
theorem verify_eq (fs : FS σ M) (a : Args) :
    (typed fs a = false ∧ verify fs a = .error .argument) ∨
    (typed fs a = true ∧ isDir fs a.folder = true ∧ (fs (join a.folder paramsName)).isSome ∧
      verify fs a = withLogs fs { a with
        params := some (join a.folder paramsName)
        model := if (fs (join a.folder modelName)).isSome ∧ a.model = none then some (join a.folder modelName) else a.model }) ∨
    (typed fs a = true ∧ isDir fs a.folder = true ∧ ¬ (fs (join a.folder paramsName)).isSome ∧ a.params = none ∧ verify fs a = .error .empty) ∨
    (typed fs a = true ∧ isDir fs a.folder = true ∧ ¬ (fs (join a.folder paramsName)).isSome ∧ a.params ≠ none ∧
      verify fs a = withLogs fs { a with
        model := if (fs (join a.folder modelName)).isSome ∧ a.model = none then some (join a.folder modelName) else a.model }) ∨
    (typed fs a = true ∧ isDir fs a.folder = false ∧ a.params = none ∧ verify fs a = .error .absent) ∨
    (typed fs a = true ∧ isDir fs a.folder = false ∧ a.params ≠ none ∧
      verify fs a = match makedirs fs a.folder with | .error e => .error e | .ok fs' => withLogs fs' a) := by
  unfold verify
  dsimp only
  cases h1 : typed fs a
  · simp
  · cases h2 : isDir fs a.folder
    · by_cases h4 : a.params = none
      · simp [h4]
      · simp only [Bool.not_true, Bool.false_eq_true, if_false, if_neg h4]
        simp only [Bool.true_eq_false, false_and, ne_eq, h4, not_false_eq_true, true_and, false_or]
        cases makedirs fs a.folder <;> rfl
    · by_cases h3 : (fs (join a.folder paramsName)).isSome
      · simp [h3]
      · by_cases h4 : a.params = none
        · simp [h3, h4]
        · simp [h3, h4]

/-- **C126, the files.** If the arguments are accepted, the run uses the `params.dat` of its folder if there is one, else the
parameter file given; the model file given, else the one of its folder if there is one; its folder and a place for the logs exist,
and all that existed before is unchanged. -/
theorem C126_arguments {fs fs' : FS σ M} {a a' : Args} (h : verify fs a = .ok (a', fs')) :
    a'.folder = a.folder ∧ a'.noSave = a.noSave ∧ a'.params = wantedParams fs a ∧ a'.params ≠ none ∧ a'.model = wantedModel fs a ∧
    isDir fs' a.folder = true ∧ (fs' (a.folder ++ ["logs"])).isSome ∧
    (∀ p x, fs p = some x → fs' p = some x) ∧
    (∀ p, fs p = none → fs' p = none ∨ (fs' p = some .dir ∧ p <+: a.folder ++ ["logs"])) := by
  have hw : ∀ m : Option Path, isDir fs a.folder = true →
      (if (fs (join a.folder modelName)).isSome ∧ m = none then some (join a.folder modelName) else m) =
      match m with
      | some p => some p
      | none => if isDir fs a.folder = true ∧ (fs (a.folder ++ ["model.npy"])).isSome then some (a.folder ++ ["model.npy"]) else none := by
    intro m hd
    cases m with
    | some p => simp
    | none => simp only [hd, true_and, and_true]; rfl
  unfold wantedParams wantedModel
  rcases verify_eq fs a with ⟨_, e⟩ | ⟨h1, h2, h3, e⟩ | ⟨_, _, _, _, e⟩ | ⟨h1, h2, h3, h4, e⟩ | ⟨_, _, _, e⟩ | ⟨h1, h2, h5, e⟩ <;> rw [e] at h
  · cases h
  · obtain ⟨e, g1, g2, g3⟩ := withLogs_ok h
    subst e
    refine ⟨rfl, rfl, ?_, by simp, hw _ h2, isDir_mono g2 h2, g1, g2, g3⟩
    exact (if_pos ⟨h2, h3⟩).symm
  · cases h
  · obtain ⟨e, g1, g2, g3⟩ := withLogs_ok h
    subst e
    refine ⟨rfl, rfl, ?_, h4, hw _ h2, isDir_mono g2 h2, g1, g2, g3⟩
    exact (if_neg (fun hh => h3 hh.2)).symm
  · cases h
  · split at h
    · cases h
    · rename_i g hg
      obtain ⟨k1, k2, k3⟩ := makedirs_ok hg
      obtain ⟨e, g1, g2, g3⟩ := withLogs_ok h
      subst e
      refine ⟨rfl, rfl, ?_, h5, ?_, isDir_mono g2 k1, g1, fun p x hp => g2 p x (k2 p x hp), ?_⟩
      · rw [if_neg (fun hh => by rw [h2] at hh; simp at hh)]
      · cases a'.model with
        | some p => rfl
        | none => simp [h2]
      · intro p hp
        rcases k3 p hp with e | ⟨e, e'⟩
        · exact g3 p e
        · exact Or.inr ⟨g2 p _ e, e'.trans (List.prefix_append _ _)⟩

/-- **C126, refused.** Without a parameter file, given or in the folder, nothing is done. -/
theorem C126_no_parameters {fs : FS σ M} {a : Args} (h : wantedParams fs a = none) :
    ∃ e, verify fs a = .error e ∧ e ≠ .os := by
  unfold wantedParams at h
  split_ifs at h with h0
  rcases verify_eq fs a with ⟨_, e⟩ | ⟨h1, h2, h3, e⟩ | ⟨_, _, _, _, e⟩ | ⟨h1, h2, h3, h4, e⟩ | ⟨_, _, _, e⟩ | ⟨h1, h2, h5, e⟩
  · exact ⟨_, e, by simp⟩
  · exact absurd ⟨h2, h3⟩ h0
  · exact ⟨_, e, by simp⟩
  · exact absurd h h4
  · exact ⟨_, e, by simp⟩
  · exact absurd h h5

theorem isFile_none {fs : FS σ M} {p : Path} (h : fs p = none) : isFile fs p = false := by unfold isFile; rw [h]

theorem makedirs_succeeds {fs : FS σ M} {p : Path} (h : fs p = none) (h2 : ∀ q, q <+: p → isFile fs q = false) : ∃ fs', makedirs fs p = .ok fs' := by
  unfold makedirs
  rw [h]
  have : p.inits.any (fun q => isFile fs q) = false := by
    rw [List.any_eq_false]
    intro q hq
    rw [h2 q ((List.mem_inits q p).1 hq)]; simp
  rw [this]
  exact ⟨_, rfl⟩

theorem prefix_snoc {q p : Path} {x : String} (h : q <+: p ++ [x]) : q = p ++ [x] ∨ q <+: p := by
  rw [List.prefix_concat_iff] at h; exact h

theorem withLogs_succeeds {fs : FS σ M} {a : Args} (h : ∀ q, q <+: a.folder → isFile fs q = false) : ∃ r, withLogs fs a = .ok r := by
  unfold withLogs
  split_ifs with h1
  · exact ⟨_, rfl⟩
  · have hn : fs (join a.folder "logs") = none := by
      cases hx : fs (join a.folder "logs") with
      | none => rfl
      | some x => rw [hx] at h1; simp at h1
    obtain ⟨g, hg⟩ := makedirs_succeeds hn (fun q hq => by
      rcases prefix_snoc hq with e | e
      · rw [e]; exact isFile_none hn
      · exact h q e)
    rw [hg]
    exact ⟨_, rfl⟩

/-- **C126, accepted.** With files that exist, a parameter file given or in the folder, and no file where the folder is to be, the
arguments are accepted. -/
theorem C126_accepted {fs : FS σ M} {a : Args} (hp : ∀ p ∈ a.params, isFile fs p = true) (hm : ∀ p ∈ a.model, isFile fs p = true)
    (hw : wantedParams fs a ≠ none) (hf : ∀ q, q <+: a.folder → isFile fs q = false) : ∃ r, verify fs a = .ok r := by
  unfold wantedParams at hw
  have ht : typed fs a = true := (typed_iff fs a).2 ⟨hp, hm⟩
  rcases verify_eq fs a with ⟨h1, _⟩ | ⟨h1, h2, h3, e⟩ | ⟨_, _, h3, h4, _⟩ | ⟨h1, h2, h3, h4, e⟩ | ⟨_, h2, h5, _⟩ | ⟨h1, h2, h5, e⟩
  · rw [ht] at h1; cases h1
  · rw [e]; exact withLogs_succeeds hf
  · exfalso
    rw [if_neg (fun hh => h3 hh.2)] at hw
    exact hw h4
  · rw [e]; exact withLogs_succeeds hf
  · exfalso
    rw [if_neg (fun hh => by rw [h2] at hh; simp at hh)] at hw
    exact hw h5
  · have hn : fs a.folder = none := by
      have := hf a.folder (List.prefix_refl _)
      unfold isFile at this; unfold isDir at h2
      cases hx : fs a.folder with
      | none => rfl
      | some x => rw [hx] at this h2; cases x <;> simp at this h2
    obtain ⟨g, hg⟩ := makedirs_succeeds hn hf
    rw [e, hg]
    refine withLogs_succeeds fun q hq => ?_
    obtain ⟨-, k2, k3⟩ := makedirs_ok hg
    have hqf := hf q hq
    unfold isFile at hqf ⊢
    cases hx : fs q with
    | none =>
      rcases k3 q hx with e | ⟨e, -⟩ <;> rw [e]
    | some x => rw [k2 q x hx]; rw [hx] at hqf; exact hqf

/-- A new run: the folder had no `params.dat`. -/
structure NewRun (fs fs' : FS σ M) (a a' : Args) (src : Path) (f : Sections σ) : Prop where
  args : verify fs a = .ok (a', fs')
  new : fs (a.folder ++ ["params.dat"]) = none
  given : a.params = some src
  file : fs src = some (.par f)
  name : src.getLast? ≠ some "model.npy"

/-- A run in a folder that has a `params.dat`. -/
structure OldRun (fs fs' : FS σ M) (a a' : Args) (f : Sections σ) : Prop where
  args : verify fs a = .ok (a', fs')
  dir : isDir fs a.folder = true
  file : fs (a.folder ++ ["params.dat"]) = some (.par f)
  model : a.model ≠ some (a.folder ++ ["params.dat"])

theorem verify_typed {fs : FS σ M} {a : Args} {r} (h : verify fs a = .ok r) : typed fs a = true := by
  rcases verify_eq fs a with ⟨_, e⟩ | ⟨h1, _⟩ | ⟨h1, _⟩ | ⟨h1, _⟩ | ⟨h1, _⟩ | ⟨h1, _⟩
  · rw [e] at h; cases h
  all_goals exact h1

theorem wantedModel_exists {fs : FS σ M} {a : Args} (ht : typed fs a = true) {p : Path} (h : wantedModel fs a = some p) : (fs p).isSome := by
  unfold wantedModel at h
  split at h
  · rename_i q hq
    cases h
    have := (typed_iff fs a).1 ht |>.2 p hq
    unfold isFile at this
    cases hx : fs p with
    | none => rw [hx] at this; cases this
    | some x => rfl
  · split_ifs at h with h1
    cases h; exact h1.2

theorem NewRun.facts {fs fs' : FS σ M} {a a' : Args} {src : Path} {f : Sections σ} (h : NewRun fs fs' a a' src f) :
    a'.params = some src ∧ src.getLast? ≠ some modelName ∧ a'.model ≠ some (join a'.folder paramsName) ∧ src ≠ join a'.folder paramsName ∧
    fs' src = some (.par f) ∧ a'.folder = a.folder := by
  obtain ⟨h1, h2, h3, h4, h5, h6, h7, h8, h9⟩ := C126_arguments h.args
  have hne : fs (join a'.folder paramsName) = none := by rw [h1]; exact h.new
  refine ⟨?_, h.name, ?_, ?_, h8 _ _ h.file, h1⟩
  · rw [h3]; unfold wantedParams; rw [if_neg]
    · exact h.given
    · rintro ⟨-, e⟩; rw [h.new] at e; simp at e
  · intro e
    rw [h5] at e
    have := wantedModel_exists (verify_typed h.args) e
    rw [hne] at this; simp at this
  · intro e
    rw [← e, h.file] at hne; cases hne

theorem OldRun.facts {fs fs' : FS σ M} {a a' : Args} {f : Sections σ} (h : OldRun fs fs' a a' f) :
    a'.params = some (join a'.folder paramsName) ∧ (join a'.folder paramsName).getLast? ≠ some modelName ∧
    a'.model ≠ some (join a'.folder paramsName) ∧ fs' (join a'.folder paramsName) = some (.par f) ∧ a'.folder = a.folder ∧
    isDir fs' a'.folder = true := by
  obtain ⟨h1, h2, h3, h4, h5, h6, h7, h8, h9⟩ := C126_arguments h.args
  refine ⟨?_, by simp [join, paramsName, modelName], ?_, by rw [h1]; exact h8 _ _ h.file, h1, by rw [h1]; exact h6⟩
  · rw [h3, h1]; unfold wantedParams; rw [if_pos ⟨h.dir, by rw [h.file]; rfl⟩]; rfl
  · rw [h5, h1]
    unfold wantedModel
    split
    · rename_i p hp
      intro e; exact h.model (by rw [hp, e]; rfl)
    · split_ifs
      · intro e
        have := congrArg (Option.bind · List.getLast?) e
        simp [join, paramsName] at this
      · simp

theorem has_good {j : Job σ M Cfg} {a : Args} {fs0 : FS σ M} {f : Sections σ} {r : ℕ} {x : RState σ M Cfg} {c : Cfg} {m : M}
    (h : Good j a fs0 f r x) (hx : x.has = some (c, m)) : j.load f = some c ∧ IsModel j fs0 a c m := by
  cases x <;> simp only [RState.has] at hx <;> cases hx
  · exact ⟨h.1, h.2.1⟩
  · exact h
  · exact h

theorem inv_running {j : Job σ M Cfg} {a : Args} {fs0 : FS σ M} {src : Path} {f : Sections σ} {n : ℕ} {s : State σ M Cfg n}
    (h : Inv j a fs0 src f s) {r : Fin n} {c : Cfg} {m : M} (hr : s.rank r = .running c m) :
    s.fs (join a.folder paramsName) = some (.par fun t => some (j.save c t)) ∧ Saved j a s.fs c := by
  have hpos : 0 < n := lt_of_le_of_lt (Nat.zero_le _) r.isLt
  have harr := h.pass ⟨r, c, m, hr⟩ ⟨0, hpos⟩
  have hw := h.written ⟨0, hpos⟩ rfl
  have hg := h.good ⟨0, hpos⟩
  have hc : j.load f = some c := by
    have := h.good r; rw [hr] at this; exact this.1
  cases hx : s.rank ⟨0, hpos⟩ with
  | waiting c' m' =>
    rw [hx] at hw hg
    have : c' = c := by have := hg.1; rw [hc] at this; exact (Option.some.inj this).symm
    subst this; exact hw
  | running c' m' =>
    rw [hx] at hw hg
    have : c' = c := by have := hg.1; rw [hc] at this; exact (Option.some.inj this).symm
    subst this; exact hw
  | reading _ _ => rw [hx] at harr; cases harr
  | doing _ _ _ => rw [hx] at harr; cases harr
  | failed => rw [hx] at harr; cases harr

/-- **C126, new runs.** Whatever the number of ranks and however they are interleaved: every rank that has parameters has those of
the file given, and the model of the run; once a rank runs, the `params.dat` of the folder holds these parameters, and the model is
saved if it was made and is to be saved; the file given, and all files but those two, are never changed. -/
theorem C126_ranks_agree {fs fs' : FS σ M} {a a' : Args} {src : Path} {f : Sections σ} (h : NewRun fs fs' a a' src f)
    (j : Job σ M Cfg) {n : ℕ} {s : State σ M Cfg n} (hs : Reach j a' fs' s) :
    (∀ r c m, (s.rank r).has = some (c, m) → j.load f = some c ∧ IsModel j fs' a' c m) ∧
    (∀ r c m, s.rank r = .running c m → s.fs (a.folder ++ ["params.dat"]) = some (.par fun t => some (j.save c t)) ∧
      (a'.model = none → a.noSave = false → s.fs (((j.modelDir c).getD a.folder) ++ ["model.npy"]) = some (.mod m))) ∧
    s.fs src = some (.par f) ∧
    (∀ p, p ≠ a.folder ++ ["params.dat"] → p.getLast? ≠ some "model.npy" → s.fs p = fs' p) := by
  obtain ⟨f1, f2, f3, f4, f5, f6⟩ := h.facts
  have hi := inv_reach f1 f2 f3 (Or.inl f4) f5 hs
  have hns := (C126_arguments h.args).2.1
  refine ⟨fun r c m hr => has_good (hi.good r) hr, ?_, hi.src (Or.inl f4), ?_⟩
  · intro r c m hr
    obtain ⟨g1, g2⟩ := inv_running hi hr
    refine ⟨by rw [← f6]; exact g1, fun hm hn => ?_⟩
    have hmm : m = j.build c := by
      have := hi.good r
      rw [hr] at this
      have := this.2
      unfold IsModel at this
      rw [hm] at this; exact this
    rw [hmm, ← f6]
    exact g2 hm (by rw [hns]; exact hn) (by rw [f1]; intro e; exact f4 (Option.some.inj e))
  · intro p h1 h2
    exact hi.frame p (by rw [f6]; exact h1) h2

/-- What must be there: a model, and room for the files. -/
structure CanRun (j : Job σ M Cfg) (fs' : FS σ M) (a' : Args) (c : Cfg) : Prop where
  model : ∃ m, IsModel j fs' a' c m
  dst : fs' (a'.folder ++ ["params.dat"]) ≠ some .dir
  save : a'.model = none → a'.noSave = false → isDir fs' ((j.modelDir c).getD a'.folder) = true ∧
    fs' (((j.modelDir c).getD a'.folder) ++ ["model.npy"]) ≠ some .dir

theorem CanRun.ready {j : Job σ M Cfg} {fs' : FS σ M} {a' : Args} {c : Cfg} (h : CanRun j fs' a' c) : Ready j a' fs' c := by
  have key : ∀ p, fs' p ≠ some .dir → isDir fs' p = false := by
    intro p hp
    unfold isDir
    split
    · rename_i e; exact absurd e hp
    · rfl
  exact ⟨h.model, key _ h.dst, fun h1 h2 => ⟨(h.save h1 h2).1, key _ (h.save h1 h2).2⟩⟩

/-- **C126, new runs start.** If the parameters can be read and the model is there, every interleaving ends after at most 15 steps
of each rank, and only with all ranks running with the parameters given. -/
theorem C126_all_start {fs fs' : FS σ M} {a a' : Args} {src : Path} {f : Sections σ} (h : NewRun fs fs' a a' src f)
    (j : Job σ M Cfg) {c : Cfg} (hc : j.load f = some c) (hr : CanRun j fs' a' c) (n : ℕ) :
    (∀ k (s : State σ M Cfg n), Run j a' k (begin_ fs' n) s → k ≤ 15 * n) ∧
    (∀ s : State σ M Cfg n, Reach j a' fs' s → Stuck j a' s → ∀ r, ∃ m, s.rank r = .running c m ∧ IsModel j fs' a' c m) := by
  obtain ⟨f1, f2, f3, f4, f5, f6⟩ := h.facts
  refine ⟨fun k s hk => ?_, fun s hs hst r => ?_⟩
  · have := run_bound hk; rw [begin_weight] at this; omega
  · have hi := inv_reach f1 f2 f3 (Or.inl f4) f5 hs
    obtain ⟨c', m, e⟩ := stuck_running (not_failed f1 f2 f3 (Or.inl f4) f5 hc hr.ready hs) hst r
    have hg := hi.good r
    rw [e] at hg
    have : c' = c := by have := hg.1; rw [hc] at this; exact (Option.some.inj this).symm
    subst this
    exact ⟨m, e, hg.2⟩

/-- **C126, one process in an old folder.** A single process starts with the parameters of the folder, and writes them back. -/
theorem C126_alone {fs fs' : FS σ M} {a a' : Args} {f : Sections σ} (h : OldRun fs fs' a a' f)
    (j : Job σ M Cfg) {c : Cfg} (hc : j.load f = some c) (hr : CanRun j fs' a' c) :
    (∀ k (s : State σ M Cfg 1), Run j a' k (begin_ fs' 1) s → k ≤ 15) ∧
    (∀ s : State σ M Cfg 1, Reach j a' fs' s → Stuck j a' s →
      (∃ m, s.rank 0 = .running c m ∧ IsModel j fs' a' c m) ∧
      s.fs (a.folder ++ ["params.dat"]) = some (.par fun t => some (j.save c t))) := by
  obtain ⟨f1, f2, f3, f4, f5, f6⟩ := h.facts
  refine ⟨fun k s hk => ?_, fun s hs hst => ?_⟩
  · have := run_bound hk; rw [begin_weight] at this; omega
  · have hi := inv_reach f1 f2 f3 (Or.inr rfl) f4 hs
    obtain ⟨c', m, e⟩ := stuck_running (not_failed f1 f2 f3 (Or.inr rfl) f4 hc hr.ready hs) hst 0
    have hg := hi.good 0
    rw [e] at hg
    have : c' = c := by have := hg.1; rw [hc] at this; exact (Option.some.inj this).symm
    subst this
    exact ⟨⟨m, e, hg.2⟩, by rw [← f5]; exact (inv_running hi e).1⟩

/-- **C126, starting again.** A run started later in the folder uses what the first one wrote, whatever parameter file is given. -/
theorem C126_again {fs2 : FS σ M} {a a2 a2' : Args} {s : FS σ M} {g : Sections σ} (hd : isDir s a.folder = true)
    (hg : s (a.folder ++ ["params.dat"]) = some (.par g)) (hf : a2.folder = a.folder) (h2 : verify s a2 = .ok (a2', fs2)) :
    a2'.params = some (a.folder ++ ["params.dat"]) ∧ fs2 (a.folder ++ ["params.dat"]) = some (.par g) := by
  obtain ⟨h1, -, h3, -, -, -, -, h8, -⟩ := C126_arguments h2
  refine ⟨?_, h8 _ _ hg⟩
  rw [h3]; unfold wantedParams
  rw [hf, if_pos ⟨hd, by rw [hg]; rfl⟩]

end Verif.Setup
