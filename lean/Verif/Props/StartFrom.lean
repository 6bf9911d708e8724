import Verif.Model.StartFrom
import Mathlib.Tactic.Linarith
import Mathlib.Data.List.Nodup
/-!
C126: where a run starts, and how many iterations it does.
-/
namespace Verif.Start

variable {P : Type}

theorem best_spec (l : List (P × Res)) (x : P × Res) (h : best l = some x) : x ∈ l ∧ ∀ y ∈ l, y.2.score ≤ x.2.score := by
  induction l generalizing x with
  | nil => cases h
  | cons a l ih =>
    unfold best at h
    cases hb : best l with
    | none =>
      rw [hb] at h; cases h
      cases l with
      | nil => simp
      | cons b l =>
        exfalso
        unfold best at hb
        split at hb
        · cases hb
        · split_ifs at hb
    | some y =>
      rw [hb] at h
      simp only at h
      obtain ⟨h1, h2⟩ := ih y hb
      split_ifs at h with hlt
      · cases h
        refine ⟨List.mem_cons_of_mem _ h1, fun z hz => ?_⟩
        rcases List.mem_cons.1 hz with e | e
        · rw [e]; exact hlt.le
        · exact h2 z e
      · cases h
        refine ⟨List.mem_cons_self .., fun z hz => ?_⟩
        rcases List.mem_cons.1 hz with e | e
        · rw [e]
        · exact (h2 z e).trans (not_lt.1 hlt)

theorem best_none (l : List (P × Res)) (h : l ≠ []) : best l ≠ none := by
  cases l with
  | nil => exact absurd rfl h
  | cons a l =>
    unfold best
    split
    · simp
    · split_ifs <;> simp

/-- **C126, the best result of a directory.** Of the results in a directory one with the largest value is taken; none only if there
are none. -/
theorem C126_best_result (fs : P → Option (Node P)) (p : P) (l : List (P × Res)) (h : fs p = some (.dir l)) :
    (l = [] ∧ findInit fs p = .error .noFile) ∨ ∃ q r, (q, r) ∈ l ∧ (∀ y ∈ l, y.2.score ≤ r.score) ∧ findInit fs p = .ok q := by
  by_cases hl : l = []
  · left; subst hl; exact ⟨rfl, by unfold findInit; rw [h]; rfl⟩
  · right
    cases hb : best l with
    | none => exact absurd hb (best_none l hl)
    | some x =>
      obtain ⟨h1, h2⟩ := best_spec l x hb
      exact ⟨x.1, x.2, h1, h2, by unfold findInit; rw [h]; simp only [hb]⟩

/-- **C126, a result that is named.** A result file is taken as it is, and nothing stands for a missing one. -/
theorem C126_named_result (fs : P → Option (Node P)) (p : P) : (∀ r, fs p = some (.res r) → findInit fs p = .ok p) ∧ (fs p = none → findInit fs p = .error .noFile) := by
  constructor
  · intro r h
    unfold findInit
    rw [h]
  · intro h
    unfold findInit
    rw [h]

/-- **C126, starting from a result file.** Given a result file, the run starts at its best values: each free parameter under its own
name, and at its fiducial value if the result does not have it. -/
theorem C126_start_from_file (fs : P → Option (Node P)) (folder : P) (free : List Free) (nlopt : Bool) (iterations : ℕ) (maxIter : Option (Option ℕ))
    (p : P) (r : Res) (hp : fs p = some (.res r)) (hl : r.names.length = r.best.length) (hd : r.names.Nodup) {d : Drv P}
    (hd' : configure fs folder nlopt iterations (make (some (some .result)) (some (some p)) maxIter) = .ok d) :
    ∃ v, start fs free nlopt d = .ok (.values v) ∧ v.length = free.length ∧
      ∀ i (hi : i < free.length) (hv : i < v.length),
        (∀ k (hk : k < r.names.length), r.names[k] = free[i].name → v[i] = some (r.best[k]'(hl ▸ hk))) ∧
        (free[i].name ∉ r.names → v[i] = free[i].fiducial) := by
  have hattr : d.attrInit = some .result ∧ d.attrStart = some p := by
    cases nlopt
    · simp [configure, make, hp] at hd'
      subst hd'; exact ⟨rfl, rfl⟩
    · cases maxIter with
      | none => simp [configure, make] at hd'
      | some o =>
        simp [configure, make, hp] at hd'
        subst hd'; exact ⟨rfl, rfl⟩
  refine ⟨_, by unfold start; rw [hattr.1]; simp only [hattr.2, hp]; rfl, by simp, ?_⟩
  intro i hi hv
  simp only [List.getElem_map]
  have hz : (r.names.zip r.best).length = r.names.length := by rw [List.length_zip, hl, Nat.min_self]
  constructor
  · intro k hk hn
    have hkb : k < r.best.length := hl ▸ hk
    have hlook : lookup r.names r.best free[i].name = some (r.best[k]'hkb) := by
      unfold lookup
      have hmem : (r.names[k], r.best[k]'hkb) ∈ r.names.zip r.best := by
        rw [List.mem_iff_getElem]
        exact ⟨k, by rw [hz]; exact hk, by rw [List.getElem_zip]⟩
      cases hf : (r.names.zip r.best).reverse.find? (fun x => decide (x.1 = free[i].name)) with
      | none =>
        rw [List.find?_eq_none] at hf
        exact absurd (by simpa using hn) (hf _ (List.mem_reverse.2 hmem))
      | some y =>
        have hy1 := List.find?_some hf
        have hy2 := List.mem_reverse.1 (List.mem_of_find?_eq_some hf)
        obtain ⟨k', hk', e⟩ := List.mem_iff_getElem.1 hy2
        rw [List.getElem_zip] at e
        have hk'' : k' < r.names.length := by rw [← hz]; exact hk'
        have : k' = k := by
          have h1 : r.names[k'] = r.names[k] := by
            rw [hn]
            have : y.1 = free[i].name := by simpa using hy1
            rw [← this, ← e]
          exact (List.Nodup.getElem_inj_iff hd (hi := hk'') (hj := hk)).1 h1
        subst this
        rw [← e]; rfl
    rw [hlook]
  · intro hn
    have hlook : lookup r.names r.best free[i].name = none := by
      unfold lookup
      rw [Option.map_eq_none_iff, List.find?_eq_none]
      intro y hy hyn
      have hy' := List.mem_reverse.1 hy
      have : y.1 = free[i].name := by simpa using hyn
      exact hn (this ▸ (List.of_mem_zip hy').1)
    rw [hlook]

/-- **C126, false of the code.** If no result is named, one is looked for in the folder, and found; but the run is not told, and
fails. -/
theorem C126_search_counterexample (fs : P → Option (Node P)) (folder : P) (l : List (P × Res)) (hf : fs folder = some (.dir l)) (hl : l ≠ [])
    (hres : ∀ x ∈ l, fs x.1 = some (.res x.2)) (s : Option (Option P)) (hs : s = none ∨ s = some none) (free : List Free) (iterations : ℕ)
    (maxIter : Option (Option ℕ)) :
    ∃ d q, configure fs folder false iterations (make (some (some .result)) s maxIter) = .ok d ∧ d.parStart = some (some q) ∧
      start fs free false d = .error .noStart := by
  rcases C126_best_result fs folder l hf with ⟨e, -⟩ | ⟨q, r, hq, -, he⟩
  · exact absurd e hl
  · have hsn : s.getD none = none := by rcases hs with e | e <;> rw [e] <;> rfl
    refine ⟨{ make (some (some .result)) s maxIter with parIterations := some iterations, parStart := some (some q) }, q, ?_, rfl, ?_⟩
    · unfold configure make
      simp only [Bool.false_eq_true, if_false, Option.getD_some, if_true, hsn, he, hres _ hq, Option.isSome_some]
    · unfold start make
      simp only [Option.getD_some, hsn]

/-- **C126, false of the code.** The same if a directory of results is named. -/
theorem C126_directory_counterexample (fs : P → Option (Node P)) (folder p : P) (l : List (P × Res)) (hf : fs p = some (.dir l)) (hl : l ≠ [])
    (hres : ∀ x ∈ l, fs x.1 = some (.res x.2)) (free : List Free) (iterations : ℕ) (maxIter : Option (Option ℕ)) :
    ∃ d q, configure fs folder false iterations (make (some (some .result)) (some (some p)) maxIter) = .ok d ∧ d.parStart = some (some q) ∧
      start fs free false d = .error .load := by
  rcases C126_best_result fs p l hf with ⟨e, -⟩ | ⟨q, r, hq, -, he⟩
  · exact absurd e hl
  · refine ⟨{ make (some (some .result)) (some (some p)) maxIter with parIterations := some iterations, parStart := some (some q) }, q, ?_, rfl, ?_⟩
    · unfold configure make
      simp only [Bool.false_eq_true, if_false, Option.getD_some, if_true, hf, he, hres _ hq, Option.isSome_some]
    · unfold start make
      simp only [Option.getD_some, hf]

/-- **C126, false of the code.** A free parameter without fiducial value that the result does not have is not refused: the run starts at
`nan`. -/
theorem C126_nan_counterexample (fs : P → Option (Node P)) (nlopt : Bool) (p : P) (r : Res) (hp : fs p = some (.res r)) (n : String) (hn : n ∉ r.names)
    (d : Drv P) (h1 : d.attrInit = some .result) (h2 : d.attrStart = some p) :
    start fs [⟨n, none⟩] nlopt d = .ok (.values [none]) := by
  have hlook : lookup r.names r.best n = none := by
    unfold lookup
    rw [Option.map_eq_none_iff, List.find?_eq_none]
    intro y hy hyn
    have : y.1 = n := by simpa using hyn
    exact hn (this ▸ (List.of_mem_zip (List.mem_reverse.1 hy)).1)
  unfold start
  rw [h1]
  simp only [h2, hp, List.map_cons, List.map_nil, hlook]

/-- **C126, numbers of iterations.** A new minimisation does what the command line says if its parameter file has the options of LBFGS;
a restarted run does that many more than were done, if its parameter file says how to start. -/
theorem C126_iterations (fs : P → Option (Node P)) (folder : P) (iterations done : ℕ) (init : Option Init) (start : Option (Option P)) (o : Option ℕ)
    (maxIter : Option (Option ℕ)) :
    (init ≠ some .result → ∃ d, configure fs folder true iterations (make (some init) start (some o)) = .ok d ∧
      d.attrMaxIter = some iterations ∧ d.parMaxIter = some (some iterations)) ∧
    (∃ d, setRestart true done iterations (make (some init) start maxIter) = .ok d ∧ d.attrMaxIter = some (iterations + done) ∧
      d.attrInit = some .previousRun) ∧
    (∃ d, setRestart false done iterations (make (some init) start maxIter) = .ok d ∧ d.parIterations = some (iterations + done) ∧
      d.attrInit = some .previousRun) := by
  refine ⟨fun h => ?_, ⟨_, rfl, rfl, rfl⟩, ⟨_, rfl, rfl, rfl⟩⟩
  refine ⟨_, by unfold configure make; simp only [if_true, Option.getD_some, if_neg h]; rfl, rfl, rfl⟩

/-- **C126, false of the code.** Both have defaults; but a file that relies on them cannot be used for a minimisation, and no run with
such a file can be restarted. -/
theorem C126_defaults_counterexample (fs : P → Option (Node P)) (folder : P) (iterations done : ℕ) (init : Option (Option Init))
    (start : Option (Option P)) (maxIter : Option (Option ℕ)) (lb : Bool) :
    configure fs folder true iterations (make init start none) = .error .key ∧
    (make (none : Option (Option Init)) start maxIter).attrInit = some .fiducial ∧
    setRestart lb done iterations (make (none : Option (Option Init)) start maxIter) = .error .key := by
  refine ⟨?_, rfl, rfl⟩
  unfold configure make
  simp only [if_true]

/-- **C126, false of the code.** The command line cannot ask for a minimisation from the priors, though that is a valid value. -/
theorem C126_prior_counterexample (fs : P → Option (Node P)) (folder : P) (iterations : ℕ) (o : Option ℕ) (st : Option (Option P)) (free : List Free) :
    ∃ d, configure fs folder true iterations (make (some (some .prior)) st (some o)) = .ok d ∧ start fs free true d = .error .prior := by
  refine ⟨_, by unfold configure make; simp only [if_true, Option.getD_some]; rfl, rfl⟩

end Verif.Start
