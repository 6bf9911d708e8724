import Verif.Props.SetupMore
/-!
Runs that meet the hypotheses of the theorems on the set-up.
-/
namespace Verif.Setup.Example

/-- The parameters are those of the driver, of the data and of the theory; the first two are required, the last has a default, as in
the code. -/
def job : Job ℕ ℕ (ℕ × ℕ × ℕ) where
  load s := match s .driver, s .data with
    | some d, some x => some (d, x, (s .theory).getD 0)
    | _, _ => none
  save c t := match t with | .driver => c.1 | .data => c.2.1 | .theory => c.2.2 | .extra => 0 | .model => 0
  modelDir _ := none
  build c := c.1

def sections : Sections ℕ := fun t => match t with | .driver => some 1 | .data => some 2 | .theory => some 3 | _ => some 0

/-- A parameter file; no folder yet. -/
def fsNew : FS ℕ ℕ := fun p => if p = [] then some .dir else if p = ["p.dat"] then some (.par sections) else none

def argsNew : Args := { folder := ["out"], params := some ["p.dat"], model := none }

/-- A folder with a parameter file. -/
def fsOld : FS ℕ ℕ := fun p =>
  if p = [] then some .dir else if p = ["out"] then some .dir else if p = ["out", "params.dat"] then some (.par sections) else none

def argsOld : Args := { folder := ["out"], params := none, model := none }

theorem not_file_prefix {fs : FS ℕ ℕ} (h0 : isFile fs [] = false) (h1 : isFile fs ["out"] = false) (q : Path) (h : q <+: ["out"]) : isFile fs q = false := by
  have hm : q ∈ ["out"].inits := (List.mem_inits _ _).2 h
  simp only [List.inits, List.map_cons, List.map_nil, List.mem_cons, List.not_mem_nil, or_false] at hm
  rcases hm with e | e <;> rw [e] <;> assumption

theorem new_run : ∃ a' fs', NewRun fsNew fs' argsNew a' ["p.dat"] sections ∧ CanRun job fs' a' (1, 2, 3) := by
  obtain ⟨⟨a', fs'⟩, h⟩ := C126_accepted (fs := fsNew) (a := argsNew) (by intro p hp; cases hp; rfl) (by intro p hp; cases hp)
    (by simp [wantedParams, argsNew, isDir, fsNew]) (not_file_prefix rfl rfl)
  refine ⟨a', fs', ⟨h, rfl, rfl, rfl, by decide⟩, ?_⟩
  obtain ⟨h1, h2, h3, h4, h5, h6, h7, h8, h9⟩ := C126_arguments h
  have hm : a'.model = none := by rw [h5]; simp [wantedModel, argsNew, isDir, fsNew]
  have hno : ∀ x, x ≠ "logs" → fs' (["out"] ++ [x]) ≠ some .dir := by
    intro x hx e
    rcases h9 (["out"] ++ [x]) (by simp [fsNew]) with e' | ⟨-, e'⟩
    · rw [e'] at e; cases e
    · have h10 := e'.eq_of_length (by simp [argsNew])
      simp [argsNew] at h10
      exact hx h10
  refine ⟨⟨1, by unfold IsModel; rw [hm]; rfl⟩, ?_, fun _ _ => ⟨?_, ?_⟩⟩
  · rw [h1]; exact hno _ (by decide)
  · show isDir fs' a'.folder = true
    rw [h1]; exact h6
  · show fs' (a'.folder ++ _) ≠ _
    rw [h1]; exact hno _ (by decide)

theorem old_run : ∃ a' fs', OldRun fsOld fs' argsOld a' sections ∧ CanRun job fs' a' (1, 2, 3) ∧ a'.model = none := by
  obtain ⟨⟨a', fs'⟩, h⟩ := C126_accepted (fs := fsOld) (a := argsOld) (by intro p hp; cases hp) (by intro p hp; cases hp)
    (by simp [wantedParams, argsOld, isDir, fsOld]) (not_file_prefix rfl rfl)
  obtain ⟨h1, h2, h3, h4, h5, h6, h7, h8, h9⟩ := C126_arguments h
  have hm : a'.model = none := by rw [h5]; simp [wantedModel, argsOld, isDir, fsOld]
  refine ⟨a', fs', ⟨h, rfl, rfl, by simp [argsOld]⟩, ?_, hm⟩
  have hno : fs' (["out"] ++ ["model.npy"]) ≠ some .dir := by
    intro e
    rcases h9 (["out"] ++ ["model.npy"]) (by simp [fsOld]) with e' | ⟨-, e'⟩
    · rw [e'] at e; cases e
    · have h10 := e'.eq_of_length (by simp [argsOld])
      simp [argsOld] at h10
  refine ⟨⟨1, by unfold IsModel; rw [hm]; rfl⟩, ?_, fun _ _ => ⟨?_, ?_⟩⟩
  · rw [h1]
    show fs' ["out", "params.dat"] ≠ _
    rw [h8 ["out", "params.dat"] (.par sections) rfl]; simp
  · show isDir fs' a'.folder = true
    rw [h1]; exact h6
  · show fs' (a'.folder ++ _) ≠ _
    rw [h1]; exact hno

/-- The race of the example: the second rank has the default in place of the parameter of the theory. -/
theorem race : ∃ a' fs' m m', ∃ s : State ℕ ℕ (ℕ × ℕ × ℕ) 2, Reach job a' fs' s ∧ s.rank 0 = .running (1, 2, 3) m ∧ s.rank 1 = .running (1, 2, 0) m' := by
  obtain ⟨a', fs', h, -, hm⟩ := old_run
  obtain ⟨s, hs⟩ := C126_race_counterexample (m := 1) (m' := 1) h job (c := (1, 2, 3)) (c' := (1, 2, 0)) rfl rfl
    (by unfold IsModel; rw [hm]; rfl) (by unfold IsModel; rw [hm]; rfl)
  exact ⟨a', fs', 1, 1, s, hs⟩

/-- And without parameters there is no driver. -/
theorem empty_refused : job.load (fun _ => none) = none := rfl

end Verif.Setup.Example
