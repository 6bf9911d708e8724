/-
What may be given for an option of a fit, from the documentation of the options (`pyRSD/rsdfit/driver.py:49-191`).
-/
import Verif.Model.Options

namespace Verif.Opts

/-- the values an option accepts: two tracers; decorators of the one kind there is, by statistic, or none; five ways to start, or none; anything for the others -/
def Acceptable (h : Heap) : Opt → Val → Prop
  | .tracer_type, v => v = .str "galaxy" ∨ v = .str "quasar"
  | .init_from, v => v = .none ∨ v = .str "nlopt" ∨ v = .str "fiducial" ∨ v = .str "prior" ∨ v = .str "result" ∨ v = .str "previous_run"
  | .theory_decorator, v => v = .none ∨ ∃ r, v = .dict r ∧ ∀ p ∈ cell h r, p.2 = .str "systematic_free_P0"
  | _, _ => True

/-- the two options for which `None` means an empty dictionary -/
def NoneIsEmpty (o : Opt) : Prop := o = .theory_decorator ∨ o = .stat_specific_params

instance (o : Opt) : Decidable (NoneIsEmpty o) := by unfold NoneIsEmpty; infer_instance

/-- the value `w` of the attribute, for what the file says -/
def Holds (h h' : Heap) (o : Opt) (v w : Val) : Prop :=
  (v ≠ .none → w = v) ∧ (v = .none → ¬ NoneIsEmpty o → w = .none) ∧ (v = .none → NoneIsEmpty o → ∃ r, w = .dict r ∧ h.length ≤ r ∧ h'[r]? = some [])

end Verif.Opts
