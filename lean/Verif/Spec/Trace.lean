import Verif.Model.Trace
import Mathlib.Topology.Order.IntermediateValue
import Mathlib.LinearAlgebra.Lagrange
import Mathlib.Topology.Algebra.Polynomial

/-!
# What is said about the distribution of a chain
-/

namespace Verif.Trace

open Plot1D Classical

/-- The finite samples of a chain -/
def Trace.finite (t : Trace) : List ℝ := t.data.filterMap id

/-- The fraction of the samples with a property -/
noncomputable def frac (l : List ℝ) (p : ℝ → Prop) : ℝ := ((l.filter fun x => decide (p x)).length : ℝ) / l.length

/-- The numbers drawn -/
def Drawn.values : Drawn → List ℝ
  | .one x => [x]
  | .many l => l

/-- An array is returned -/
def Drawn.isArray : Drawn → Prop
  | .one _ => False
  | .many _ => True

/-- In increasing order -/
def Increasing (l : List ℝ) : Prop := ∀ i j, i < j → j < l.length → l.getD i 0 < l.getD j 0

/-- A spline goes through its points, and is continuous -/
def Smooth (S : Interp) : Prop := ∀ xs ys : List ℝ, xs.length = ys.length → 4 ≤ xs.length → Increasing xs →
  Continuous (S xs ys) ∧ ∀ i < xs.length, S xs ys (xs.getD i 0) = ys.getD i 0

/-- A root finder: an error if the function has the same sign at both ends, else a root between them -/
def Bisects (B : Solver) : Prop := ∀ (f : ℝ → ℝ) (a b : ℝ), Continuous f → a ≤ b →
  (0 < f a * f b → B f a b = .error .value) ∧ (f a * f b ≤ 0 → ∃ x, B f a b = .ok x ∧ a ≤ x ∧ x ≤ b ∧ f x = 0)

/-- There is a root finder. -/
theorem bisects_exists : ∃ B, Bisects B := by
  refine ⟨fun f a b => if h : ∃ x, a ≤ x ∧ x ≤ b ∧ f x = 0 ∧ f a * f b ≤ 0 then .ok h.choose else .error .value, fun f a b hf hab => ⟨fun h => ?_, fun h => ?_⟩⟩
  · dsimp only
    rw [dif_neg]
    rintro ⟨x, _, _, _, h4⟩
    linarith
  · have : ∃ x, a ≤ x ∧ x ≤ b ∧ f x = 0 ∧ f a * f b ≤ 0 := by
      have h0 : (0 : ℝ) ∈ f '' Set.Icc a b := by
        rcases le_total (f a) 0 with h1 | h1
        · rcases le_or_gt 0 (f b) with h2 | h2
          · exact intermediate_value_Icc hab hf.continuousOn ⟨h1, h2⟩
          · have : f a = 0 := by nlinarith
            exact ⟨a, ⟨le_rfl, hab⟩, this⟩
        · rcases le_or_gt (f b) 0 with h2 | h2
          · exact intermediate_value_Icc' hab hf.continuousOn ⟨h2, h1⟩
          · have : f a = 0 := by nlinarith
            exact ⟨a, ⟨le_rfl, hab⟩, this⟩
      obtain ⟨x, ⟨h1, h2⟩, h3⟩ := h0
      exact ⟨x, h1, h2, h3, h⟩
    dsimp only
    rw [dif_pos this]
    exact ⟨_, rfl, this.choose_spec.1, this.choose_spec.2.1, this.choose_spec.2.2.1⟩

/-- There is a spline. -/
theorem smooth_exists : ∃ S, Smooth S := by
  refine ⟨fun xs ys x => (Lagrange.interpolate (Finset.range xs.length) (fun i => xs.getD i 0) (fun i => ys.getD i 0)).eval x, fun xs ys _ _ h => ⟨Polynomial.continuous _, fun i hi => ?_⟩⟩
  have hinj : Set.InjOn (fun i => xs.getD i 0) (Finset.range xs.length : Set ℕ) := by
    intro i hi j hj hij
    simp only [Finset.coe_range, Set.mem_Iio] at hi hj
    rcases lt_trichotomy i j with h1 | h1 | h1
    · exact absurd hij (h i j h1 hj).ne
    · exact h1
    · exact absurd hij (h j i h1 hi).ne'
  exact Lagrange.eval_interpolate_at_node (fun i => ys.getD i 0) hinj (Finset.mem_range.2 hi)

end Verif.Trace
