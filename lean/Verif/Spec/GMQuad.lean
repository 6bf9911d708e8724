/-
Specification of adaptive quadrature in n dimensions: what it means to integrate by repeatedly halving the box with the largest error estimate.  Nothing here refers to the storage of the code.
-/
import Mathlib.Data.Multiset.AddSub
import Mathlib.Algebra.BigOperators.Group.Multiset.Basic
import Mathlib.Data.Real.Basic
import Mathlib.Data.Fintype.Pi
import Mathlib.Data.Nat.Choose.Basic

namespace Verif.GM

variable {n : ℕ}

/-- A box, given by its lower and upper corner -/
abbrev Box (n : ℕ) := (Fin n → ℝ) × (Fin n → ℝ)

/-- The middle and the half widths of a box -/
noncomputable def Box.mid (B : Box n) : Fin n → ℝ := fun j => (B.1 j + B.2 j) / 2
noncomputable def Box.half (B : Box n) : Fin n → ℝ := fun j => (B.2 j - B.1 j) / 2

/-- The sum of a function of boxes over a collection of boxes -/
def total (v : Box n → ℝ) (S : Multiset (Box n)) : ℝ := (S.map v).sum

/-- `B` is one of the boxes of `S`, and none has a larger error -/
def Worst (err : Box n → ℝ) (S : Multiset (Box n)) (B : Box n) : Prop := B ∈ S ∧ ∀ C ∈ S, err C ≤ err B

/-- The two halves of a box, cut across an axis -/
noncomputable def Box.lower (B : Box n) (j : Fin n) : Box n := (B.1, Function.update B.2 j (B.mid j))
noncomputable def Box.upper (B : Box n) (j : Fin n) : Box n := (Function.update B.1 j (B.mid j), B.2)

/-- The boxes after `B` was cut into halves across the axis `j` -/
noncomputable def cut (S : Multiset (Box n)) (B : Box n) (j : Fin n) : Multiset (Box n) := S.erase B + {B.lower j, B.upper j}

/-- The estimated error is within the tolerance: relative to the value or absolute -/
def Converged (val err : Box n → ℝ) (epsrel epsabs : ℝ) (S : Multiset (Box n)) : Prop :=
  total err S < epsrel * |total val S| ∨ total err S < epsabs

/-- The number of evaluations of the integrand in one box: the middle, two and two points on each axis, four points in the plane of each pair of axes, and one towards each corner -/
def perBox (n : ℕ) : ℕ := 1 + 4 * n + 4 * n.choose 2 + 2 ^ n

/-- The number of evaluations before the `i`-th cut -/
def calls (n i : ℕ) : ℕ := perBox n * (1 + 2 * i)

/-- A sequence of `m` cuts: the `i`-th cuts `B i`, the worst box of `S i`, across the axis along which the fourth difference is largest; it is made unless the error is within the tolerance and at
least 1000 evaluations have been made, and as long as the evaluations it needs do not exceed ten million. -/
structure Run (val err : Box n → ℝ) (dif : Box n → Fin n → ℝ) (epsrel epsabs : ℝ) (m : ℕ) (S : ℕ → Multiset (Box n)) (B : ℕ → Box n) (ax : ℕ → Fin n) : Prop where
  step : ∀ i, i < m → Worst err (S i) (B i) ∧ (∀ j, dif (B i) j ≤ dif (B i) (ax i)) ∧ S (i + 1) = cut (S i) (B i) (ax i)
  go : ∀ i, i < m → ¬ (Converged val err epsrel epsabs (S i) ∧ 1000 ≤ calls n i) ∧ calls n (i + 1) ≤ 10000000

end Verif.GM
