/-
Specification of adaptive quadrature: what it means to integrate by repeatedly halving the interval with the largest error estimate.  Nothing here refers to the workspace of the code.
-/
import Mathlib.Data.Multiset.AddSub
import Mathlib.Algebra.BigOperators.Group.Multiset.Basic
import Mathlib.Data.Real.Basic

namespace Verif.GK

/-- The sum of a function of intervals over a collection of intervals -/
def total (v : ℝ → ℝ → ℝ) (S : Multiset (ℝ × ℝ)) : ℝ := (S.map fun J => v J.1 J.2).sum

/-- `I` is one of the intervals of `S`, and none has a larger error -/
def Worst (err : ℝ → ℝ → ℝ) (S : Multiset (ℝ × ℝ)) (I : ℝ × ℝ) : Prop := I ∈ S ∧ ∀ J ∈ S, err J.1 J.2 ≤ err I.1 I.2

/-- The intervals after `I` was cut into halves -/
noncomputable def halve (S : Multiset (ℝ × ℝ)) (I : ℝ × ℝ) : Multiset (ℝ × ℝ) :=
  S.erase I + {(I.1, (I.1 + I.2) / 2), ((I.1 + I.2) / 2, I.2)}

/-- The estimated error is within the tolerance: relative to the value or absolute -/
def Converged (val err : ℝ → ℝ → ℝ) (epsrel epsabs : ℝ) (S : Multiset (ℝ × ℝ)) : Prop :=
  total err S ≤ max epsabs (epsrel * |total val S|)

/-- The interval is too small to be cut again: both ends are, up to 100 units of the last place of double precision (or 1000 times the smallest number), no farther from 0 than the middle -/
def Tiny (I : ℝ × ℝ) : Prop :=
  |I.1| ≤ (1 + 100 / 2 ^ 52) * (|(I.1 + I.2) / 2| + 1000 / 2 ^ 1022) ∧ |I.2| ≤ (1 + 100 / 2 ^ 52) * (|(I.1 + I.2) / 2| + 1000 / 2 ^ 1022)

/-- A sequence of `n` bisections, at least one: the `i`-th cuts `I i`, the worst interval of `S i`; none follows convergence or the bisection of a tiny interval -/
structure Run (val err : ℝ → ℝ → ℝ) (epsrel epsabs : ℝ) (n : ℕ) (S : ℕ → Multiset (ℝ × ℝ)) (I : ℕ → ℝ × ℝ) : Prop where
  pos : 1 ≤ n
  step : ∀ i, i < n → Worst err (S i) (I i) ∧ S (i + 1) = halve (S i) (I i)
  go : ∀ i, i + 1 < n → ¬ Converged val err epsrel epsabs (S (i + 1)) ∧ ¬ Tiny (I i)

/-- `xs` are the end points, in order, of a subdivision of `[a, b]` -/
structure IsSubdivision (a b : ℝ) (xs : List ℝ) : Prop where
  first : xs.head? = some a
  last : xs.getLast? = some b
  mono : xs.Pairwise (· ≤ ·)

/-- The intervals between consecutive points -/
def pieces (xs : List ℝ) : List (ℝ × ℝ) := xs.zip xs.tail

end Verif.GK
