/-
Vocabulary for C132.
-/
import Mathlib.Algebra.Order.Group.Abs
import Mathlib.Data.Rat.Cast.Order

namespace Verif.Labels.Spec

/-- `x` is the label nearest to `v`, the larger one if two are equally near -/
def Nearest (labels : List Rat) (v x : Rat) : Prop := x ∈ labels ∧ ∀ y ∈ labels, |x - v| < |y - v| ∨ (|x - v| = |y - v| ∧ y ≤ x)

/-- strictly increasing or strictly decreasing -/
def Ordered (labels : List Rat) : Prop := labels.Pairwise (· < ·) ∨ labels.Pairwise (· > ·)

end Verif.Labels.Spec
