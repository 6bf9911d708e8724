/-
What the types of the nonlinear biases mean, written without the functions of the model.
-/
import Verif.Model.NlBias
import Mathlib.Logic.Relation

namespace Verif.NlBias

/-- the polynomial a user sets: `b2_00`: `c₄ b⁴ + c₂ b² + c₀`; `b2_01`: `c₂ b² + c₁ b + c₀` -/
def polynomial (c : ℕ → ℝ) : Bias → ℝ → ℝ
  | .a00 | .b00 | .c00 | .d00 => fun x => c 4*x^4 + c 2*x^2 + c 0
  | .a01 | .b01 => fun x => c 2*x^2 + c 1*x + c 0

/-- `b` is to be replaced by `b'` -/
def Follows (T : Types) (b b' : Bias) : Prop := b ≠ b' ∧ (T b = some b'.name ∨ (T b = some "vlah" ∧ b' = b.first))

/-- the function a bias stands for, given the types, the coefficients and the fits -/
inductive Means (T : Types) (C : Bias → ℕ → ℝ) (fits : Bias → ℝ → ℝ) : Bias → (ℝ → ℝ) → Prop
  | fit (b : Bias) : (T b = none ∨ T b = some b.name ∨ (T b = some "vlah" ∧ b.first = b)) → Means T C fits b (fits b)
  | poly (b : Bias) : T b = some "poly" → Means T C fits b (polynomial (C b) b)
  | follow (b b' : Bias) (g : ℝ → ℝ) : Follows T b b' → Means T C fits b' g → Means T C fits b g

/-- from `b` one comes back to where one was -/
def Loops (T : Types) (b : Bias) : Prop := ∃ b', Relation.ReflTransGen (Follows T) b b' ∧ Relation.TransGen (Follows T) b' b'

end Verif.NlBias
