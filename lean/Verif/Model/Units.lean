/-
Model of `h_conversion_factor`, `pyRSD/rsdfit/data/tools.py:9-60`.  Exact reals; division by zero (`h = 0`) is excluded by the theorems.
-/
import Mathlib.Data.Real.Basic
import Mathlib.Algebra.Order.Field.Basic

namespace Verif.Units

noncomputable section

/-- `divop` or `operator.mul`. -/
inductive UOp where
  | div
  | mul

/-- Application of the operator. -/
def UOp.app : UOp → ℝ → ℝ → ℝ
  | .div, a, b => a / b
  | .mul, a, b => a * b

/-- The table `variables` (`tools.py:9-12`). -/
def varTable : List (String × UOp × ℕ) :=
  [("wavenumber", .div, 1), ("distance", .mul, 1), ("volume", .mul, 3), ("power", .mul, 3)]

/-- `h_conversion_factor(variable_type, input_units, output_units, h)` (`tools.py:27-60`); `none` is `ValueError`. -/
def factor (kind input output : String) (h : ℝ) : Option ℝ :=
  if ¬ ((input = "relative" ∨ input = "absolute") ∧ (output = "relative" ∨ output = "absolute")) then none
  else
    match varTable.find? (fun e => e.1 = kind) with
    | none => none
    | some (_, op, p) =>
      if input = output then some 1
      else if input = "absolute" then some ((op.app 1 h) ^ p)
      else some (1 / (op.app 1 h) ^ p)

end

end Verif.Units
