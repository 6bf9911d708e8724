/-
C41: unit conversions.
-/
import Verif.Model.Units
import Mathlib.Tactic.FieldSimp
import Mathlib.Tactic.NormNum
import Mathlib.Tactic.Ring

namespace Verif.Units

noncomputable section

/-! ### Specification: dimensional analysis -/

/-- The quantities that can be converted, with their dimension in lengths. -/
inductive Kind where
  | wavenumber | distance | volume | power
  deriving DecidableEq

/-- The name in the API. -/
def Kind.name : Kind → String
  | .wavenumber => "wavenumber" | .distance => "distance" | .volume => "volume" | .power => "power"

/-- The power of length: a wavenumber is an inverse length, volume and power are cubed lengths. -/
def Kind.dim : Kind → ℤ
  | .wavenumber => -1 | .distance => 1 | .volume => 3 | .power => 3

/-- The two unit systems: lengths in Mpc, or in Mpc/h. -/
inductive Sys where
  | absolute | relative
  deriving DecidableEq

/-- The name in the API. -/
def Sys.name : Sys → String
  | .absolute => "absolute" | .relative => "relative"

/-- The unit of length in Mpc. -/
def Sys.length (h : ℝ) : Sys → ℝ
  | .absolute => 1
  | .relative => 1 / h

/-- C41: the factor is that of dimensional analysis: (input length unit / output length unit) to the power of the dimension. -/
theorem C41_dimension (q : Kind) (a b : Sys) (h : ℝ) (hh : h ≠ 0) :
    factor q.name a.name b.name h = some ((a.length h / b.length h) ^ q.dim) := by
  cases q <;> cases a <;> cases b <;>
    simp [factor, varTable, Kind.name, Sys.name, Sys.length, Kind.dim, UOp.app, hh, List.find?] <;> norm_cast <;> simp

/-- C41: same units: no conversion. -/
theorem C41_same (q : Kind) (a : Sys) (h : ℝ) : factor q.name a.name a.name h = some 1 := by
  cases q <;> cases a <;> simp [factor, varTable, Kind.name, Sys.name, List.find?]

/-- C41: there and back again. -/
theorem C41_roundtrip (q : Kind) (a b : Sys) (h : ℝ) (hh : h ≠ 0) :
    ∃ x y, factor q.name a.name b.name h = some x ∧ factor q.name b.name a.name h = some y ∧ x * y = 1 := by
  refine ⟨_, _, C41_dimension q a b h hh, C41_dimension q b a h hh, ?_⟩
  have ha : a.length h ≠ 0 := by cases a <;> simp [Sys.length, hh]
  have hb : b.length h ≠ 0 := by cases b <;> simp [Sys.length, hh]
  rw [← mul_zpow, div_mul_div_comm, mul_comm (a.length h), div_self (mul_ne_zero hb ha), one_zpow]

/-- C41: the product of a wavenumber and a distance does not depend on the units, nor does power times wavenumber cubed, or power over
volume. -/
theorem C41_invariants (a b : Sys) (h : ℝ) (hh : h ≠ 0) :
    ∃ k d v p, factor "wavenumber" a.name b.name h = some k ∧ factor "distance" a.name b.name h = some d ∧
      factor "volume" a.name b.name h = some v ∧ factor "power" a.name b.name h = some p ∧ k * d = 1 ∧ p * k ^ 3 = 1 ∧ p = v ∧ v = d ^ 3 := by
  have ha : a.length h ≠ 0 := by cases a <;> simp [Sys.length, hh]
  have hb : b.length h ≠ 0 := by cases b <;> simp [Sys.length, hh]
  refine ⟨_, _, _, _, C41_dimension .wavenumber a b h hh, C41_dimension .distance a b h hh, C41_dimension .volume a b h hh,
    C41_dimension .power a b h hh, ?_, ?_, rfl, ?_⟩
  · simp only [Kind.dim, zpow_neg, zpow_one]; field_simp
  · simp only [Kind.dim, zpow_neg, zpow_one]
    norm_cast
    field_simp
  · simp only [Kind.dim, zpow_one]; norm_cast

/-- C41: anything else is refused. -/
theorem C41_refused (kind input output : String) (h : ℝ) :
    (factor kind input output h).isSome ↔ (∃ q : Kind, kind = q.name) ∧ (∃ a : Sys, input = a.name) ∧ ∃ b : Sys, output = b.name := by
  constructor
  · intro hs
    simp only [factor] at hs
    split at hs
    · simp at hs
    next hu =>
      push Not at hu
      obtain ⟨h1, h2⟩ := hu
      refine ⟨?_, ?_, ?_⟩
      · cases hf : varTable.find? (fun e => e.1 = kind) with
        | none => rw [hf] at hs; simp at hs
        | some e =>
          have hm := List.mem_of_find?_eq_some hf
          have he := List.find?_some hf
          simp only [decide_eq_true_eq] at he
          simp only [varTable, List.mem_cons, List.not_mem_nil, or_false] at hm
          rcases hm with rfl | rfl | rfl | rfl
          · exact ⟨.wavenumber, he.symm⟩
          · exact ⟨.distance, he.symm⟩
          · exact ⟨.volume, he.symm⟩
          · exact ⟨.power, he.symm⟩
      · rcases h1 with h | h
        · exact ⟨.relative, h⟩
        · exact ⟨.absolute, h⟩
      · rcases h2 with h | h
        · exact ⟨.relative, h⟩
        · exact ⟨.absolute, h⟩
  · rintro ⟨⟨q, rfl⟩, ⟨a, rfl⟩, ⟨b, rfl⟩⟩
    cases q <;> cases a <;> cases b <;> simp [factor, varTable, Kind.name, Sys.name, List.find?]

/-- A wavenumber of 1/Mpc is 1/0.7 in h/Mpc. -/
example : factor "wavenumber" "absolute" "relative" (7 / 10) = some (10 / 7) := by
  have := C41_dimension .wavenumber .absolute .relative (7 / 10) (by norm_num)
  simp only [Kind.name, Sys.name] at this
  rw [this]
  simp [Sys.length, Kind.dim]

end

end Verif.Units
