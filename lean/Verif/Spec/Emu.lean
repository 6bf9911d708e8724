/-
Specification for C137: rounding of a sum of doubles, the documented parameter box of the emulator, and points of a chord.
-/
import Mathlib.Data.Real.Basic
import Mathlib.Tactic.NormNum

namespace Verif.Emu

noncomputable section

/-- `n / 2^e` is the double nearest to `q` (53 bits, ties to even); subnormal numbers are not meant -/
def Nearest (q : ℚ) (n : ℤ) (e : ℕ) : Prop :=
  2 ^ 52 ≤ |n| ∧ |n| < 2 ^ 53 ∧ (|q * 2 ^ e - n| < 1 / 2 ∨ |q * 2 ^ e - n| = 1 / 2 ∧ Even n)

/-- the number `n / 2^e` -/
def dy (n : ℤ) (e : ℕ) : ℝ := n / 2 ^ e

/-- the point of the chord between `(x₀, y₀)` and `(x₁, y₁)` above `x` -/
def chord (x₀ y₀ x₁ y₁ x : ℝ) : ℝ := (x₁ - x) / (x₁ - x₀) * y₀ + (x - x₀) / (x₁ - x₀) * y₁

/-- The box of parameters for which the emulator is documented (`NonlinearPS.cpp:113-145`): physical densities of matter in [0.12, 0.155] and of baryons in [0.0215, 0.0235], spectral index in
[0.85, 1.05], σ₈ in [0.61, 0.9], equation of state in [-1.3, -0.7], redshift in [0, 1], and, unless it is taken from the CMB, Hubble constant in [55, 85]; each number is the double nearest to
the decimal number (see `literals`). -/
def Box (ob om ns h w s8 z : ℝ) (cmbh : Bool) : Prop :=
  (dy 8646911284551352 56 ≤ om * h ^ 2 ∧ om * h ^ 2 ≤ dy 5584463537939415 55) ∧
  (dy 6196953087261802 58 ≤ ob * h ^ 2 ∧ ob * h ^ 2 ≤ dy 6773413839565226 58) ∧
  (dy 7656119366529843 53 ≤ ns ∧ ns ≤ dy 4728779608739021 52) ∧
  (dy 5494391545392005 53 ≤ s8 ∧ s8 ≤ dy 8106479329266893 53) ∧
  (dy (-5854679515581645) 52 ≤ w ∧ w ≤ dy (-6305039478318694) 53) ∧
  (0 ≤ z ∧ z ≤ 1) ∧ (cmbh = false → 55 ≤ 100 * h ∧ 100 * h ≤ 85)

/-- the limits of the box are the nearest doubles of the decimal numbers -/
theorem literals : Nearest 0.12 8646911284551352 56 ∧ Nearest 0.155 5584463537939415 55 ∧ Nearest 0.0215 6196953087261802 58 ∧ Nearest 0.0235 6773413839565226 58 ∧
    Nearest 0.85 7656119366529843 53 ∧ Nearest 1.05 4728779608739021 52 ∧ Nearest 0.61 5494391545392005 53 ∧ Nearest 0.9 8106479329266893 53 ∧
    Nearest (-1.3) (-5854679515581645) 52 ∧ Nearest (-0.7) (-6305039478318694) 53 ∧ Nearest 0.6 5404319552844595 53 ∧ Nearest 0.3 5404319552844595 54 := by
  unfold Nearest
  refine ⟨⟨?_, ?_, Or.inl ?_⟩, ⟨?_, ?_, Or.inl ?_⟩, ⟨?_, ?_, Or.inl ?_⟩, ⟨?_, ?_, Or.inl ?_⟩, ⟨?_, ?_, Or.inl ?_⟩, ⟨?_, ?_, Or.inl ?_⟩, ⟨?_, ?_, Or.inl ?_⟩, ⟨?_, ?_, Or.inl ?_⟩,
    ⟨?_, ?_, Or.inl ?_⟩, ⟨?_, ?_, Or.inl ?_⟩, ⟨?_, ?_, Or.inl ?_⟩, ⟨?_, ?_, Or.inl ?_⟩⟩ <;> norm_num [abs_lt, abs_le]

end

end Verif.Emu
