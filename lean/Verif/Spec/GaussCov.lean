/-
Vocabulary for C131: the Gaussian prediction for the covariance of multipoles.
-/
import Verif.Props.Legendre

namespace Verif.GaussCov.Spec

open Verif.Legendre

noncomputable section

/-- the number of modes in a shell of radius `k` and width `dk`, in a volume `V` -/
def modes (V k dk : ℝ) : ℝ := V * k ^ 2 * dk / (2 * Real.pi ^ 2)

/-- the mean over `n + 1` equally spaced angles from 0 to 1 -/
def angleMean (n : ℕ) (f : ℝ → ℝ) : ℝ := (∑ m ∈ Finset.range (n + 1), f (m / n)) / (n + 1)

/-- two multipoles of `p2` -/
def integrand (l l' : ℕ) (p2 : ℝ → ℝ) (mu : ℝ) : ℝ := (2 * l + 1) * leg l mu * ((2 * l' + 1) * leg l' mu) * p2 mu

/-- the covariance of two multipoles for `N` modes and the squared spectrum `p2` (with noise), with `n + 1` angles -/
def gauss (n : ℕ) (N : ℝ) (l l' : ℕ) (p2 : ℝ → ℝ) : ℝ := 2 / N * angleMean n (integrand l l' p2)

/-- the same with the integral over the angle: equation 16 of Grieb et al. 2015 -/
def gaussExact (N : ℝ) (l l' : ℕ) (p2 : ℝ → ℝ) : ℝ := 2 / N * ∫ mu in (0 : ℝ)..1, integrand l l' p2 mu

/-- the variance per mode and unit volume of the spectrum `p` in a survey of shells with volumes `v` and densities `n`, if the objects of the shell `s` are weighted with
`w s` (Feldman, Kaiser and Peacock 1994) -/
def fkp (Nz : ℕ) (v n w : ℕ → ℝ) (p : ℝ) : ℝ :=
  (∑ s ∈ Finset.range Nz, (n s * w s) ^ 4 * v s * (p + 1 / n s) ^ 2) / (∑ s ∈ Finset.range Nz, (n s * w s) ^ 2 * v s) ^ 2

/-- the edges of `Nz` equal redshift bins -/
def edge (zmin zmax : ℝ) (Nz s : ℕ) : ℝ := zmin + (zmax - zmin) * (s / Nz)

/-- volume of a ball -/
def ball (r : ℝ) : ℝ := 4 / 3 * Real.pi * r ^ 3

/-- a symmetric matrix that gives no combination of the measurements a negative variance -/
structure Semidefinite (size : ℕ) (C : ℕ → ℕ → ℝ) : Prop where
  symmetric : ∀ p < size, ∀ q < size, C p q = C q p
  nonneg : ∀ x : ℕ → ℝ, 0 ≤ ∑ p ∈ Finset.range size, ∑ q ∈ Finset.range size, x p * C p q * x q

/-- no combination of the measurements has variance 0 -/
def Definite (size : ℕ) (C : ℕ → ℕ → ℝ) : Prop :=
  ∀ x : ℕ → ℝ, (∃ p < size, x p ≠ 0) → 0 < ∑ p ∈ Finset.range size, ∑ q ∈ Finset.range size, x p * C p q * x q

end

end Verif.GaussCov.Spec
