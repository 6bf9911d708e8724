/-
Specification for C111: the function a logarithmic Fourier transform works with.

Samples `d 0, ..., d (N-1)` of a function at the log-spaced points `x₀ exp(j Δ)` determine one function `F` such that `x^w F(x)` is a trigonometric polynomial of `ln x` with the period `N Δ`, of degree at most `N/2`, without the sine of the highest frequency when `N` is even, and `F` takes the value `d j` at `x₀ exp(j Δ)`.
None of this mentions the model.
-/
import Verif.Spec.Xi
import Mathlib.Analysis.SpecialFunctions.Pow.Real

namespace Verif.FFTLog

noncomputable section

/-- the trigonometric polynomial `Σₘ aₘ cos(2πm θ/N) + bₘ sin(2πm θ/N)` with `0 ≤ m ≤ N/2` -/
def trig (N : ℕ) (a b : ℕ → ℝ) (θ : ℝ) : ℝ := ∑ m ∈ Finset.range (N/2+1), (a m*Real.cos (2*Real.pi*m*θ/N) + b m*Real.sin (2*Real.pi*m*θ/N))

/-- `F` is the log-periodic interpolation, with the weight `x^w`, of the samples `d` at `x₀ exp(j Δ)` -/
structure Interp (N : ℕ) (Δ x₀ w : ℝ) (d : ℕ → ℝ) (F : ℝ → ℝ) : Prop where
  wave : ∃ a b : ℕ → ℝ, (∀ m, 2*m = N → b m = 0) ∧ ∀ x, 0 < x → x^w*F x = trig N a b (Real.log (x/x₀)/Δ)
  hits : ∀ j, j < N → F (x₀*Real.exp (j*Δ)) = d j

/-- `d` is `P`, given at the `Nx` points `x₀ exp((l+j) Δ)`, padded to `N` points, of which `l` on the left: with zeros, or with the power law through the two outermost points -/
structure Padded (N Nx l : ℕ) (Δ x₀ : ℝ) (left right : Bool) (P d : ℕ → ℝ) : Prop where
  inside : ∀ j, j < Nx → d (l+j) = P j
  left_zero : left = false → ∀ j, j < l → d j = 0
  right_zero : right = false → ∀ j, l+Nx ≤ j → j < N → d j = 0
  left_law : left = true → ∀ A p : ℝ, A ≠ 0 → (∀ j, j < 2 → P j = A*(x₀*Real.exp ((l+j:ℕ)*Δ))^p) → ∀ j, j < l → d j = A*(x₀*Real.exp (j*Δ))^p
  right_law : right = true → ∀ A p : ℝ, A ≠ 0 → (∀ j, j < Nx → Nx ≤ j+2 → P j = A*(x₀*Real.exp ((l+j:ℕ)*Δ))^p) → ∀ j, l+Nx ≤ j → j < N → d j = A*(x₀*Real.exp (j*Δ))^p

/-- `G` is the improper integral `∫₀^∞ F` -/
def Integral (F : ℝ → ℝ) (G : ℝ) : Prop := Filter.Tendsto (fun R : ℝ => ∫ x in (0:ℝ)..R, F x) Filter.atTop (nhds G)

end
end Verif.FFTLog
