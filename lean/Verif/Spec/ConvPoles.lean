/-
C150: what `convolve_multipoles` is to give.  None of this mentions the model's own steps.
-/
import Verif.Props.Window
import Verif.Spec.Xi

namespace Verif.ConvPoles

open Verif.Window

noncomputable section

/-- the trapezoidal rule for `N` points -/
def trapezoid (N : ℕ) (x y : ℕ → ℝ) : ℝ := ∑ i ∈ Finset.range (N-1), (x (i+1) - x i)*((y i + y (i+1))/2)

/-- the multipole `ell` of the correlation function at `s`: `(-1)^(ell/2) ∫ q²/(2π²) P j_ell(q s) dq` -/
def toXi (ell N : ℕ) (q P : ℕ → ℝ) (s : ℝ) : ℝ := (-1)^(ell/2)*trapezoid N q fun j => (q j)^2/(2*Real.pi^2)*P j*Xi.sph ell (q j*s)

/-- the multipole `ell` of the power spectrum at `k`: `4π (-1)^(ell/2) ∫ s² xi j_ell(k s) ds` -/
def toPk (ell N : ℕ) (s xi : ℕ → ℝ) (k : ℝ) : ℝ := (-1)^(ell/2)*trapezoid N s fun a => 4*Real.pi*(s a)^2*xi a*Xi.sph ell (s a*k)

/-- what is used of `splrep`/`splev` with `k=3, s=0`: the curve is linear in the data and goes through them -/
structure CubicThrough (cs : (m : ℕ) → (ℕ → ℝ) → (ℕ → ℝ) → ℝ → ℝ) : Prop where
  lin : ∀ m x y z (a b : ℝ) t, 4 ≤ m → cs m x (fun j => a*y j + b*z j) t = a*cs m x y t + b*cs m x z t
  through : ∀ m x y j, 4 ≤ m → (∀ i, i + 1 < m → x i < x (i+1)) → j < m → cs m x y (x j) = y j

/-- a convolver that was made from `s` and `W`: `smin` and `smax` are bounds of the separations, the splines go through the tabulated values -/
structure Made {n : ℕ} (w : Win n) (spl : (Fin n → ℝ) → ℝ → ℝ) : Prop where
  bounds : ∀ a, w.smin ≤ w.s a ∧ w.s a ≤ w.smax
  lin : LinearSpline spl
  through : ∀ f a, spl f (w.s a) = f a

end
end Verif.ConvPoles
