/-
Specification of one-loop standard perturbation theory in redshift space, independent of the code: the recursion for the density and velocity kernels of the cosmic fluid,
the expansion of the redshift-space density, and the one-loop power spectrum.
-/
import Verif.Spec.PT

namespace Verif.SPT

noncomputable section

/-- wave vectors -/
abbrev V := ℝ × ℝ × ℝ

/-- the scalar product -/
def dot (a b : V) : ℝ := a.1*b.1 + a.2.1*b.2.1 + a.2.2*b.2.2

/-- the couplings of the continuity equation … -/
def al (a b : V) : ℝ := dot (a + b) a / dot a a
/-- … and of the Euler equation -/
def be (a b : V) : ℝ := dot (a + b) (a + b) * dot a b / (2 * dot a a * dot b b)

/-- Second-order kernels of density and velocity divergence before symmetrisation, `F_n = Σ_m G_m/((2n+3)(n-1)) [(2n+1) α F_{n-m} + 2 β G_{n-m}]`,
`G_n = Σ_m G_m/((2n+3)(n-1)) [3 α F_{n-m} + 2n β G_{n-m}]` -/
def F2r (a b : V) : ℝ := (5 * al a b + 2 * be a b)/7
@[inherit_doc F2r] def G2r (a b : V) : ℝ := (3 * al a b + 4 * be a b)/7

/-- symmetrisation -/
def sym2 (f : V → V → ℝ) (a b : V) : ℝ := (f a b + f b a)/2
@[inherit_doc sym2] def sym3 (f : V → V → V → ℝ) (a b c : V) : ℝ := (f a b c + f a c b + f b a c + f b c a + f c a b + f c b a)/6

def F2 : V → V → ℝ := sym2 F2r
def G2 : V → V → ℝ := sym2 G2r

/-- Third-order kernels before symmetrisation -/
def F3r (a b c : V) : ℝ := (7 * al a (b + c) * F2 b c + 2 * be a (b + c) * G2 b c + G2 a b * (7 * al (a + b) c + 2 * be (a + b) c))/18
@[inherit_doc F3r] def G3r (a b c : V) : ℝ := (3 * al a (b + c) * F2 b c + 6 * be a (b + c) * G2 b c + G2 a b * (3 * al (a + b) c + 6 * be (a + b) c))/18

def F3 : V → V → V → ℝ := sym3 F3r
def G3 : V → V → V → ℝ := sym3 G3r

/-- The displacement along the line of sight `n`, in units of the inverse of `k·n`, of a mode `p`: `f (k·n) (p·n)/p²` -/
def disp (f : ℝ) (n k p : V) : ℝ := f * dot k n * dot p n / dot p p

/-- Kernels of the density in redshift space, `(1 + δ) exp(displacement)`, to third order -/
def Z1 (f : ℝ) (n p : V) : ℝ := 1 + disp f n p p
@[inherit_doc Z1] def Z2 (f : ℝ) (n a b : V) : ℝ :=
  let d := disp f n (a + b)
  F2 a b + d (a + b) * G2 a b + (d a + d b)/2 + d a * d b / 2
@[inherit_doc Z1] def Z3r (f : ℝ) (n a b c : V) : ℝ :=
  let d := disp f n (a + b + c)
  F3 a b c + d (a + b + c) * G3 a b c + (F2 a b * d c + d (a + b) * G2 a b) + (d a * d b / 2 + d a * (d (b + c) * G2 b c)) + d a * d b * d c / 6
@[inherit_doc Z1] def Z3 (f : ℝ) (n a b c : V) : ℝ := sym3 (Z3r f n) a b c

/-- The frame: `k` along the first axis, `q` in the plane of the first two, the line of sight at the angle of cosine `μ` to `k` with azimuth `φ` -/
def kvec (K : ℝ) : V := (K, 0, 0)
@[inherit_doc kvec] def qvec (q x : ℝ) : V := (q*x, q * Real.sqrt (1 - x^2), 0)
@[inherit_doc kvec] def los (μ φ : ℝ) : V := (μ, Real.sqrt (1 - μ^2) * Real.cos φ, Real.sqrt (1 - μ^2) * Real.sin φ)

/-- The mean over the directions of `q`: `x` the cosine to `k`, `φ` the azimuth of the line of sight -/
def mean (F : ℝ → ℝ → ℝ) : ℝ := 1/2 * ∫ x in (-1:ℝ)..1, PTSpec.avg (F x)

/-- The tree-level spectrum in redshift space -/
def P11 (f μ : ℝ) (P : ℝ → ℝ) (K : ℝ) : ℝ := (Z1 f (los μ 0) (kvec K))^2 * P K
/-- `6 Z1 P(k) ∫ d³q/(2π)³ Z3(k, q, -q) P(q)` -/
def P13 (f μ : ℝ) (P : ℝ → ℝ) (K : ℝ) : ℝ :=
  6 * Z1 f (los μ 0) (kvec K) * P K *
    (1/(2*Real.pi^2) * ∫ q in Set.Ioi (0:ℝ), q^2 * P q * mean fun x φ => Z3 f (los μ φ) (kvec K) (qvec q x) (-qvec q x))
/-- `2 ∫ d³q/(2π)³ Z2(q, k-q)² P(q) P(|k-q|)` -/
def P22 (f μ : ℝ) (P : ℝ → ℝ) (K : ℝ) : ℝ :=
  2 * (1/(2*Real.pi^2) * ∫ q in Set.Ioi (0:ℝ), q^2 * P q *
    mean fun x φ => (Z2 f (los μ φ) (qvec q x) (kvec K - qvec q x))^2 * P (Real.sqrt (dot (kvec K - qvec q x) (kvec K - qvec q x))))

/-- The one-loop cross spectrum of two fields in real space, with kernels `A2`, `A3` and `B2`, `B3`:
`P(k) + 2 ∫ d³q/(2π)³ A2 B2(q, k-q) P(q) P(|k-q|) + 3 P(k) ∫ d³q/(2π)³ (A3 + B3)(k, q, -q) P(q)` -/
def Pcross (A2 B2 : V → V → ℝ) (A3 B3 : V → V → V → ℝ) (P : ℝ → ℝ) (K : ℝ) : ℝ :=
  P K + 2 * (1/(2*Real.pi^2) * ∫ q in Set.Ioi (0:ℝ), q^2 * P q *
      mean fun x _ => A2 (qvec q x) (kvec K - qvec q x) * B2 (qvec q x) (kvec K - qvec q x) * P (Real.sqrt (dot (kvec K - qvec q x) (kvec K - qvec q x)))) +
    3 * P K * (1/(2*Real.pi^2) * ∫ q in Set.Ioi (0:ℝ), q^2 * P q * mean fun x _ => A3 (kvec K) (qvec q x) (-qvec q x) + B3 (kvec K) (qvec q x) (-qvec q x))

/-- A spectrum with power at wavenumbers from `a` to `b` only -/
structure Band (a b : ℝ) (P : ℝ → ℝ) : Prop where
  meas : Measurable P
  nonneg : ∀ q, 0 ≤ P q
  bdd : ∃ C, ∀ q, P q ≤ C
  supp : ∀ q, P q ≠ 0 → a ≤ q ∧ q ≤ b

end

end Verif.SPT
