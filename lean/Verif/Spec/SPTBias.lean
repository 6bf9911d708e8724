/-
Specification of one-loop perturbation theory for biased tracers in redshift space, independent of the code: the density of the tracers is
`b δ + (b2/2) δ² + (bs/2) s²`, `s²` the square of the tidal field, and the tracers move with the matter.
-/
import Verif.Spec.SPT

namespace Verif.SPT

noncomputable section

/-- linear, second-order and tidal bias -/
structure Tracer where
  b : ℝ
  b2 : ℝ
  bs : ℝ

/-- the tidal kernel, `cos² - 1/3` -/
def S2 (p s : V) : ℝ := (dot p s)^2/(dot p p * dot s s) - 1/3

/-- Kernels of `(1 + b δ) exp(displacement)` to third order: those of the matter with a factor `b` for the density -/
def Y1 (t : Tracer) (f : ℝ) (n p : V) : ℝ := t.b + disp f n p p
@[inherit_doc Y1] def Y2 (t : Tracer) (f : ℝ) (n p s : V) : ℝ :=
  let d := disp f n (p + s)
  t.b * F2 p s + d (p + s) * G2 p s + t.b * (d p + d s)/2 + d p * d s / 2
@[inherit_doc Y1] def Y3r (t : Tracer) (f : ℝ) (n a b c : V) : ℝ :=
  let d := disp f n (a + b + c)
  t.b * F3 a b c + d (a + b + c) * G3 a b c + t.b * (F2 a b * d c + d (a + b) * G2 a b) + (t.b * (d a * d b / 2) + d a * (d (b + c) * G2 b c)) + d a * d b * d c / 6
@[inherit_doc Y1] def Y3 (t : Tracer) (f : ℝ) (n a b c : V) : ℝ := sym3 (Y3r t f n) a b c

/-- The second-order bias: `(b2/2) δ² + (bs/2) s²` -/
def N2 (t : Tracer) (p s : V) : ℝ := (t.b2 + t.bs * S2 p s)/2

/-- The tree-level cross spectrum of two tracers in redshift space -/
def Q11 (t t' : Tracer) (f μ : ℝ) (P : ℝ → ℝ) (K : ℝ) : ℝ := Y1 t f (los μ 0) (kvec K) * Y1 t' f (los μ 0) (kvec K) * P K
/-- `3 P(k) ∫ d³q/(2π)³ (Y1 Y3'(k, q, -q) + Y1' Y3(k, q, -q)) P(q)`; the third-order contributions of the second-order biases are taken to be absorbed in the linear bias -/
def Q13 (t t' : Tracer) (f μ : ℝ) (P : ℝ → ℝ) (K : ℝ) : ℝ :=
  3 * Y1 t f (los μ 0) (kvec K) * P K *
    (1/(2*Real.pi^2) * ∫ q in Set.Ioi (0:ℝ), q^2 * P q * mean fun x φ => Y3 t' f (los μ φ) (kvec K) (qvec q x) (-qvec q x)) +
  3 * Y1 t' f (los μ 0) (kvec K) * P K *
    (1/(2*Real.pi^2) * ∫ q in Set.Ioi (0:ℝ), q^2 * P q * mean fun x φ => Y3 t f (los μ φ) (kvec K) (qvec q x) (-qvec q x))
/-- `2 ∫ d³q/(2π)³ (Y2 Y2' + Y2 N2' + N2 Y2')(q, k-q) P(q) P(|k-q|)`: to first order in the second-order biases -/
def Q22 (t t' : Tracer) (f μ : ℝ) (P : ℝ → ℝ) (K : ℝ) : ℝ :=
  2 * (1/(2*Real.pi^2) * ∫ q in Set.Ioi (0:ℝ), q^2 * P q *
    mean fun x φ => (Y2 t f (los μ φ) (qvec q x) (kvec K - qvec q x) * Y2 t' f (los μ φ) (qvec q x) (kvec K - qvec q x) +
      Y2 t f (los μ φ) (qvec q x) (kvec K - qvec q x) * N2 t' (qvec q x) (kvec K - qvec q x) +
      N2 t (qvec q x) (kvec K - qvec q x) * Y2 t' f (los μ φ) (qvec q x) (kvec K - qvec q x)) * P (Real.sqrt (dot (kvec K - qvec q x) (kvec K - qvec q x))))

/-- For unbiased tracers these are the spectra of the matter. -/
theorem unbiased (f μ : ℝ) (P : ℝ → ℝ) (K : ℝ) : Q11 ⟨1, 0, 0⟩ ⟨1, 0, 0⟩ f μ P K = P11 f μ P K ∧ Q13 ⟨1, 0, 0⟩ ⟨1, 0, 0⟩ f μ P K = P13 f μ P K ∧
    Q22 ⟨1, 0, 0⟩ ⟨1, 0, 0⟩ f μ P K = P22 f μ P K := by
  have e1 : Y1 ⟨1, 0, 0⟩ = Z1 := rfl
  have e2 : Y2 ⟨1, 0, 0⟩ = Z2 := by funext f n p s; simp only [Y2, Z2, one_mul]
  have e3 : Y3 ⟨1, 0, 0⟩ = Z3 := by funext f n a b c; simp only [Y3, Z3, Y3r, Z3r, sym3, one_mul]
  have e4 : N2 ⟨1, 0, 0⟩ = fun _ _ => 0 := by funext p s; simp [N2]
  refine ⟨?_, ?_, ?_⟩
  · simp only [Q11, P11, e1]; ring
  · simp only [Q13, P13, e1, e3]; ring
  · simp only [Q22, P22, e2, e4, mul_zero, zero_mul, add_zero]; simp only [pow_two]

end

end Verif.SPT
