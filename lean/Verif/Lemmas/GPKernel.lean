/-
The Gaussian kernel is positive definite: for all finite sets of points, in any number of dimensions.
-/
import Mathlib.Analysis.SpecialFunctions.Exponential
import Mathlib.Algebra.BigOperators.Ring.Finset
import Mathlib.Algebra.BigOperators.Field
import Mathlib.Topology.Algebra.InfiniteSum.Order
import Mathlib.Algebra.Order.BigOperators.Ring.Finset
import Mathlib.Analysis.SpecialFunctions.Pow.Real
import Mathlib.Tactic.Positivity

namespace Verif.GPKernel

open Finset

variable {ι : Type} [Fintype ι] {d : ℕ}

/-- The scalar product -/
noncomputable def dot (x y : Fin d → ℝ) : ℝ := ∑ a, x a * y a

theorem pow_form (x : ι → Fin d → ℝ) (c : ι → ℝ) (n : ℕ) :
    ∑ i, ∑ j, c i * c j * dot (x i) (x j) ^ n = ∑ f : Fin n → Fin d, (∑ i, c i * ∏ t, x i (f t)) ^ 2 := by
  have h1 : ∀ i j, dot (x i) (x j) ^ n = ∑ f : Fin n → Fin d, (∏ t, x i (f t)) * ∏ t, x j (f t) := by
    intro i j
    have := Finset.prod_univ_sum (fun _ : Fin n => (Finset.univ : Finset (Fin d))) (fun _ a => x i a * x j a)
    rw [Fintype.piFinset_univ] at this
    simp only [Finset.prod_const, Finset.card_univ, Fintype.card_fin] at this
    unfold dot
    rw [this]
    exact Finset.sum_congr rfl fun f _ => Finset.prod_mul_distrib
  simp only [h1, Finset.mul_sum]
  rw [Finset.sum_congr rfl fun i _ => Finset.sum_comm, Finset.sum_comm]
  refine Finset.sum_congr rfl fun f _ => ?_
  rw [sq, Finset.sum_mul_sum]
  exact Finset.sum_congr rfl fun i _ => Finset.sum_congr rfl fun j _ => by ring

theorem exp_form (x : ι → Fin d → ℝ) (c : ι → ℝ) :
    HasSum (fun n : ℕ => (∑ f : Fin n → Fin d, (∑ i, c i * ∏ t, x i (f t)) ^ 2) / n.factorial) (∑ i, ∑ j, c i * c j * Real.exp (dot (x i) (x j))) := by
  have h : ∀ i j, HasSum (fun n : ℕ => c i * c j * (dot (x i) (x j) ^ n / n.factorial)) (c i * c j * Real.exp (dot (x i) (x j))) := by
    intro i j
    refine HasSum.mul_left _ ?_
    rw [Real.exp_eq_exp_ℝ]
    exact NormedSpace.expSeries_div_hasSum_exp (dot (x i) (x j))
  have h2 := hasSum_sum fun i (_ : i ∈ Finset.univ) => hasSum_sum fun j (_ : j ∈ Finset.univ) => h i j
  have h3 : (fun n : ℕ => (∑ f : Fin n → Fin d, (∑ i, c i * ∏ t, x i (f t)) ^ 2) / n.factorial) =
      fun n : ℕ => ∑ i, ∑ j, c i * c j * (dot (x i) (x j) ^ n / n.factorial) := by
    funext n
    rw [← pow_form, Finset.sum_div]
    refine Finset.sum_congr rfl fun i _ => ?_
    rw [Finset.sum_div]
    exact Finset.sum_congr rfl fun j _ => by ring
  rw [h3]
  exact h2

/-- The moments of weights that the exponential kernel does not see all vanish. -/
theorem exp_nonneg (x : ι → Fin d → ℝ) (c : ι → ℝ) : 0 ≤ ∑ i, ∑ j, c i * c j * Real.exp (dot (x i) (x j)) :=
  (exp_form x c).nonneg fun n => div_nonneg (Finset.sum_nonneg fun _ _ => sq_nonneg _) (by positivity)

theorem exp_moments (x : ι → Fin d → ℝ) (c : ι → ℝ) (h : ∑ i, ∑ j, c i * c j * Real.exp (dot (x i) (x j)) = 0) (n : ℕ) (f : Fin n → Fin d) :
    ∑ i, c i * ∏ t, x i (f t) = 0 := by
  have hs := exp_form x c
  rw [h] at hs
  have h0 := (hasSum_zero_iff_of_nonneg fun n => div_nonneg (Finset.sum_nonneg fun _ _ => sq_nonneg _) (by positivity)).1 hs
  have := congrFun h0 n
  simp only [Pi.zero_apply, div_eq_zero_iff, Nat.cast_eq_zero, Nat.factorial_ne_zero, or_false] at this
  rw [Finset.sum_eq_zero_iff_of_nonneg fun _ _ => sq_nonneg _] at this
  exact pow_eq_zero_iff (two_ne_zero) |>.1 (this f (Finset.mem_univ f))

/-- Functions of the points that are orthogonal to the weights together with all monomials. -/
def Orth (x : ι → Fin d → ℝ) (c : ι → ℝ) (g : ι → ℝ) : Prop := ∀ L : List (Fin d), ∑ i, c i * (g i * (L.map (x i)).prod) = 0

theorem orth_mul {x : ι → Fin d → ℝ} {c g : ι → ℝ} (h : Orth x c g) (a : Fin d) : Orth x c (fun i => g i * x i a) := by
  intro L
  have := h (a :: L)
  rw [← this]
  exact Finset.sum_congr rfl fun i _ => by rw [List.map_cons, List.prod_cons]; ring

theorem orth_comb {x : ι → Fin d → ℝ} {c g g' : ι → ℝ} (h : Orth x c g) (h' : Orth x c g') (r s : ℝ) : Orth x c (fun i => r * g i + s * g' i) := by
  intro L
  have h1 := h L
  have h2 := h' L
  have : ∑ i, c i * ((r * g i + s * g' i) * (L.map (x i)).prod) = r * ∑ i, c i * (g i * (L.map (x i)).prod) + s * ∑ i, c i * (g' i * (L.map (x i)).prod) := by
    rw [Finset.mul_sum, Finset.mul_sum, ← Finset.sum_add_distrib]
    exact Finset.sum_congr rfl fun i _ => by ring
  rw [this, h1, h2]
  ring

theorem orth_sum {x : ι → Fin d → ℝ} {c : ι → ℝ} {κ : Type} (s : Finset κ) (g : κ → ι → ℝ) (h : ∀ k ∈ s, Orth x c (g k)) : Orth x c (fun i => ∑ k ∈ s, g k i) := by
  intro L
  have : ∀ i, c i * ((∑ k ∈ s, g k i) * (L.map (x i)).prod) = ∑ k ∈ s, c i * (g k i * (L.map (x i)).prod) := by
    intro i; rw [Finset.sum_mul, Finset.mul_sum]
  rw [Finset.sum_congr rfl fun i _ => this i, Finset.sum_comm]
  exact Finset.sum_eq_zero fun k hk => h k hk L

theorem orth_dist {x : ι → Fin d → ℝ} {c g : ι → ℝ} (h : Orth x c g) (p : Fin d → ℝ) : Orth x c (fun i => g i * ∑ a, (x i a - p a) ^ 2) := by
  have h1 : ∀ a ∈ Finset.univ, Orth x c (fun i => g i * (x i a - p a) ^ 2) := by
    intro a _
    have e1 := orth_mul (orth_mul h a) a
    have e2 := orth_comb (orth_comb e1 (orth_mul h a) 1 (-2 * p a)) h 1 (p a ^ 2)
    intro L
    rw [← e2 L]
    exact Finset.sum_congr rfl fun i _ => by ring
  intro L
  rw [← orth_sum Finset.univ _ h1 L]
  exact Finset.sum_congr rfl fun i _ => by dsimp only; rw [Finset.mul_sum]

theorem orth_prod [DecidableEq ι] {x : ι → Fin d → ℝ} {c : ι → ℝ} (h : Orth x c (fun _ => 1)) (s : Finset ι) : Orth x c (fun i => ∏ j ∈ s, ∑ a, (x i a - x j a) ^ 2) := by
  induction s using Finset.induction_on with
  | empty => simpa using h
  | insert j s hj ih =>
    have := orth_dist ih (x j)
    intro L
    rw [← this L]
    exact Finset.sum_congr rfl fun i _ => by dsimp only; rw [Finset.prod_insert hj]; ring

/-- For different points the exponential of the scalar product is strictly positive definite. -/
theorem exp_definite [DecidableEq ι] {x : ι → Fin d → ℝ} (hx : Function.Injective x) {c : ι → ℝ}
    (h : ∑ i, ∑ j, c i * c j * Real.exp (dot (x i) (x j)) = 0) : c = 0 := by
  have h1 : Orth x c (fun _ => 1) := by
    intro L
    have := exp_moments x c h L.length L.get
    rw [← this]
    refine Finset.sum_congr rfl fun i _ => ?_
    rw [one_mul]
    congr 1
    rw [← List.prod_ofFn]
    congr 1
    have := List.map_ofFn (f := L.get) (g := x i)
    rw [List.ofFn_get] at this
    exact this
  funext i
  have h2 := orth_prod h1 (Finset.univ.erase i) []
  simp only [List.map_nil, List.prod_nil, mul_one] at h2
  rw [Finset.sum_eq_single i] at h2
  · rcases mul_eq_zero.1 h2 with h3 | h3
    · exact h3
    · exfalso
      rw [Finset.prod_eq_zero_iff] at h3
      obtain ⟨j, hj, h3⟩ := h3
      rw [Finset.sum_eq_zero_iff_of_nonneg fun _ _ => sq_nonneg _] at h3
      refine (Finset.mem_erase.1 hj).1 (hx (funext fun a => ?_))
      have := h3 a (Finset.mem_univ a)
      have : x i a - x j a = 0 := by simpa using this
      linarith
  · intro j _ hj
    refine mul_eq_zero_of_right _ (Finset.prod_eq_zero (Finset.mem_erase.2 ⟨hj, Finset.mem_univ j⟩) ?_)
    simp
  · intro h; exact absurd (Finset.mem_univ i) h

/-- The Gaussian kernel with squared lengths `l` -/
noncomputable def gauss (l : Fin d → ℝ) (x y : Fin d → ℝ) : ℝ := Real.exp (-(1 / 2) * ∑ a, (x a - y a) ^ 2 / l a)

theorem gauss_split {l : Fin d → ℝ} (hl : ∀ a, 0 < l a) (x y : Fin d → ℝ) :
    gauss l x y = Real.exp (-(1 / 2) * ∑ a, x a ^ 2 / l a) * Real.exp (-(1 / 2) * ∑ a, y a ^ 2 / l a) *
      Real.exp (dot (fun a => x a / Real.sqrt (l a)) (fun a => y a / Real.sqrt (l a))) := by
  unfold gauss dot
  rw [← Real.exp_add, ← Real.exp_add]
  congr 1
  rw [Finset.mul_sum, Finset.mul_sum, Finset.mul_sum, ← Finset.sum_add_distrib, ← Finset.sum_add_distrib]
  refine Finset.sum_congr rfl fun a _ => ?_
  have h1 : Real.sqrt (l a) * Real.sqrt (l a) = l a := Real.mul_self_sqrt (hl a).le
  rw [div_mul_div_comm, h1]
  have := (hl a).ne'
  field_simp
  ring

theorem gauss_form {l : Fin d → ℝ} (hl : ∀ a, 0 < l a) (x : ι → Fin d → ℝ) (c : ι → ℝ) :
    ∑ i, ∑ j, c i * c j * gauss l (x i) (x j) = ∑ i, ∑ j, (c i * Real.exp (-(1 / 2) * ∑ a, x i a ^ 2 / l a)) * (c j * Real.exp (-(1 / 2) * ∑ a, x j a ^ 2 / l a)) *
      Real.exp (dot (fun a => x i a / Real.sqrt (l a)) (fun a => x j a / Real.sqrt (l a))) :=
  Finset.sum_congr rfl fun i _ => Finset.sum_congr rfl fun j _ => by rw [gauss_split hl]; ring

theorem gauss_nonneg {l : Fin d → ℝ} (hl : ∀ a, 0 < l a) (x : ι → Fin d → ℝ) (c : ι → ℝ) : 0 ≤ ∑ i, ∑ j, c i * c j * gauss l (x i) (x j) := by
  rw [gauss_form hl]
  exact exp_nonneg (fun i a => x i a / Real.sqrt (l a)) _

theorem gauss_definite [DecidableEq ι] {l : Fin d → ℝ} (hl : ∀ a, 0 < l a) {x : ι → Fin d → ℝ} (hx : Function.Injective x) {c : ι → ℝ}
    (h : ∑ i, ∑ j, c i * c j * gauss l (x i) (x j) = 0) : c = 0 := by
  rw [gauss_form hl] at h
  have hinj : Function.Injective (fun i a => x i a / Real.sqrt (l a)) := by
    intro i j hij
    refine hx (funext fun a => ?_)
    have := congrFun hij a
    have h0 : Real.sqrt (l a) ≠ 0 := (Real.sqrt_pos.2 (hl a)).ne'
    dsimp only at this
    rwa [div_left_inj' h0] at this
  have := exp_definite hinj h
  funext i
  have := congrFun this i
  rcases mul_eq_zero.1 this with h | h
  · exact h
  · exact absurd h (Real.exp_pos _).ne'

end Verif.GPKernel
