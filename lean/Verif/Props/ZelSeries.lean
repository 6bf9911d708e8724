/-
C119: the series behind the Zel'dovich power spectra.
-/
import Verif.Spec.ZelPower
import Verif.Lemmas.ZelSeries
import Verif.Props.Hzpt

namespace Verif.Hzpt

open Verif.Xi Verif.ZelPower

noncomputable section

/-- what each class stands for -/
def Kind.moment : Kind → ℝ → ℝ → ℝ → ℝ
  | .p00 => density
  | .p01 => momentum
  | .p11 => momenta

/-! ### the three statistics -/

theorem connected_deriv_a (k v c b : ℝ) :
    deriv (fun a => connected k v c a b) 1 = -k ^ 2 * (v - b * c) * Real.exp (-(1 / 2) * k ^ 2 * (v + b ^ 2 * v - 2 * b * c)) + k ^ 2 * v * Real.exp (-(1 / 2) * k ^ 2 * (v + b ^ 2 * v)) := by
  have hp : HasDerivAt (fun a : ℝ => a ^ 2) 2 1 := by simpa using hasDerivAt_pow 2 (1 : ℝ)
  have hi : HasDerivAt (fun a : ℝ => 2 * a * b * c) (2 * 1 * b * c) 1 := (((hasDerivAt_id (1:ℝ)).const_mul 2).mul_const b).mul_const c
  have h1 : HasDerivAt (fun a : ℝ => -(1 / 2) * k ^ 2 * (a ^ 2 * v + b ^ 2 * v - 2 * a * b * c)) (-(1 / 2) * k ^ 2 * (2 * v - 2 * 1 * b * c)) 1 :=
    (((hp.mul_const v).add_const _).sub hi).const_mul _
  have h2 : HasDerivAt (fun a : ℝ => -(1 / 2) * k ^ 2 * (a ^ 2 * v + b ^ 2 * v)) (-(1 / 2) * k ^ 2 * (2 * v)) 1 := ((hp.mul_const v).add_const _).const_mul _
  have h := (h1.exp.sub h2.exp).deriv
  unfold connected
  refine h.trans ?_
  simp only [one_pow, one_mul, mul_one]
  ring

theorem momentum_eq (k v c : ℝ) : momentum k v c = -k ^ 2 * (v - c) * Real.exp (-k ^ 2 * (v - c)) + k ^ 2 * v * Real.exp (-k ^ 2 * v) := by
  unfold momentum
  rw [connected_deriv_a]
  rw [show -(1 / 2) * k ^ 2 * (v + 1 ^ 2 * v - 2 * 1 * c) = -k ^ 2 * (v - c) by ring, show -(1 / 2) * k ^ 2 * (v + 1 ^ 2 * v) = -k ^ 2 * v by ring]
  ring

theorem momenta_eq (k v c : ℝ) : momenta k v c = ((k ^ 2 * (v - c)) ^ 2 + k ^ 2 * c) * Real.exp (-k ^ 2 * (v - c)) - (k ^ 2 * v) ^ 2 * Real.exp (-k ^ 2 * v) := by
  unfold momenta
  simp_rw [connected_deriv_a]
  have hp : HasDerivAt (fun b : ℝ => b ^ 2) 2 1 := by simpa using hasDerivAt_pow 2 (1 : ℝ)
  have hi : HasDerivAt (fun b : ℝ => 2 * b * c) (2 * 1 * c) 1 := ((hasDerivAt_id (1:ℝ)).const_mul 2).mul_const c
  have hl : HasDerivAt (fun b : ℝ => -k ^ 2 * (v - b * c)) (-k ^ 2 * (-(1 * c))) 1 := (((hasDerivAt_id (1:ℝ)).mul_const c).const_sub v).const_mul _
  have h1 : HasDerivAt (fun b : ℝ => -(1 / 2) * k ^ 2 * (v + b ^ 2 * v - 2 * b * c)) (-(1 / 2) * k ^ 2 * (2 * v - 2 * 1 * c)) 1 := (((hp.mul_const v).const_add _).sub hi).const_mul _
  have h2 : HasDerivAt (fun b : ℝ => -(1 / 2) * k ^ 2 * (v + b ^ 2 * v)) (-(1 / 2) * k ^ 2 * (2 * v)) 1 := ((hp.mul_const v).const_add _).const_mul _
  refine ((hl.mul h1.exp).add (h2.exp.const_mul (k ^ 2 * v))).deriv.trans ?_
  rw [show -(1 / 2) * k ^ 2 * (v + 1 ^ 2 * v - 2 * 1 * c) = -k ^ 2 * (v - c) by ring, show -(1 / 2) * k ^ 2 * (v + 1 ^ 2 * v) = -k ^ 2 * v by ring]
  ring

theorem density_eq (k v c : ℝ) : density k v c = Real.exp (-k ^ 2 * (v - c)) - Real.exp (-k ^ 2 * v) := by
  unfold density connected
  congr 2 <;> ring

/-! ### the coefficients of the code -/

/-- coefficients of `1`, `n`, `n(n-1)` in the terms of the series -/
def coef (a : Arr) (k : ℝ) (i : ℕ) : Kind → ℝ × ℝ × ℝ
  | .p00 => (1, 0, 0)
  | .p01 => (k ^ 2 * (a.xx i + a.yy i), -2, 0)
  | .p11 => (k ^ 4 * a.xx i ^ 2 - 2 * k ^ 2 * a.x0 i + 2 * (k ^ 2 * a.xx i - 1) * (k ^ 2 * a.yy i) + k ^ 4 * a.yy i ^ 2, -4 * (k ^ 2 * a.xx i - 1) - 4 * (k ^ 2 * a.yy i), 4)

/-- the part subtracted at order zero -/
def far (a : Arr) (k : ℝ) : Kind → ℝ
  | .p00 => Real.exp (-k ^ 2 * a.sq)
  | .p01 => 2 * k ^ 2 * a.sq * Real.exp (-k ^ 2 * a.sq)
  | .p11 => 4 * k ^ 4 * a.sq ^ 2 * Real.exp (-k ^ 2 * a.sq)

def pre : Kind → ℝ
  | .p00 => 1
  | .p01 => -(1 / 2)
  | .p11 => 1 / 4

theorem factor_eq (kind : Kind) : factor kind = 4 * Real.pi * pre kind := by
  cases kind <;> simp only [factor, pre] <;> ring

theorem term_eq (E : Env) (a : Arr) (k : ℝ) (n i : ℕ) (hr : 0 < E.r i) (kind : Kind) :
    (if n = 0 then fprim E a k i kind else fsec E a k n i kind) =
      E.r i ^ (3 / 2 - n : ℝ) * ((k * a.yy i) ^ n * (((coef a k i kind).1 + (coef a k i kind).2.1 * n + (coef a k i kind).2.2 * (n * (n - 1))) * Real.exp (-(1 / 2) * k ^ 2 * (a.xx i + a.yy i))) -
        (if n = 0 then far a k kind else 0)) := by
  by_cases hn : n = 0
  · subst hn
    cases kind <;> simp only [fprim, coef, far, if_true, Nat.cast_zero, pow_zero, sub_zero] <;> ring
  · simp only [hn, if_false, sub_zero]
    cases kind <;> simp only [fsec, coef] <;> ring

theorem moment_eq (a : Arr) (k t : ℝ) (i : ℕ) (hx : a.xx i = a.x0 i + 2 * a.sq) (kind : Kind) :
    kind.moment k a.sq (-(a.x0 i + a.yy i * t ^ 2) / 2) =
      pre kind * (((coef a k i kind).1 + (coef a k i kind).2.1 * (k ^ 2 * a.yy i * (1 - t ^ 2) / 2) + (coef a k i kind).2.2 * (k ^ 2 * a.yy i * (1 - t ^ 2) / 2) ^ 2) *
        Real.exp (-(1 / 2) * k ^ 2 * (a.xx i + a.yy i * t ^ 2)) - far a k kind) := by
  have e : -k ^ 2 * (a.sq - -(a.x0 i + a.yy i * t ^ 2) / 2) = -(1 / 2) * k ^ 2 * (a.xx i + a.yy i * t ^ 2) := by rw [hx]; ring
  cases kind
  · simp only [Kind.moment, density_eq, pre, coef, far, e]; ring
  · simp only [Kind.moment, momentum_eq, pre, coef, far, e, hx]; ring
  · simp only [Kind.moment, momenta_eq, pre, coef, far, e, hx]; ring

/-- the powers in front of the transform -/
theorem prefactor_eq {k r : ℝ} (hk : 0 < k) (hr : 0 < r) (n : ℕ) :
    Real.sqrt (1 / 2 * Real.pi) * k ^ (-(3 / 2) : ℝ) * (k * Real.sqrt (2 * (k * r) / Real.pi)) * r ^ (3 / 2 - n : ℝ) = r ^ 2 / r ^ n := by
  have h1 : Real.sqrt (1 / 2 * Real.pi) * Real.sqrt (2 * (k * r) / Real.pi) = Real.sqrt (k * r) := by
    rw [← Real.sqrt_mul (by positivity)]
    congr 1
    field_simp
  have h2 : Real.sqrt (k * r) = k ^ (1 / 2 : ℝ) * r ^ (1 / 2 : ℝ) := by
    rw [Real.sqrt_eq_rpow, Real.mul_rpow hk.le hr.le]
  have h3 : k ^ (-(3 / 2) : ℝ) * k * k ^ (1 / 2 : ℝ) = 1 := by
    nth_rewrite 2 [← Real.rpow_one k]
    rw [← Real.rpow_add hk, ← Real.rpow_add hk]
    norm_num
  have h4 : r ^ (1 / 2 : ℝ) * r ^ (3 / 2 - n : ℝ) = r ^ 2 / r ^ n := by
    rw [← Real.rpow_add hr, show (1 / 2 + (3 / 2 - n) : ℝ) = (2 : ℕ) - (n : ℕ) by push_cast; ring, Real.rpow_sub hr, Real.rpow_natCast, Real.rpow_natCast]
  calc _ = (Real.sqrt (1 / 2 * Real.pi) * Real.sqrt (2 * (k * r) / Real.pi)) * (k ^ (-(3 / 2) : ℝ) * k) * r ^ (3 / 2 - n : ℝ) := by ring
    _ = (k ^ (-(3 / 2) : ℝ) * k * k ^ (1 / 2 : ℝ)) * (r ^ (1 / 2 : ℝ) * r ^ (3 / 2 - n : ℝ)) := by rw [h1, h2]; ring
    _ = _ := by rw [h3, h4, one_mul]

theorem sph_zero_eq (x : ℝ) : sph 0 x = 1 / 2 * ∫ t in (-1:ℝ)..1, Real.cos (x * t) := by
  simp [sph, wave, Legendre.leg]

/-- the sum over the orders at one mesh point -/
theorem node_sum (E : Env) (a : Arr) {k : ℝ} (hk : 0 < k) (i : ℕ) (hr : 0 < E.r i) (d : ℝ) (kind : Kind) :
    ∑ n ∈ Finset.range 16, factor kind * Real.sqrt (1 / 2 * Real.pi) * k ^ (-(3 / 2) : ℝ) *
        (d * (k * besselHalf n (k * E.r i)) * (if n = 0 then fprim E a k i kind else fsec E a k n i kind)) =
      d * (4 * Real.pi * E.r i ^ 2) * pre kind * (Real.exp (-(1 / 2) * k ^ 2 * (a.xx i + a.yy i)) *
        (∑ n ∈ Finset.range 16, ((coef a k i kind).1 + (coef a k i kind).2.1 * n + (coef a k i kind).2.2 * (n * (n - 1))) * (k ^ 2 * a.yy i / (k * E.r i)) ^ n * sph n (k * E.r i)) -
          far a k kind * sph 0 (k * E.r i)) := by
  have hz : far a k kind * sph 0 (k * E.r i) = ∑ n ∈ Finset.range 16, (if n = 0 then far a k kind else 0) * sph n (k * E.r i) := by
    simp [Finset.sum_ite_eq', ite_mul]
  rw [hz, Finset.mul_sum, ← Finset.sum_sub_distrib, Finset.mul_sum]
  refine Finset.sum_congr rfl fun n _ => ?_
  rw [term_eq E a k n i hr, factor_eq, besselHalf]
  have hp := prefactor_eq hk hr n
  have hq : (k ^ 2 * a.yy i / (k * E.r i)) ^ n = (k * a.yy i) ^ n / E.r i ^ n := by
    rw [← div_pow]; congr 1; field_simp
  rw [hq]
  have hrn : (E.r i ^ n : ℝ) ≠ 0 := (pow_pos hr n).ne'
  have hff : (if n = 0 then far a k kind else 0) = (if n = 0 then far a k kind else 0) / E.r i ^ n := by
    by_cases h : n = 0
    · subst h; simp
    · simp [h]
  generalize Real.exp (-(1 / 2) * k ^ 2 * (a.xx i + a.yy i)) = e0
  generalize (coef a k i kind).1 + (coef a k i kind).2.1 * n + (coef a k i kind).2.2 * (n * (n - 1)) = c0
  generalize sph n (k * E.r i) = s0
  have hstep : ∀ F : ℝ, 4 * Real.pi * pre kind * Real.sqrt (1 / 2 * Real.pi) * k ^ (-(3 / 2) : ℝ) *
      (d * (k * (Real.sqrt (2 * (k * E.r i) / Real.pi) * s0)) * (E.r i ^ (3 / 2 - n : ℝ) * ((k * a.yy i) ^ n * (c0 * e0) - F))) =
      d * (4 * Real.pi) * pre kind * (Real.sqrt (1 / 2 * Real.pi) * k ^ (-(3 / 2) : ℝ) * (k * Real.sqrt (2 * (k * E.r i) / Real.pi)) * E.r i ^ (3 / 2 - n : ℝ)) * (s0 * ((k * a.yy i) ^ n * (c0 * e0) - F)) := fun F => by ring
  rw [hstep, hp]
  conv_rhs => rw [hff]
  field_simp

theorem list_sum_eq (f : ℕ → ℝ) (m : ℕ) : ((List.range m).map f).sum = ∑ i ∈ Finset.range m, f i := by
  induction m with
  | zero => simp
  | succ m ih => rw [List.range_succ, List.map_append, List.sum_append, ih, Finset.sum_range_succ]; simp

/-- the bound on what the orders above 15 contribute at mesh point `i`, relative to the volume of the shell -/
def left (a : Arr) (k : ℝ) (i : ℕ) (kind : Kind) : ℝ :=
  (k ^ 2 * |a.yy i| / 2) ^ 16 / (Nat.factorial 16 : ℝ) * Real.exp (-(1 / 2) * k ^ 2 * min (a.xx i) (a.xx i + a.yy i)) *
    (match kind with
    | .p00 => 1
    | .p01 => 1 / 2 * (k ^ 2 * |a.xx i + a.yy i| + 32)
    | .p11 => 1 / 4 * (|(k ^ 2 * (a.xx i + a.yy i)) ^ 2 - 2 * k ^ 2 * (a.x0 i + a.yy i)| + 64 * |k ^ 2 * (a.xx i + a.yy i) - 1| + 960))

theorem left_eq (a : Arr) (k : ℝ) (i : ℕ) (kind : Kind) :
    left a k i kind = |pre kind| * ((|(coef a k i kind).1| + 16 * |(coef a k i kind).2.1| + 16 * 15 * |(coef a k i kind).2.2|) * ((k ^ 2 * |a.yy i| / 2) ^ 16 / (Nat.factorial 16 : ℝ)) *
      Real.exp (-(1 / 2) * k ^ 2 * min (a.xx i) (a.xx i + a.yy i))) := by
  unfold left
  generalize Real.exp (-(1 / 2) * k ^ 2 * min (a.xx i) (a.xx i + a.yy i)) = e0
  generalize (k ^ 2 * |a.yy i| / 2) ^ 16 / (Nat.factorial 16 : ℝ) = p0
  cases kind
  · simp [pre, coef]
  · simp only [pre, coef, abs_mul, abs_of_nonneg (sq_nonneg k)]
    norm_num
    ring
  · simp only [pre, coef]
    rw [show k ^ 4 * a.xx i ^ 2 - 2 * k ^ 2 * a.x0 i + 2 * (k ^ 2 * a.xx i - 1) * (k ^ 2 * a.yy i) + k ^ 4 * a.yy i ^ 2 = (k ^ 2 * (a.xx i + a.yy i)) ^ 2 - 2 * k ^ 2 * (a.x0 i + a.yy i) by ring,
      show -4 * (k ^ 2 * a.xx i - 1) - 4 * (k ^ 2 * a.yy i) = -4 * (k ^ 2 * (a.xx i + a.yy i) - 1) by ring]
    rw [abs_mul]
    norm_num
    ring

theorem node_bound (E : Env) (a : Arr) {k : ℝ} (hk : 0 < k) (i : ℕ) (hr : 0 < E.r i) (hx : a.xx i = a.x0 i + 2 * a.sq) (kind : Kind) :
    |pre kind * (Real.exp (-(1 / 2) * k ^ 2 * (a.xx i + a.yy i)) *
        (∑ n ∈ Finset.range 16, ((coef a k i kind).1 + (coef a k i kind).2.1 * n + (coef a k i kind).2.2 * (n * (n - 1))) * (k ^ 2 * a.yy i / (k * E.r i)) ^ n * sph n (k * E.r i)) -
          far a k kind * sph 0 (k * E.r i)) - (1 / 2 * ∫ t in (-1:ℝ)..1, Real.cos (k * E.r i * t) * kind.moment k a.sq (-(a.x0 i + a.yy i * t ^ 2) / 2))| ≤ left a k i kind := by
  have hA : k * E.r i ≠ 0 := (mul_pos hk hr).ne'
  have h := node_error hA k (a.xx i) (a.yy i) (coef a k i kind).1 (coef a k i kind).2.1 (coef a k i kind).2.2 14
  simp_rw [moment_eq a k _ i hx kind]
  rw [left_eq, sph_zero_eq]
  rw [show (∫ t in (-1:ℝ)..1, Real.cos (k * E.r i * t) * (pre kind * (((coef a k i kind).1 + (coef a k i kind).2.1 * (k ^ 2 * a.yy i * (1 - t ^ 2) / 2) + (coef a k i kind).2.2 * (k ^ 2 * a.yy i * (1 - t ^ 2) / 2) ^ 2) *
        Real.exp (-(1 / 2) * k ^ 2 * (a.xx i + a.yy i * t ^ 2)) - far a k kind))) =
      pre kind * ((∫ t in (-1:ℝ)..1, Real.cos (k * E.r i * t) * (((coef a k i kind).1 + (coef a k i kind).2.1 * (k ^ 2 * a.yy i * (1 - t ^ 2) / 2) + (coef a k i kind).2.2 * (k ^ 2 * a.yy i * (1 - t ^ 2) / 2) ^ 2) *
        Real.exp (-(1 / 2) * k ^ 2 * (a.xx i + a.yy i * t ^ 2)))) - far a k kind * ∫ t in (-1:ℝ)..1, Real.cos (k * E.r i * t)) by
    rw [← intervalIntegral.integral_const_mul (far a k kind), ← intervalIntegral.integral_sub (Continuous.intervalIntegrable (by fun_prop) _ _) (Continuous.intervalIntegrable (by fun_prop) _ _), ← intervalIntegral.integral_const_mul]
    congr 1; funext t; ring]
  norm_num at h ⊢
  generalize (∫ t in (-1:ℝ)..1, Real.cos (k * E.r i * t)) = I0 at h ⊢
  rw [show ∀ S J e : ℝ, pre kind * (e * S - far a k kind * (1 / 2 * I0)) - 1 / 2 * (pre kind * (J - far a k kind * I0)) = pre kind * (e * S - 1 / 2 * J) from fun S J e => by ring, abs_mul]
  exact mul_le_mul_of_nonneg_left h (abs_nonneg _)

theorem sum_close (N : ℕ) (f g b : ℕ → ℝ) (h : ∀ i < N, |f i - g i| ≤ b i) : |∑ i ∈ Finset.range N, f i - ∑ i ∈ Finset.range N, g i| ≤ ∑ i ∈ Finset.range N, b i := by
  rw [← Finset.sum_sub_distrib]
  exact (Finset.abs_sum_le_sum_abs _ _).trans (Finset.sum_le_sum fun i hi => h i (Finset.mem_range.1 hi))

theorem double_sum (M N : ℕ) (c : ℕ → ℝ) (g h : ℕ → ℕ → ℝ) (e : ∀ n < M, ∀ i < N, g n i = h n i) :
    ((List.range M).map fun n => c n * ((List.range N).map fun i => g n i).sum).sum = ∑ i ∈ Finset.range N, ∑ n ∈ Finset.range M, c n * h n i := by
  rw [list_sum_eq, Finset.sum_comm]
  refine Finset.sum_congr rfl fun n hn => ?_
  rw [list_sum_eq, Finset.mul_sum]
  refine Finset.sum_congr rfl fun i hi => ?_
  rw [e n (Finset.mem_range.1 hn) i (Finset.mem_range.1 hi)]

/-- **C119** (series): if the transform of order `n+1/2` is a quadrature of the Hankel integral `∫ a(r) J(kr) k dr` with weights `δ`, each of the three power spectra is the same quadrature of the exact Fourier transform, over shells, of the connected Gaussian statistic
(density with density; density with momentum; momentum with momentum), up to the orders above 15, whose contribution is at most `left` of the volume of the shell. -/
theorem C119_series (E : Env) (a : Arr) (hx : ∀ i, a.xx i = a.x0 i + 2 * a.sq) {k : ℝ} (hk : 0 < k) (hr : ∀ i < 1024, 0 < E.r i) (δ : ℕ → ℝ)
    (hw : ∀ n < 16, ∀ i < 1024, E.w n k i = δ i * (k * besselHalf n (k * E.r i))) (kind : Kind) :
    |fftlog E a k kind - ∑ i ∈ Finset.range 1024, δ i * shell kind.moment k (E.r i) a.sq (fun t => -(a.x0 i + a.yy i * t ^ 2) / 2)| ≤
      ∑ i ∈ Finset.range 1024, |δ i| * (4 * Real.pi * E.r i ^ 2) * left a k i kind := by
  have e : fftlog E a k kind = ∑ i ∈ Finset.range 1024, ∑ n ∈ Finset.range 16, factor kind * Real.sqrt (1 / 2 * Real.pi) * k ^ (-(3 / 2) : ℝ) *
        (δ i * (k * besselHalf n (k * E.r i)) * (if n = 0 then fprim E a k i kind else fsec E a k n i kind)) := by
    unfold fftlog
    refine double_sum 16 1024 (fun _ => factor kind * Real.sqrt (1 / 2 * Real.pi) * k ^ (-(3 / 2) : ℝ)) _ _ fun n hn i hi => ?_
    rw [hw n hn i hi]
  rw [e]
  refine sum_close 1024 _ _ _ fun i hi => ?_
  have hri := hr i hi
  have hv : 0 ≤ 4 * Real.pi * E.r i ^ 2 := mul_nonneg (mul_nonneg (by norm_num) Real.pi_pos.le) (sq_nonneg _)
  rw [node_sum E a hk i hri (δ i) kind, shell]
  have hb := node_bound E a hk i hri (hx i) kind
  rw [show ∀ S J : ℝ, δ i * (4 * Real.pi * E.r i ^ 2) * pre kind * S - δ i * (4 * Real.pi * E.r i ^ 2 * J) = δ i * (4 * Real.pi * E.r i ^ 2) * (pre kind * S - J) from fun S J => by ring, abs_mul, abs_mul,
    abs_of_nonneg hv]
  exact mul_le_mul_of_nonneg_left hb (mul_nonneg (abs_nonneg _) hv)

end
end Verif.Hzpt
