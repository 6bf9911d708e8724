/-
Legendre polynomials: the mathematics behind C51 (window convolution) and the multipole transfers.  Nothing here is about the code.
-/
import Mathlib.Analysis.Calculus.Deriv.Mul
import Mathlib.Analysis.Calculus.Deriv.Add
import Mathlib.MeasureTheory.Integral.IntervalIntegral.FundThmCalculus
import Mathlib.Tactic.Ring
import Mathlib.Tactic.Linarith
import Mathlib.Tactic.LinearCombination
import Mathlib.Tactic.FieldSimp
import Mathlib.Tactic.NormNum

namespace Verif.Legendre

open scoped Interval

noncomputable section

/-- The Legendre polynomials, by Bonnet's recursion. -/
def leg : ℕ → ℝ → ℝ
  | 0, _ => 1
  | 1, x => x
  | n + 2, x => ((2 * n + 3) * x * leg (n + 1) x - (n + 1) * leg n x) / (n + 2)

/-- their derivatives -/
def dleg : ℕ → ℝ → ℝ
  | 0, _ => 0
  | 1, _ => 1
  | n + 2, x => ((2 * n + 3) * (leg (n + 1) x + x * dleg (n + 1) x) - (n + 1) * dleg n x) / (n + 2)

theorem leg_rec (n : ℕ) (x : ℝ) : (n + 2) * leg (n + 2) x = (2 * n + 3) * x * leg (n + 1) x - (n + 1) * leg n x := by
  have : (n : ℝ) + 2 ≠ 0 := by positivity
  rw [leg]; field_simp

theorem dleg_rec (n : ℕ) (x : ℝ) : (n + 2) * dleg (n + 2) x = (2 * n + 3) * (leg (n + 1) x + x * dleg (n + 1) x) - (n + 1) * dleg n x := by
  have : (n : ℝ) + 2 ≠ 0 := by positivity
  rw [dleg]; field_simp

theorem leg_hasDerivAt (n : ℕ) (x : ℝ) : HasDerivAt (leg n) (dleg n x) x := by
  have key : ∀ n, HasDerivAt (leg n) (dleg n x) x ∧ HasDerivAt (leg (n + 1)) (dleg (n + 1) x) x := by
    intro n
    induction n with
    | zero =>
      constructor
      · have : leg 0 = fun _ => 1 := by funext y; rfl
        rw [this]; exact hasDerivAt_const _ _
      · have : leg 1 = fun y => y := by funext y; rfl
        rw [this]; exact hasDerivAt_id _
    | succ n ih =>
      refine ⟨ih.2, ?_⟩
      have h : leg (n + 1 + 1) = fun y => ((2 * n + 3) * y * leg (n + 1) y - (n + 1) * leg n y) / (n + 2) := by funext y; rfl
      rw [h]
      have h1 := ((((hasDerivAt_id x).const_mul (2 * (n : ℝ) + 3)).mul ih.2).sub (ih.1.const_mul ((n : ℝ) + 1))).div_const ((n : ℝ) + 2)
      refine h1.congr_deriv ?_
      have : dleg (n + 1 + 1) x = ((2 * n + 3) * (leg (n + 1) x + x * dleg (n + 1) x) - (n + 1) * dleg n x) / (n + 2) := rfl
      rw [this]
      simp only [id]
      congr 1
      ring
  exact (key n).1

theorem leg_continuous (n : ℕ) : Continuous (leg n) :=
  continuous_iff_continuousAt.2 fun x => (leg_hasDerivAt n x).continuousAt

theorem dleg_ids (n : ℕ) (x : ℝ) : dleg (n + 1) x = x * dleg n x + (n + 1) * leg n x ∧
    x * dleg (n + 1) x - dleg n x = (n + 1) * leg (n + 1) x := by
  induction n with
  | zero => constructor <;> simp [dleg, leg]
  | succ n ih =>
    obtain ⟨hA, hB⟩ := ih
    have hn : (n : ℝ) + 2 ≠ 0 := by positivity
    have hr := dleg_rec n x
    have hl := leg_rec n x
    have hA' : dleg (n + 2) x = x * dleg (n + 1) x + (n + 2) * leg (n + 1) x := by
      apply mul_left_cancel₀ hn
      linear_combination hr + (n + 1) * hB
    constructor
    · rw [hA']; push_cast; ring
    · rw [hA']
      push_cast
      linear_combination x * hB - hA - hl

theorem dleg_diff (n : ℕ) (x : ℝ) : dleg (n + 2) x - dleg n x = (2 * n + 3) * leg (n + 1) x := by
  have h1 := (dleg_ids (n + 1) x).1
  have h2 := (dleg_ids n x).2
  push_cast at h1
  linear_combination h1 + h2

theorem leg_one (n : ℕ) : leg n 1 = 1 := by
  have key : ∀ n, leg n 1 = 1 ∧ leg (n + 1) 1 = 1 := by
    intro n
    induction n with
    | zero => exact ⟨rfl, rfl⟩
    | succ n ih =>
      refine ⟨ih.2, ?_⟩
      have hn : (n : ℝ) + 2 ≠ 0 := by positivity
      have := leg_rec n 1
      rw [ih.1, ih.2] at this
      apply mul_left_cancel₀ hn
      linear_combination this
  exact (key n).1

theorem leg_parity (n : ℕ) (x : ℝ) : leg n (-x) = (-1) ^ n * leg n x := by
  have key : ∀ n, leg n (-x) = (-1) ^ n * leg n x ∧ leg (n + 1) (-x) = (-1) ^ (n + 1) * leg (n + 1) x := by
    intro n
    induction n with
    | zero => constructor <;> simp [leg]
    | succ n ih =>
      refine ⟨ih.2, ?_⟩
      have hn : (n : ℝ) + 2 ≠ 0 := by positivity
      have h1 := leg_rec n (-x)
      have h2 := leg_rec n x
      rw [ih.1, ih.2] at h1
      apply mul_left_cancel₀ hn
      rw [pow_succ] at h1 ⊢
      rw [pow_succ]
      linear_combination h1 - (-1) ^ n * h2
  exact (key n).1

/-! ### Orthogonality -/

/-- the inner product of two Legendre polynomials -/
def ip (a b : ℕ) : ℝ := ∫ x in (-1 : ℝ)..1, leg a x * leg b x

theorem integral_leg (n : ℕ) : ∫ x in (-1 : ℝ)..1, leg (n + 1) x = 0 := by
  have hn : (2 * (n : ℝ) + 3) ≠ 0 := by positivity
  have h : ∀ x ∈ Set.uIcc (-1 : ℝ) 1, HasDerivAt (fun y => (leg (n + 2) y - leg n y) / (2 * n + 3)) (leg (n + 1) x) x := by
    intro x _
    refine (((leg_hasDerivAt (n + 2) x).sub (leg_hasDerivAt n x)).div_const _).congr_deriv ?_
    rw [dleg_diff]; field_simp
  rw [intervalIntegral.integral_eq_sub_of_hasDerivAt h ((leg_continuous _).intervalIntegrable _ _)]
  rw [leg_parity (n + 2) 1, leg_parity n 1, leg_one, leg_one, pow_add]
  norm_num

theorem ip_comm (a b : ℕ) : ip a b = ip b a := by
  simp only [ip, mul_comm]

theorem ip_zero (a : ℕ) : ip (a + 1) 0 = 0 := by
  simp only [ip, leg, mul_one]
  exact integral_leg a

theorem ip_zero_zero : ip 0 0 = 2 := by
  simp [ip, leg]; norm_num

/-- multiplication by `x` is self-adjoint -/
theorem ip_rec (a b : ℕ) : (2 * b + 3) * ((a + 2) * ip (a + 2) (b + 1) + (a + 1) * ip a (b + 1)) =
    (2 * a + 3) * ((b + 2) * ip (a + 1) (b + 2) + (b + 1) * ip (a + 1) b) := by
  have hi : ∀ a b, IntervalIntegrable (fun x => leg a x * leg b x) MeasureTheory.volume (-1) 1 :=
    fun a b => ((leg_continuous a).mul (leg_continuous b)).intervalIntegrable _ _
  have e : ∀ (u v : ℝ) (a b c d : ℕ), u * ip a b + v * ip c d = ∫ x in (-1 : ℝ)..1, (u * (leg a x * leg b x) + v * (leg c x * leg d x)) := by
    intro u v a b c d
    rw [intervalIntegral.integral_add ((hi a b).const_mul u) ((hi c d).const_mul v), intervalIntegral.integral_const_mul,
      intervalIntegral.integral_const_mul]
    rfl
  rw [e, e, ← intervalIntegral.integral_const_mul, ← intervalIntegral.integral_const_mul]
  congr 1
  funext x
  linear_combination (2 * b + 3) * leg (b + 1) x * leg_rec a x - (2 * a + 3) * leg (a + 1) x * leg_rec b x

/-- the same with second index 0 -/
theorem ip_rec_zero (a : ℕ) : (a + 2) * ip (a + 2) 0 + (a + 1) * ip a 0 = (2 * a + 3) * ip (a + 1) 1 := by
  have hi : ∀ a b, IntervalIntegrable (fun x => leg a x * leg b x) MeasureTheory.volume (-1) 1 :=
    fun a b => ((leg_continuous a).mul (leg_continuous b)).intervalIntegrable _ _
  have e : ∀ (u v : ℝ) (a b c d : ℕ), u * ip a b + v * ip c d = ∫ x in (-1 : ℝ)..1, (u * (leg a x * leg b x) + v * (leg c x * leg d x)) := by
    intro u v a b c d
    rw [intervalIntegral.integral_add ((hi a b).const_mul u) ((hi c d).const_mul v), intervalIntegral.integral_const_mul,
      intervalIntegral.integral_const_mul]
    rfl
  rw [e]
  unfold ip
  rw [← intervalIntegral.integral_const_mul]
  congr 1
  funext x
  have : leg 0 x = 1 := rfl
  have h1 : leg 1 x = x := rfl
  rw [this, h1]
  linear_combination leg_rec a x

theorem ip_off : ∀ b d : ℕ, ip (b + d + 1) b = 0 := by
  intro b
  induction b using Nat.strong_induction_on with
  | _ b ih =>
    intro d
    match b, ih with
    | 0, _ => rw [Nat.zero_add]; exact ip_zero d
    | 1, ih =>
      have h := ip_rec_zero (d + 1)
      have h1 : ip (d + 1 + 2) 0 = 0 := by have := ih 0 (by omega) (d + 2); simpa [Nat.add_comm, Nat.add_left_comm] using this
      have h2 : ip (d + 1) 0 = 0 := by have := ih 0 (by omega) d; simpa using this
      rw [h1, h2] at h
      have hn : (2 * ((d + 1 : ℕ) : ℝ) + 3) ≠ 0 := by positivity
      have h3 : ip (d + 1 + 1) 1 = 0 := by
        have : (2 * ((d + 1 : ℕ) : ℝ) + 3) * ip (d + 1 + 1) 1 = 0 := by linarith
        exact (mul_eq_zero.1 this).resolve_left hn
      rw [show 1 + d + 1 = d + 1 + 1 by omega]; exact h3
    | b + 2, ih =>
      have h := ip_rec (b + d + 2) b
      have h1 : ip (b + d + 2 + 2) (b + 1) = 0 := by
        have := ih (b + 1) (by omega) (d + 2); rw [show b + 1 + (d + 2) + 1 = b + d + 2 + 2 by omega] at this; exact this
      have h2 : ip (b + d + 2) (b + 1) = 0 := by
        have := ih (b + 1) (by omega) d; rw [show b + 1 + d + 1 = b + d + 2 by omega] at this; exact this
      have h3 : ip (b + d + 2 + 1) b = 0 := by
        have := ih b (by omega) (d + 2); rw [show b + (d + 2) + 1 = b + d + 2 + 1 by omega] at this; exact this
      rw [h1, h2, h3] at h
      have hn : (2 * ((b + d + 2 : ℕ) : ℝ) + 3) * ((b : ℝ) + 2) ≠ 0 := by positivity
      have h4 : ip (b + d + 2 + 1) (b + 2) = 0 := by
        have : (2 * ((b + d + 2 : ℕ) : ℝ) + 3) * ((b : ℝ) + 2) * ip (b + d + 2 + 1) (b + 2) = 0 := by linear_combination -h
        exact (mul_eq_zero.1 this).resolve_left hn
      rw [show b + 2 + d + 1 = b + d + 2 + 1 by omega]; exact h4

theorem ip_diag (a : ℕ) : ip a a = 2 / (2 * a + 1) := by
  have key : ∀ a : ℕ, (2 * (a : ℝ) + 1) * ip a a = 2 := by
    intro a
    induction a with
    | zero => rw [ip_zero_zero]; norm_num
    | succ a ih =>
      match a, ih with
      | 0, ih =>
        have h := ip_rec_zero 0
        have h1 : ip (0 + 2) 0 = 0 := ip_zero 1
        rw [h1] at h
        have h0 := ip_zero_zero
        norm_num at h ⊢
        linarith
      | a + 1, ih =>
        have h := ip_rec (a + 1) a
        have h1 : ip (a + 1 + 2) (a + 1) = 0 := by have := ip_off (a + 1) 1; simpa using this
        have h2 : ip (a + 1 + 1) a = 0 := by have := ip_off a 1; simpa using this
        rw [h1, h2] at h
        push_cast at h ih ⊢
        have hn : (a : ℝ) + 2 ≠ 0 := by positivity
        apply mul_left_cancel₀ hn
        linear_combination -h + (a + 2) * ih
  have hn : (2 * (a : ℝ) + 1) ≠ 0 := by positivity
  rw [eq_div_iff hn, mul_comm]; exact key a

/-- Orthogonality of the Legendre polynomials. -/
theorem ip_eq (a b : ℕ) : ip a b = if a = b then 2 / (2 * (a : ℝ) + 1) else 0 := by
  rcases lt_trichotomy a b with h | rfl | h
  · rw [if_neg h.ne, ip_comm]
    obtain ⟨d, rfl⟩ := Nat.exists_eq_add_of_lt h
    exact ip_off a d
  · rw [if_pos rfl]; exact ip_diag a
  · rw [if_neg h.ne']
    obtain ⟨d, rfl⟩ := Nat.exists_eq_add_of_lt h
    exact ip_off b d

/-! ### The product of two Legendre polynomials -/

/-- (2p-1)!! / p! -/
def A : ℕ → ℝ
  | 0 => 1
  | p + 1 => A p * (2 * p + 1) / (p + 1)

theorem A_pos (p : ℕ) : 0 < A p := by
  induction p with
  | zero => simp [A]
  | succ p ih => rw [A]; positivity

/-- Adams' coefficient of `leg (l+m-2p)` in `leg l * leg m`. -/
def adams (l m p : ℕ) : ℝ :=
  A (l - p) * A p * A (m - p) / A (l + m - p) * ((2 * (l + m : ℕ) - 4 * p + 1 : ℝ) / (2 * (l + m : ℕ) - 2 * p + 1))

theorem adams_comm (l m p : ℕ) : adams l m p = adams m l p := by
  simp only [adams, Nat.add_comm m l]
  ring

/-- the interior recursion -/
theorem adams_step (a b c : ℕ) :
    ((b + c + 1 : ℕ) + 1 : ℝ) * adams (a + b + 1) (b + c + 2) (b + 1) =
      (2 * (b + c + 1 : ℕ) + 1) * (((a + c + 1 : ℕ) : ℝ) / (2 * (a + c + 1 : ℕ) - 1) * adams (a + b + 1) (b + c + 1) (b + 1) +
        ((a + c + 1 : ℕ) + 1) / (2 * (a + c + 1 : ℕ) + 3) * adams (a + b + 1) (b + c + 1) b) -
      (b + c + 1 : ℕ) * adams (a + b + 1) (b + c) b := by
  have e1 : adams (a + b + 1) (b + c + 2) (b + 1) =
      A a * (A b * (2 * b + 1) / (b + 1)) * (A c * (2 * c + 1) / (c + 1)) / (A (a + b + c + 1) * (2 * (a + b + c + 1 : ℕ) + 1) / ((a + b + c + 1 : ℕ) + 1)) *
        ((2 * (a + c) + 3) / (2 * (a + b + c) + 5)) := by
    simp only [adams]
    rw [show a + b + 1 - (b + 1) = a by omega, show b + c + 2 - (b + 1) = c + 1 by omega,
      show a + b + 1 + (b + c + 2) - (b + 1) = (a + b + c + 1) + 1 by omega]
    simp only [A]
    congr 1
    congr 1 <;> push_cast <;> ring
  have e2 : adams (a + b + 1) (b + c + 1) (b + 1) =
      A a * (A b * (2 * b + 1) / (b + 1)) * A c / A (a + b + c + 1) * ((2 * (a + c) + 1) / (2 * (a + b + c) + 3)) := by
    simp only [adams]
    rw [show a + b + 1 - (b + 1) = a by omega, show b + c + 1 - (b + 1) = c by omega,
      show a + b + 1 + (b + c + 1) - (b + 1) = a + b + c + 1 by omega]
    simp only [A]
    congr 1
    congr 1 <;> push_cast <;> ring
  have e3 : adams (a + b + 1) (b + c + 1) b =
      (A a * (2 * a + 1) / (a + 1)) * A b * (A c * (2 * c + 1) / (c + 1)) /
        (A (a + b + c + 1) * (2 * (a + b + c + 1 : ℕ) + 1) / ((a + b + c + 1 : ℕ) + 1)) * ((2 * (a + c) + 5) / (2 * (a + b + c) + 5)) := by
    simp only [adams]
    rw [show a + b + 1 - b = a + 1 by omega, show b + c + 1 - b = c + 1 by omega,
      show a + b + 1 + (b + c + 1) - b = (a + b + c + 1) + 1 by omega]
    simp only [A]
    congr 1
    congr 1 <;> push_cast <;> ring
  have e4 : adams (a + b + 1) (b + c) b =
      (A a * (2 * a + 1) / (a + 1)) * A b * A c / A (a + b + c + 1) * ((2 * (a + c) + 3) / (2 * (a + b + c) + 3)) := by
    simp only [adams]
    rw [show a + b + 1 - b = a + 1 by omega, show b + c - b = c by omega,
      show a + b + 1 + (b + c) - b = a + b + c + 1 by omega]
    simp only [A]
    congr 1
    congr 1 <;> push_cast <;> ring
  rw [e1, e2, e3, e4]
  have hA := (A_pos (a + b + c + 1)).ne'
  push_cast
  have q1 : (2 * ((a : ℝ) + c + 1) - 1) ≠ 0 := by
    have : (2 * ((a : ℝ) + c + 1) - 1) = 2 * a + 2 * c + 1 := by ring
    rw [this]; positivity
  field_simp
  ring

theorem adams_zero (l m : ℕ) :
    ((m : ℝ) + 2) * adams l (m + 2) 0 = (2 * m + 3) * ((l + m + 2 : ℝ) / (2 * (l + m) + 3) * adams l (m + 1) 0) := by
  have e1 : adams l (m + 2) 0 = A l * (A (m + 1) * (2 * (m + 1 : ℕ) + 1) / ((m + 1 : ℕ) + 1)) /
      (A (l + m + 1) * (2 * (l + m + 1 : ℕ) + 1) / ((l + m + 1 : ℕ) + 1)) := by
    have h : (2 * ((l + (m + 2) : ℕ) : ℝ) - 4 * (0 : ℕ) + 1) / (2 * ((l + (m + 2) : ℕ) : ℝ) - 2 * (0 : ℕ) + 1) = 1 := by
      have : (0 : ℝ) < 2 * ((l + (m + 2) : ℕ) : ℝ) + 1 := by positivity
      simp only [Nat.cast_zero, mul_zero, sub_zero]
      exact div_self this.ne'
    simp only [adams]
    rw [h, mul_one]
    simp only [Nat.sub_zero]
    rw [show l + (m + 2) = l + m + 1 + 1 by omega]
    simp only [A]
    push_cast
    ring
  have e2 : adams l (m + 1) 0 = A l * A (m + 1) / A (l + m + 1) := by
    have h : (2 * ((l + (m + 1) : ℕ) : ℝ) - 4 * (0 : ℕ) + 1) / (2 * ((l + (m + 1) : ℕ) : ℝ) - 2 * (0 : ℕ) + 1) = 1 := by
      have : (0 : ℝ) < 2 * ((l + (m + 1) : ℕ) : ℝ) + 1 := by positivity
      simp only [Nat.cast_zero, mul_zero, sub_zero]
      exact div_self this.ne'
    simp only [adams]
    rw [h, mul_one]
    simp only [Nat.sub_zero]
    rw [show l + (m + 1) = l + m + 1 by omega]
    simp only [show A 0 = 1 from rfl, mul_one]
  rw [e1, e2]
  have h1 := (A_pos (l + m + 1)).ne'
  push_cast
  have h2 : (2 * ((l : ℝ) + m) + 3) ≠ 0 := by positivity
  have h3 : (2 * ((l : ℝ) + m + 1) + 1) ≠ 0 := by positivity
  field_simp
  ring

theorem adams_last (a m : ℕ) :
    ((m : ℝ) + 2) * adams (a + m + 2) (m + 2) (m + 2) = (2 * m + 3) * ((a + 1 : ℝ) / (2 * a + 3) * adams (a + m + 2) (m + 1) (m + 1)) := by
  have e1 : adams (a + m + 2) (m + 2) (m + 2) = A a * (A (m + 1) * (2 * (m + 1 : ℕ) + 1) / ((m + 1 : ℕ) + 1)) / A (a + m + 2) *
      ((2 * a + 1) / (2 * a + 2 * m + 5)) := by
    simp only [adams]
    rw [show a + m + 2 - (m + 2) = a by omega, show m + 2 - (m + 2) = 0 by omega, show a + m + 2 + (m + 2) - (m + 2) = a + m + 2 by omega]
    simp only [A]
    push_cast
    congr 1
    · ring
    · congr 1 <;> ring
  have e2 : adams (a + m + 2) (m + 1) (m + 1) = A a * (2 * a + 1) / (a + 1) * A (m + 1) / A (a + m + 2) *
      ((2 * a + 3) / (2 * a + 2 * m + 5)) := by
    simp only [adams]
    rw [show a + m + 2 - (m + 1) = a + 1 by omega, show m + 1 - (m + 1) = 0 by omega, show a + m + 2 + (m + 1) - (m + 1) = a + m + 2 by omega]
    simp only [A]
    push_cast
    congr 1
    · ring
    · congr 1 <;> ring
  rw [e1, e2]
  have h1 := (A_pos (a + m + 2)).ne'
  push_cast
  have h3 : (2 * ((m : ℝ) + 1) + 1) ≠ 0 := by positivity
  field_simp
  ring

theorem x_leg (q : ℕ) (x : ℝ) : x * leg (q + 1) x = ((q + 2) * leg (q + 2) x + (q + 1) * leg q x) / (2 * q + 3) := by
  have h : (2 * (q : ℝ) + 3) ≠ 0 := by positivity
  rw [eq_div_iff h, leg_rec]; ring

theorem product_zero (l : ℕ) (x : ℝ) : leg l x * leg 0 x = ∑ p ∈ Finset.range (0 + 1), adams l 0 p * leg (l + 0 - 2 * p) x := by
  have : adams l 0 0 = 1 := by
    have h0 := (A_pos l).ne'
    have h : (0 : ℝ) < 2 * (l : ℝ) + 1 := by positivity
    simp only [adams, Nat.sub_zero, Nat.add_zero, Nat.cast_zero, mul_zero, sub_zero, show A 0 = 1 from rfl, mul_one]
    rw [div_self h0, div_self h.ne', one_mul]
  simp [this, leg]

theorem product_one (l : ℕ) (x : ℝ) : leg (l + 1) x * leg 1 x = ∑ p ∈ Finset.range (1 + 1), adams (l + 1) 1 p * leg (l + 1 + 1 - 2 * p) x := by
  have hA1 : A 1 = 1 := by simp [A]
  have h0 := (A_pos l).ne'
  have h1 := (A_pos (l + 1)).ne'
  have e0 : adams (l + 1) 1 0 = (l + 2) / (2 * l + 3) := by
    have h : (2 * ((l : ℝ) + 1 + 1) + 1) ≠ 0 := by positivity
    have h' : (2 * ((l : ℝ) + 1) + 1) ≠ 0 := by positivity
    have h'' : (2 * (l : ℝ) + 3) ≠ 0 := by positivity
    simp only [adams, Nat.sub_zero, Nat.cast_zero, mul_zero, sub_zero, show A 0 = 1 from rfl, mul_one, hA1]
    rw [show A (l + 1 + 1) = A (l + 1) * (2 * (l + 1 : ℕ) + 1) / ((l + 1 : ℕ) + 1) from rfl]
    push_cast
    field_simp
    ring
  have e1 : adams (l + 1) 1 1 = (l + 1) / (2 * l + 3) := by
    simp only [adams, Nat.add_sub_cancel, Nat.sub_self, show A 0 = 1 from rfl, mul_one, hA1, Nat.cast_one]
    rw [show A (l + 1) = A l * (2 * l + 1) / (l + 1) from rfl]
    push_cast
    have a1 : (2 * ((l : ℝ) + 1 + 1) - 4 + 1) = 2 * l + 1 := by ring
    have a2 : (2 * ((l : ℝ) + 1 + 1) - 2 + 1) = 2 * l + 3 := by ring
    rw [a1, a2]
    field_simp
  rw [Finset.sum_range_succ, Finset.sum_range_one, e0, e1]
  have : leg 1 x = x := rfl
  rw [this, mul_comm, x_leg, show l + 1 + 1 - 2 * 0 = l + 2 by omega, show l + 1 + 1 - 2 * 1 = l by omega]
  ring

theorem product_le (x : ℝ) : ∀ m l : ℕ, m ≤ l →
    leg l x * leg m x = ∑ p ∈ Finset.range (m + 1), adams l m p * leg (l + m - 2 * p) x := by
  intro m
  induction m using Nat.strong_induction_on with
  | _ m ih =>
    match m, ih with
    | 0, _ => intro l _; exact product_zero l x
    | 1, _ =>
      intro l hl
      obtain ⟨l, rfl⟩ := Nat.exists_eq_add_of_le' hl
      exact product_one l x
    | m + 2, ih =>
      intro l hl
      obtain ⟨a, rfl⟩ := Nat.exists_eq_add_of_le' hl
      have i1 := ih (m + 1) (by omega) (a + (m + 2)) (by omega)
      have i0 := ih m (by omega) (a + (m + 2)) (by omega)
      have hm : (m : ℝ) + 2 ≠ 0 := by positivity
      apply mul_left_cancel₀ hm
      have hstep : ((m : ℝ) + 2) * (leg (a + (m + 2)) x * leg (m + 2) x) =
          (2 * m + 3) * (x * (leg (a + (m + 2)) x * leg (m + 1) x)) - (m + 1) * (leg (a + (m + 2)) x * leg m x) := by
        linear_combination leg (a + (m + 2)) x * leg_rec m x
      rw [hstep, i1, i0]
      -- the three sums
      have s1 : (2 * (m : ℝ) + 3) * (x * ∑ p ∈ Finset.range (m + 1 + 1), adams (a + (m + 2)) (m + 1) p * leg (a + (m + 2) + (m + 1) - 2 * p) x) =
          (∑ p ∈ Finset.range (m + 2), (2 * m + 3) * (((a + 2 * m + 4 - 2 * p : ℕ) : ℝ) / (2 * (a + 2 * m + 4 - 2 * p : ℕ) - 1)
              * adams (a + (m + 2)) (m + 1) p) * leg (a + 2 * m + 4 - 2 * p) x) +
          (∑ p ∈ Finset.range (m + 2), (2 * m + 3) * (((a + 2 * m + 4 - 2 * (p + 1) : ℕ) + 1 : ℝ) / (2 * (a + 2 * m + 4 - 2 * (p + 1) : ℕ) + 3)
              * adams (a + (m + 2)) (m + 1) p) * leg (a + 2 * m + 4 - 2 * (p + 1)) x) := by
        rw [← Finset.sum_add_distrib, Finset.mul_sum, Finset.mul_sum]
        refine Finset.sum_congr rfl (fun p hp => ?_)
        have hp := Finset.mem_range.1 hp
        obtain ⟨q, hq⟩ : ∃ q, q + 1 = a + (m + 2) + (m + 1) - 2 * p := ⟨a + (m + 2) + (m + 1) - 2 * p - 1, by omega⟩
        rw [← hq, show a + 2 * m + 4 - 2 * p = q + 2 by omega, show a + 2 * m + 4 - 2 * (p + 1) = q by omega]
        have hx := x_leg q x
        have h3 : (2 * (q : ℝ) + 3) ≠ 0 := by positivity
        have h4 : (2 * ((q : ℝ) + 2) - 1) ≠ 0 := by
          have : (2 * ((q : ℝ) + 2) - 1) = 2 * q + 3 := by ring
          rw [this]; exact h3
        push_cast
        have h5 : (2 * ((q : ℝ) + 2) - 1) = 2 * q + 3 := by ring
        rw [h5]
        calc (2 * (m : ℝ) + 3) * (x * (adams (a + (m + 2)) (m + 1) p * leg (q + 1) x))
            = (2 * m + 3) * adams (a + (m + 2)) (m + 1) p * (x * leg (q + 1) x) := by ring
          _ = _ := by rw [hx]; ring
      have s2 : ((m : ℝ) + 1) * ∑ p ∈ Finset.range (m + 1), adams (a + (m + 2)) m p * leg (a + (m + 2) + m - 2 * p) x =
          ∑ p ∈ Finset.range (m + 1), (m + 1) * adams (a + (m + 2)) m p * leg (a + 2 * m + 4 - 2 * (p + 1)) x := by
        rw [Finset.mul_sum]
        refine Finset.sum_congr rfl (fun p hp => ?_)
        rw [show a + (m + 2) + m - 2 * p = a + 2 * m + 4 - 2 * (p + 1) by omega]
        ring
      rw [s1, s2, Finset.sum_range_succ' _ (m + 1), Finset.sum_range_succ _ (m + 1), Finset.mul_sum,
        Finset.sum_range_succ' _ (m + 2), Finset.sum_range_succ _ (m + 1)]
      have hmid : ∀ p ∈ Finset.range (m + 1), ((m : ℝ) + 2) * adams (a + (m + 2)) (m + 2) (p + 1) =
          (2 * m + 3) * (((a + 2 * m + 4 - 2 * (p + 1) : ℕ) : ℝ) / (2 * (a + 2 * m + 4 - 2 * (p + 1) : ℕ) - 1) * adams (a + (m + 2)) (m + 1) (p + 1)) +
          (2 * m + 3) * (((a + 2 * m + 4 - 2 * (p + 1) : ℕ) + 1 : ℝ) / (2 * (a + 2 * m + 4 - 2 * (p + 1) : ℕ) + 3) * adams (a + (m + 2)) (m + 1) p) -
          (m + 1) * adams (a + (m + 2)) m p := by
        intro p hp
        have hp := Finset.mem_range.1 hp
        obtain ⟨c, rfl⟩ := Nat.exists_eq_add_of_le (Nat.lt_succ_iff.1 hp)
        have := adams_step (a + (c + 1)) p c
        rw [show a + (c + 1) + p + 1 = a + (p + c + 2) by omega, show a + (c + 1) + c + 1 = a + 2 * (p + c) + 4 - 2 * (p + 1) by omega] at this
        push_cast at this ⊢
        linear_combination this
      have h0 : ((m : ℝ) + 2) * adams (a + (m + 2)) (m + 2) 0 =
          (2 * m + 3) * (((a + 2 * m + 4 - 2 * 0 : ℕ) : ℝ) / (2 * (a + 2 * m + 4 - 2 * 0 : ℕ) - 1) * adams (a + (m + 2)) (m + 1) 0) := by
        have := adams_zero (a + (m + 2)) m
        rw [this]
        have e : a + 2 * m + 4 - 2 * 0 = a + 2 * m + 4 := by omega
        rw [e]
        push_cast
        congr 3
        · ring
        · ring
      have hl : ((m : ℝ) + 2) * adams (a + (m + 2)) (m + 2) (m + 2) =
          (2 * m + 3) * (((a + 2 * m + 4 - 2 * (m + 1 + 1) : ℕ) + 1 : ℝ) / (2 * (a + 2 * m + 4 - 2 * (m + 1 + 1) : ℕ) + 3) * adams (a + (m + 2)) (m + 1) (m + 1)) := by
        have := adams_last a m
        rw [show a + (m + 2) = a + m + 2 by omega, this, show a + 2 * m + 4 - 2 * (m + 1 + 1) = a by omega]
      have hmid2 : (∑ p ∈ Finset.range (m + 1), ((m : ℝ) + 2) * (adams (a + (m + 2)) (m + 2) (p + 1) * leg (a + (m + 2) + (m + 2) - 2 * (p + 1)) x)) =
          (∑ p ∈ Finset.range (m + 1), (2 * m + 3) * (((a + 2 * m + 4 - 2 * (p + 1) : ℕ) : ℝ) / (2 * (a + 2 * m + 4 - 2 * (p + 1) : ℕ) - 1)
              * adams (a + (m + 2)) (m + 1) (p + 1)) * leg (a + 2 * m + 4 - 2 * (p + 1)) x) +
          (∑ p ∈ Finset.range (m + 1), (2 * m + 3) * (((a + 2 * m + 4 - 2 * (p + 1) : ℕ) + 1 : ℝ) / (2 * (a + 2 * m + 4 - 2 * (p + 1) : ℕ) + 3)
              * adams (a + (m + 2)) (m + 1) p) * leg (a + 2 * m + 4 - 2 * (p + 1)) x) -
          ∑ p ∈ Finset.range (m + 1), (m + 1) * adams (a + (m + 2)) m p * leg (a + 2 * m + 4 - 2 * (p + 1)) x := by
        rw [← Finset.sum_add_distrib, ← Finset.sum_sub_distrib]
        refine Finset.sum_congr rfl (fun p hp => ?_)
        rw [show a + (m + 2) + (m + 2) - 2 * (p + 1) = a + 2 * m + 4 - 2 * (p + 1) by omega]
        linear_combination leg (a + 2 * m + 4 - 2 * (p + 1)) x * hmid p hp
      rw [hmid2, show a + (m + 2) + (m + 2) - 2 * (m + 1 + 1) = a + 2 * m + 4 - 2 * (m + 1 + 1) by omega,
        show a + (m + 2) + (m + 2) - 2 * 0 = a + 2 * m + 4 - 2 * 0 by omega]
      linear_combination -leg (a + 2 * m + 4 - 2 * 0) x * h0 - leg (a + 2 * m + 4 - 2 * (m + 1 + 1)) x * hl

/-- Adams' formula. -/
theorem product (l m : ℕ) (x : ℝ) :
    leg l x * leg m x = ∑ p ∈ Finset.range (min l m + 1), adams l m p * leg (l + m - 2 * p) x := by
  rcases le_total m l with h | h
  · rw [min_eq_right h]; exact product_le x m l h
  · rw [min_eq_left h, mul_comm, product_le x l m h]
    refine Finset.sum_congr rfl (fun p _ => ?_)
    rw [adams_comm, Nat.add_comm]

end

end Verif.Legendre
