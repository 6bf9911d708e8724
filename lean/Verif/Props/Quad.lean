/-
C54, C55: discrete quadrature, the continuous multipole transfer and the systematics-free combination.
-/
import Verif.Model.Quad
import Verif.Props.Transfers
import Mathlib.Analysis.SpecialFunctions.Integrals.Basic

namespace Verif.Quad

open Verif.Legendre Verif.Transfers

noncomputable section

/-! ### Quadrature rules -/

/-- A polynomial of degree at most 3, and its integral from `u` to `v`. -/
def cubic (a b c d x : ℝ) : ℝ := a + b * x + c * x ^ 2 + d * x ^ 3

/-- see `cubic_integral` -/
def cubicInt (a b c d u v : ℝ) : ℝ := a * (v - u) + b * (v ^ 2 - u ^ 2) / 2 + c * (v ^ 3 - u ^ 3) / 3 + d * (v ^ 4 - u ^ 4) / 4

theorem cubic_integral (a b c d u v : ℝ) : ∫ x in u..v, cubic a b c d x = cubicInt a b c d u v := by
  have h : ∀ x ∈ Set.uIcc u v, HasDerivAt (fun y => a * y + b * y ^ 2 / 2 + c * y ^ 3 / 3 + d * y ^ 4 / 4) (cubic a b c d x) x := by
    intro x _
    have h1 := (hasDerivAt_id x).const_mul a
    have h2 := ((hasDerivAt_pow 2 x).const_mul b).div_const 2
    have h3 := ((hasDerivAt_pow 3 x).const_mul c).div_const 3
    have h4 := ((hasDerivAt_pow 4 x).const_mul d).div_const 4
    refine (((h1.add h2).add h3).add h4).congr_deriv ?_
    simp only [cubic, Nat.cast_ofNat]
    ring
  rw [intervalIntegral.integral_eq_sub_of_hasDerivAt h
    (by apply Continuous.intervalIntegrable; unfold cubic; fun_prop)]
  simp only [cubicInt]; ring

theorem panel_quadratic (x : ℕ → ℝ) (i : ℕ) (h0 : x (i + 1) ≠ x i) (h1 : x (i + 2) ≠ x (i + 1)) (a b c : ℝ) :
    panel x (fun j => cubic a b c 0 (x j)) i = cubicInt a b c 0 (x i) (x (i + 2)) := by
  have e0 : x (i + 1) - x i ≠ 0 := sub_ne_zero.2 h0
  have e1 : x (i + 2) - x (i + 1) ≠ 0 := sub_ne_zero.2 h1
  simp only [panel, cubic, cubicInt]
  field_simp
  ring

theorem panel_congr (x y y' : ℕ → ℝ) (i : ℕ) (h : ∀ j, i ≤ j → j ≤ i + 2 → y j = y' j) : panel x y i = panel x y' i := by
  simp only [panel, h i (by omega) (by omega), h (i + 1) (by omega) (by omega), h (i + 2) (by omega) (by omega)]

theorem basic_sum (x y : ℕ → ℝ) (F : ℝ → ℝ) (start M : ℕ) (h : ∀ m < M, panel x y (start + 2 * m) = F (x (start + 2 * m + 2)) - F (x (start + 2 * m))) :
    ∑ m ∈ Finset.range M, panel x y (start + 2 * m) = F (x (start + 2 * M)) - F (x start) := by
  induction M with
  | zero => simp
  | succ M ih =>
    rw [Finset.sum_range_succ, ih (fun m hm => h m (by omega)), h M (by omega)]
    rw [show start + 2 * (M + 1) = start + 2 * M + 2 by omega]
    ring

/-- C55: with an odd number of points the Simpson rule is exact for quadratic functions, wherever the points are. -/
theorem C55_simps_quadratic (N : ℕ) (hN : 3 ≤ N) (hodd : N % 2 = 1) (x : ℕ → ℝ) (hx : ∀ i, i + 1 < N → x (i + 1) ≠ x i) (a b c : ℝ) :
    simps N x (fun j => cubic a b c 0 (x j)) = ∫ t in x 0..x (N - 1), cubic a b c 0 t := by
  obtain ⟨m, rfl⟩ : ∃ m, N = 2 * m + 3 := ⟨(N - 3) / 2, by omega⟩
  rw [cubic_integral, simps, if_neg (by omega), basicSimps]
  rw [show 1 + (2 * m + 3 - 2 - 0 - 1) / 2 = m + 1 by omega]
  rw [basic_sum x _ (fun t => cubicInt a b c 0 0 t) 0 (m + 1)]
  · rw [show 0 + 2 * (m + 1) = 2 * m + 3 - 1 by omega]
    simp only [cubicInt]; ring
  · intro i hi
    rw [panel_quadratic x _ (hx _ (by omega)) (hx _ (by omega))]
    simp only [cubicInt]; ring

/-- C55: with equally spaced points it is exact for cubic functions, and for a term `e * t^4` the error is exactly
`e * (2/15) * h^4 * length`. -/
theorem C55_simps_cubic (N : ℕ) (hN : 3 ≤ N) (hodd : N % 2 = 1) (u h : ℝ) (hh : h ≠ 0) (a b c d e : ℝ) :
    simps N (fun j => u + j * h) (fun j => cubic a b c d (u + j * h) + e * (u + j * h) ^ 4) =
      (∫ t in u..u + (N - 1 : ℕ) * h, cubic a b c d t) + e * (((u + (N - 1 : ℕ) * h) ^ 5 - u ^ 5) / 5) + e * (2 / 15) * h ^ 4 * ((N - 1 : ℕ) * h) := by
  obtain ⟨m, rfl⟩ : ∃ m, N = 2 * m + 3 := ⟨(N - 3) / 2, by omega⟩
  rw [cubic_integral, simps, if_neg (by omega), basicSimps]
  rw [show 1 + (2 * m + 3 - 2 - 0 - 1) / 2 = m + 1 by omega]
  rw [basic_sum _ _ (fun t => cubicInt a b c d 0 t + e * t ^ 5 / 5 + e * (2 / 15) * h ^ 4 * t) 0 (m + 1)]
  · rw [show 0 + 2 * (m + 1) = 2 * m + 3 - 1 by omega]
    simp only [cubicInt, Nat.cast_zero]; ring
  · intro i hi
    have e0 : (u + ((0 + 2 * i + 1 : ℕ) : ℝ) * h) - (u + ((0 + 2 * i : ℕ) : ℝ) * h) = h := by push_cast; ring
    have e1 : (u + ((0 + 2 * i + 2 : ℕ) : ℝ) * h) - (u + ((0 + 2 * i + 1 : ℕ) : ℝ) * h) = h := by push_cast; ring
    simp only [panel, e0, e1]
    simp only [cubic, cubicInt]
    push_cast
    field_simp
    ring

/-- C55: with an even number of points (the average of two rules) it is exact for affine functions. -/
theorem C55_simps_even (N : ℕ) (hN : 4 ≤ N) (heven : N % 2 = 0) (x : ℕ → ℝ) (hx : ∀ i, i + 1 < N → x (i + 1) ≠ x i) (a b : ℝ) :
    simps N x (fun j => cubic a b 0 0 (x j)) = ∫ t in x 0..x (N - 1), cubic a b 0 0 t := by
  obtain ⟨m, rfl⟩ : ∃ m, N = 2 * m + 4 := ⟨(N - 4) / 2, by omega⟩
  rw [cubic_integral, simps, if_pos heven, basicSimps, basicSimps]
  rw [show 1 + (2 * m + 4 - 3 - 0 - 1) / 2 = m + 1 by omega, show 1 + (2 * m + 4 - 2 - 1 - 1) / 2 = m + 1 by omega]
  rw [basic_sum x _ (fun t => cubicInt a b 0 0 0 t) 0 (m + 1), basic_sum x _ (fun t => cubicInt a b 0 0 0 t) 1 (m + 1)]
  · rw [show 0 + 2 * (m + 1) = 2 * m + 2 by omega, show 1 + 2 * (m + 1) = 2 * m + 3 by omega, show 2 * m + 4 - 1 = 2 * m + 3 by omega,
      show 2 * m + 4 - 2 = 2 * m + 2 by omega]
    simp only [cubicInt, cubic]; ring
  · intro i hi
    rw [panel_quadratic x _ (hx _ (by omega)) (hx _ (by omega))]
    simp only [cubicInt]; ring
  · intro i hi
    rw [panel_quadratic x _ (hx _ (by omega)) (hx _ (by omega))]
    simp only [cubicInt]; ring

/-- C55: the trapezoid rule is exact for affine functions. -/
theorem C55_trapz (N : ℕ) (x : ℕ → ℝ) (a b : ℝ) :
    trapz N x (fun j => cubic a b 0 0 (x j)) = ∫ t in x 0..x (N - 1), cubic a b 0 0 t := by
  rw [cubic_integral, trapz]
  have : ∀ M, ∑ i ∈ Finset.range M, (x (i + 1) - x i) * (1 / 2) * (cubic a b 0 0 (x (i + 1)) + cubic a b 0 0 (x i)) = cubicInt a b 0 0 (x 0) (x M) := by
    intro M
    induction M with
    | zero => simp [cubicInt]
    | succ M ih =>
      rw [Finset.sum_range_succ, ih]
      simp only [cubic, cubicInt]; ring
  exact this (N - 1)

theorem panel_linear (x y z : ℕ → ℝ) (p q : ℝ) (i : ℕ) : panel x (fun j => p * y j + q * z j) i = p * panel x y i + q * panel x z i := by
  simp only [panel]; ring

/-- C55: both rules are linear in the integrand. -/
theorem C55_linear (N : ℕ) (x y z : ℕ → ℝ) (p q : ℝ) :
    simps N x (fun j => p * y j + q * z j) = p * simps N x y + q * simps N x z ∧
    trapz N x (fun j => p * y j + q * z j) = p * trapz N x y + q * trapz N x z := by
  constructor
  · simp only [simps, basicSimps, panel_linear, Finset.sum_add_distrib, ← Finset.mul_sum]
    split
    · ring
    · rfl
  · simp only [trapz, Finset.mul_sum, ← Finset.sum_add_distrib]
    refine Finset.sum_congr rfl fun i _ => ?_
    ring

theorem simps_congr (N : ℕ) (hN : 3 ≤ N) (x y y' : ℕ → ℝ) (h : ∀ j < N, y j = y' j) : simps N x y = simps N x y' := by
  have hb : ∀ start stop, start + 2 ≤ N → stop ≤ N - 2 → start < stop → basicSimps x y start stop = basicSimps x y' start stop := by
    intro start stop h1 h2 h3
    simp only [basicSimps]
    refine Finset.sum_congr rfl fun m hm => ?_
    have := Finset.mem_range.1 hm
    exact panel_congr _ _ _ _ fun j hj1 hj2 => h j (by omega)
  simp only [simps]
  split
  · rw [hb 0 (N - 3) (by omega) (by omega) (by omega), hb 1 (N - 2) (by omega) (by omega) (by omega), h (N - 1) (by omega), h (N - 2) (by omega),
      h 1 (by omega), h 0 (by omega)]
  · exact hb 0 (N - 2) (by omega) (by omega) (by omega)

/-! ### The multipole transfer -/

/-- The multipole `ell` of a power that is even in `mu`. -/
def halfPole (ell : ℕ) (f : ℝ → ℝ) : ℝ := (2 * ell + 1) * ∫ mu in (0 : ℝ)..1, leg ell mu * f mu

theorem oddNmu_odd (Nmu : ℕ) : oddNmu Nmu % 2 = 1 := by
  simp only [oddNmu]; split <;> omega

theorem oddNmu_ge (Nmu : ℕ) (h : 2 ≤ Nmu) : 3 ≤ oddNmu Nmu := by
  simp only [oddNmu]; split <;> omega

theorem polesGrid_notnull {nk : ℕ} (k : Fin nk → ℝ) (Nmu : ℕ) (c) : (polesGrid k Nmu).notnull c := by
  simp [Grid.notnull, polesGrid]

/-- C55: the multipoles returned for the power `f(k, mu)` evaluated at the points of the transfer (at least two `mu` points asked for).  If
`L_ell(mu) f(k, mu)` is a polynomial of degree four in `mu`, the multipole is the integral up to an error
`(2 ell + 1) e 2/15 h^4`, with `e` the coefficient of `mu^4` and `h` the spacing; for degree three it is exact. -/
theorem C55_poles {nk : ℕ} (k : Fin nk → ℝ) (Nmu : ℕ) (hN : 2 ≤ Nmu) (f : ℝ → ℝ → ℝ) :
    ∃ R, polesCall k Nmu (.flat (List.zipWith (fun k mu => some (f k mu)) (polesGrid k Nmu).flatk (polesGrid k Nmu).flatmu)) = .ok R ∧
      ∀ i ell a b c d e, (∀ mu, leg ell mu * f (k i) mu = cubic a b c d mu + e * mu ^ 4) →
        R i ell = halfPole ell (f (k i)) + (2 * ell + 1) * e * (2 / 15) * (1 / ((oddNmu Nmu : ℝ) - 1)) ^ 4 := by
  obtain ⟨p, hp, hpv⟩ := C53_scatter (polesGrid k Nmu) (fun k mu => some (f k mu))
  simp only [polesCall, hp]
  refine ⟨_, rfl, fun i ell a b c d e hf => ?_⟩
  have h3 := oddNmu_ge Nmu hN
  have hpos : (0 : ℝ) < (oddNmu Nmu : ℝ) - 1 := by
    have : (3 : ℝ) ≤ oddNmu Nmu := by exact_mod_cast h3
    linarith
  rw [simps_congr _ h3 _ _ (fun j => cubic ((2 * ell + 1) * a) ((2 * ell + 1) * b) ((2 * ell + 1) * c) ((2 * ell + 1) * d)
      (0 + j * (1 / ((oddNmu Nmu : ℝ) - 1))) + (2 * ell + 1) * e * (0 + j * (1 / ((oddNmu Nmu : ℝ) - 1))) ^ 4)]
  · have hx : linspace01 (oddNmu Nmu) = fun j : ℕ => 0 + (j : ℝ) * (1 / ((oddNmu Nmu : ℝ) - 1)) := by
      funext j; simp only [linspace01]; ring
    rw [hx, C55_simps_cubic _ h3 (oddNmu_odd Nmu) 0 _ (by positivity)]
    have e1 : (((oddNmu Nmu - 1 : ℕ) : ℝ)) * (1 / ((oddNmu Nmu : ℝ) - 1)) = 1 := by
      rw [Nat.cast_sub (by omega)]; field_simp; norm_num
    rw [e1]
    have e2 : (fun mu => leg ell mu * f (k i) mu) = fun mu => cubic a b c d mu + e * mu ^ 4 := funext hf
    have e3 : ∫ mu in (0 : ℝ)..1, (cubic a b c d mu + e * mu ^ 4) = cubicInt a b c d 0 1 + e / 5 := by
      rw [intervalIntegral.integral_add, cubic_integral, intervalIntegral.integral_const_mul, integral_pow]
      · norm_num; ring
      · apply Continuous.intervalIntegrable; unfold cubic; fun_prop
      · apply Continuous.intervalIntegrable; fun_prop
    rw [halfPole, e2, e3, cubic_integral]
    simp only [cubicInt]
    norm_num
    ring
  · intro j hj
    simp only [dif_pos hj, hpv, if_pos (polesGrid_notnull k Nmu _), Option.getD_some]
    have h1 := hf (linspace01 (oddNmu Nmu) j)
    have h2 : (0 + (j : ℝ) * (1 / ((oddNmu Nmu : ℝ) - 1))) = linspace01 (oddNmu Nmu) j := by simp only [linspace01]; ring
    rw [h2]
    have h3 : f ((polesGrid k Nmu).k i ⟨j, hj⟩) ((polesGrid k Nmu).mu i ⟨j, hj⟩) = f (k i) (linspace01 (oddNmu Nmu) j) := rfl
    rw [h3, mul_assoc, h1]
    simp only [cubic]
    ring

/-- e.g. the monopole of the linear-theory power `(1 + beta mu²)² p` with the default 41 points -/
example (p beta : ℝ) (mu : ℝ) : leg 0 mu * ((1 + beta * mu ^ 2) ^ 2 * p) = cubic p 0 (2 * beta * p) 0 mu + beta ^ 2 * p * mu ^ 4 := by
  simp only [leg, cubic]; ring

/-- C55: the multipole transfer is linear in the power. -/
theorem C55_poles_linear {nk : ℕ} (k : Fin nk → ℝ) (Nmu : ℕ) (f g : Fin nk → Fin (oddNmu Nmu) → ℝ) (s t : ℝ) (Rf Rg R : Fin nk → ℕ → ℝ)
    (hf : polesCall k Nmu (.grid fun i j => some (f i j)) = .ok Rf) (hg : polesCall k Nmu (.grid fun i j => some (g i j)) = .ok Rg)
    (h : polesCall k Nmu (.grid fun i j => some (s * f i j + t * g i j)) = .ok R) (i : Fin nk) (ell : ℕ) :
    R i ell = s * Rf i ell + t * Rg i ell := by
  have hs : ∀ u : Fin nk → Fin (oddNmu Nmu) → ℝ, setPower (polesGrid k Nmu) (.grid fun i j => some (u i j)) = .ok (fun c => some (u c.1 c.2)) := by
    intro u
    rw [setPower_arg (polesGrid k Nmu) _ (fun i j => some (u i j)) (Or.inl rfl)]
    congr 1
    funext c
    exact if_pos (polesGrid_notnull k Nmu c)
  simp only [polesCall, hs, Except.ok.injEq, Option.getD_some] at hf hg h
  subst hf; subst hg; subst h
  beta_reduce
  refine Eq.trans ?_ (C55_linear (oddNmu Nmu) (linspace01 (oddNmu Nmu))
    (fun j => (2 * ell + 1) * leg ell (linspace01 (oddNmu Nmu) j) * (if h : j < oddNmu Nmu then f i ⟨j, h⟩ else 0))
    (fun j => (2 * ell + 1) * leg ell (linspace01 (oddNmu Nmu) j) * (if h : j < oddNmu Nmu then g i ⟨j, h⟩ else 0)) s t).1
  congr 1
  funext j
  by_cases hj : j < oddNmu Nmu
  · simp only [dif_pos hj]; ring
  · simp only [dif_neg hj]; ring

/-! ### C54 -/

/-- C54: the combination is `P0 + 2/5 P2` bin by bin, keeps the number of bins, is linear in the two poles and is refused for any other
number of poles. -/
theorem C54_combination (p0 p2 : List ℝ) (hl : p0.length = p2.length) :
    (∃ r, systematicFreeP0 [p0, p2] = some r ∧ r.length = p0.length ∧
      ∀ i (h : i < r.length) (h0 : i < p0.length) (h2 : i < p2.length), r[i] = p0[i] + 2 / 5 * p2[i]) ∧
    (∀ l : List (List ℝ), l.length ≠ 2 → systematicFreeP0 l = none) := by
  refine ⟨⟨_, rfl, by simp [hl], fun i h h0 h2 => by simp⟩, fun l h => ?_⟩
  match l, h with
  | [], _ => rfl
  | [_], _ => rfl
  | [_, _], h => exact absurd rfl h
  | _ :: _ :: _ :: _, _ => rfl

/-- C54: what the name promises: `P0 + 2/5 P2 = ∫₀¹ 3 mu² f(mu) dmu`, so a contamination of the power concentrated at `mu = 0` does
not enter. -/
theorem C54_weighting (f : ℝ → ℝ) (hf : IntervalIntegrable f MeasureTheory.volume 0 1) :
    halfPole 0 f + 2 / 5 * halfPole 2 f = ∫ mu in (0 : ℝ)..1, 3 * mu ^ 2 * f mu := by
  have h2 : ∀ mu, leg 2 mu = (3 * mu ^ 2 - 1) / 2 := by
    intro mu; simp only [leg]; norm_num; ring
  have hc : IntervalIntegrable (fun mu : ℝ => mu ^ 2 * f mu) MeasureTheory.volume 0 1 := hf.continuousOn_mul (by fun_prop)
  have e2 : ∫ mu in (0 : ℝ)..1, leg 2 mu * f mu = 3 / 2 * (∫ mu in (0 : ℝ)..1, mu ^ 2 * f mu) - 1 / 2 * ∫ mu in (0 : ℝ)..1, f mu := by
    rw [← intervalIntegral.integral_const_mul, ← intervalIntegral.integral_const_mul, ← intervalIntegral.integral_sub]
    · congr 1; funext mu; rw [h2]; ring
    · exact hc.const_mul _
    · exact hf.const_mul _
  have e0 : ∫ mu in (0 : ℝ)..1, leg 0 mu * f mu = ∫ mu in (0 : ℝ)..1, f mu := by
    congr 1; funext mu; simp [leg]
  rw [halfPole, halfPole, e0, e2]
  have e3 : ∫ mu in (0 : ℝ)..1, 3 * mu ^ 2 * f mu = 3 * ∫ mu in (0 : ℝ)..1, mu ^ 2 * f mu := by
    rw [← intervalIntegral.integral_const_mul]; congr 1; funext mu; ring
  rw [e3]
  push_cast
  ring

end

end Verif.Quad
