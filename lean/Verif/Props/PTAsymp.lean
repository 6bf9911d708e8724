/-
C99: beyond `r = 60` the code replaces the kernels of `Jmn` by polynomials in `1/r²`.  They approximate the exact kernels, to order `1/r⁴` (`g10`: `1/r¹⁰`); the further terms the code has
for the other five are not those of the expansion.
-/
import Verif.Props.PTOneLoop
import Mathlib.Analysis.SpecialFunctions.Log.Deriv

namespace Verif.PT

open Verif.SPT Verif.PTSpec MeasureTheory Set Real

/-- the logarithm of the kernels, to order `r⁻¹⁹` -/
theorem log_series {x : ℝ} (h0 : 0 < x) (h1 : x ≤ 1/60) : ∃ y, 0 ≤ y ∧ y ≤ 2*x^16 ∧
    Real.log ((x⁻¹ + 1)/|x⁻¹ - 1|) = 2*(x + x^3/3 + x^5/5 + x^7/7 + x^9/9 + x^11/11 + x^13/13 + x^15/15 + x^17/17 + x^19/19 + x^5*y) := by
  have hx1 : x < 1 := by linarith
  have e1 : (x⁻¹ + 1)/|x⁻¹ - 1| = (1 + x)/(1 - x) := by
    have : 1 < x⁻¹ := (one_lt_inv₀ h0).2 hx1
    rw [abs_of_pos (by linarith)]
    have : 1 - x ≠ 0 := by linarith
    have : x⁻¹ - 1 ≠ 0 := by linarith
    field_simp
  have l := Real.sum_range_le_log_div h0.le hx1 10
  have u := Real.log_div_le_sum_range_add h0.le hx1 10
  rw [e1]
  generalize Real.log ((1 + x)/(1 - x)) = g at *
  have es : ∑ i ∈ Finset.range 10, x^(2*i + 1)/(2*(i:ℝ) + 1) = x + x^3/3 + x^5/5 + x^7/7 + x^9/9 + x^11/11 + x^13/13 + x^15/15 + x^17/17 + x^19/19 := by
    simp only [Finset.sum_range_succ, Finset.sum_range_zero]; norm_num
  rw [es] at l u
  have hp : 0 < x^5 := by positivity
  refine ⟨(1/2*g - (x + x^3/3 + x^5/5 + x^7/7 + x^9/9 + x^11/11 + x^13/13 + x^15/15 + x^17/17 + x^19/19))/x^5, div_nonneg (by linarith) hp.le, ?_, ?_⟩
  · rw [div_le_iff₀ hp]
    have h2 : x^(2*10 + 1)/(1 - x^2) ≤ 2*x^16*x^5 := by
      have h3 : 0 < 1 - x^2 := by nlinarith
      rw [div_le_iff₀ h3]
      have : 0 < x^21 := by positivity
      have h4 : x^2 ≤ 1/2 := by nlinarith
      have e : 2*x^16*x^5*(1 - x^2) = x^21*(2*(1 - x^2)) := by ring
      rw [e]
      exact le_mul_of_one_le_right this.le (by linarith)
    linarith
  · field_simp; ring

/-- the difference of the two branches of `g00` -/
theorem g00_diff {x y : ℝ} (h0 : x ≠ 0)
    (hy : Real.log ((x⁻¹ + 1)/|x⁻¹ - 1|) = 2*(x + x^3/3 + x^5/5 + x^7/7 + x^9/9 + x^11/11 + x^13/13 + x^15/15 + x^17/17 + x^19/19 + x^5*y)) :
    g00x x⁻¹ - g00a x⁻¹ = x^6*((1/792)*(x^2)^0 + (-85/36036)*(x^2)^1 + (113/154440)*(x^2)^2 + (3793/9189180)*(x^2)^3 + (-46/2909907)*(x^2)^4 + (-1121/1670760)*(x^2)^5 + (1447/1220940)*(x^2)^6 + (-55/162792)*(x^2)^7 + (-1/4788)*(x^2)^8) + 6/3024*(1 - x^2)^3*(7 + 2*x^2)*y := by
  rw [g00x, g00a, hy]
  field_simp
  ring

/-- the difference of the two branches of `g01` -/
theorem g01_diff {x y : ℝ} (h0 : x ≠ 0)
    (hy : Real.log ((x⁻¹ + 1)/|x⁻¹ - 1|) = 2*(x + x^3/3 + x^5/5 + x^7/7 + x^9/9 + x^11/11 + x^13/13 + x^15/15 + x^17/17 + x^19/19 + x^5*y)) :
    g01x x⁻¹ - g01a x⁻¹ = x^6*((5/5544)*(x^2)^0 + (-1/819)*(x^2)^1 + (-103/216216)*(x^2)^2 + (3901/4594590)*(x^2)^3 + (-262/14549535)*(x^2)^4 + (-2191/4534920)*(x^2)^5 + (367/610470)*(x^2)^6 + (43/162792)*(x^2)^7 + (-1/2394)*(x^2)^8) + 6/3024*(1 - x^2)^3*(5 + 4*x^2)*y := by
  rw [g01x, g01a, hy]
  field_simp
  ring

/-- the difference of the two branches of `g10` -/
theorem g10_diff {x y : ℝ} (h0 : x ≠ 0)
    (hy : Real.log ((x⁻¹ + 1)/|x⁻¹ - 1|) = 2*(x + x^3/3 + x^5/5 + x^7/7 + x^9/9 + x^11/11 + x^13/13 + x^15/15 + x^17/17 + x^19/19 + x^5*y)) :
    g10x x⁻¹ - g10a x⁻¹ = x^12*((-2/85085)*(x^2)^0 + (-2/146965)*(x^2)^1 + (-233/271320)*(x^2)^2 + (4/2261)*(x^2)^3 + (-1/1064)*(x^2)^4) + 18/1008*(1 - x^2)^3*y := by
  rw [g10x, g10a, hy]
  field_simp
  ring

/-- the difference of the two branches of `g11` -/
theorem g11_diff {x y : ℝ} (h0 : x ≠ 0)
    (hy : Real.log ((x⁻¹ + 1)/|x⁻¹ - 1|) = 2*(x + x^3/3 + x^5/5 + x^7/7 + x^9/9 + x^11/11 + x^13/13 + x^15/15 + x^17/17 + x^19/19 + x^5*y)) :
    g11x x⁻¹ - g11a x⁻¹ = x^6*((1/1848)*(x^2)^0 + (-1/12012)*(x^2)^1 + (-607/360360)*(x^2)^2 + (3937/3063060)*(x^2)^3 + (-14/692835)*(x^2)^4 + (-625/2116296)*(x^2)^5 + (1/58140)*(x^2)^6 + (47/54264)*(x^2)^7 + (-1/1596)*(x^2)^8) + 6/1008*(1 - x^2)^3*(1 + 2*x^2)*y := by
  rw [g11x, g11a, hy]
  field_simp
  ring

/-- the difference of the two branches of `g02` -/
theorem g02_diff {x y : ℝ} (h0 : x ≠ 0)
    (hy : Real.log ((x⁻¹ + 1)/|x⁻¹ - 1|) = 2*(x + x^3/3 + x^5/5 + x^7/7 + x^9/9 + x^11/11 + x^13/13 + x^15/15 + x^17/17 + x^19/19 + x^5*y)) :
    g02x x⁻¹ - g02a x⁻¹ = x^6*((-3/1232)*(x^2)^0 + (123/16016)*(x^2)^1 + (-653/80080)*(x^2)^2 + (4009/1361360)*(x^2)^3 + (-24/1616615)*(x^2)^4 + (2981/2351440)*(x^2)^5 + (-713/180880)*(x^2)^6 + (21/5168)*(x^2)^7 + (-3/2128)*(x^2)^8) + -6/224*(1 - x^2)^4*y := by
  rw [g02x, g02a, hy]
  field_simp
  ring

/-- the difference of the two branches of `g20` -/
theorem g20_diff {x y : ℝ} (h0 : x ≠ 0)
    (hy : Real.log ((x⁻¹ + 1)/|x⁻¹ - 1|) = 2*(x + x^3/3 + x^5/5 + x^7/7 + x^9/9 + x^11/11 + x^13/13 + x^15/15 + x^17/17 + x^19/19 + x^5*y)) :
    g20x x⁻¹ - g20a x⁻¹ = x^6*((9/1232)*(x^2)^0 + (-213/16016)*(x^2)^1 + (279/80080)*(x^2)^2 + (347/123760)*(x^2)^3 + (-12/124355)*(x^2)^4 + (-261/67184)*(x^2)^5 + (71/10640)*(x^2)^6 + (-3/1904)*(x^2)^7 + (-3/2128)*(x^2)^8) + 18/672*(1 - x^2)^3*(3 + x^2)*y := by
  rw [g20x, g20a, hy]
  field_simp
  ring

/-- the variables of the bounds: `t = 1/r²`, and the remainder of the logarithm -/
theorem asym_vars {r : ℝ} (hr : 60 ≤ r) (n : ℕ) (hn : n ≤ 14) : ∃ x t z : ℝ, r = x⁻¹ ∧ 0 < x ∧ t = x^2 ∧ 0 ≤ t ∧ t ≤ 1/3600 ∧ 0 ≤ z ∧ z ≤ 2*t ∧
    Real.log ((x⁻¹ + 1)/|x⁻¹ - 1|) = 2*(x + x^3/3 + x^5/5 + x^7/7 + x^9/9 + x^11/11 + x^13/13 + x^15/15 + x^17/17 + x^19/19 + x^5*(x^n*z)) := by
  have hr0 : 0 < r := by linarith
  have hx : 0 < r⁻¹ := inv_pos.2 hr0
  have hx1 : r⁻¹ ≤ 1/60 := by rw [inv_eq_one_div]; exact one_div_le_one_div_of_le (by norm_num) hr
  obtain ⟨y, y0, y1, hy⟩ := log_series hx hx1
  refine ⟨r⁻¹, r⁻¹^2, y/r⁻¹^n, (inv_inv r).symm, hx, rfl, sq_nonneg _, ?_, by positivity, ?_, ?_⟩
  · calc r⁻¹^2 ≤ (1/60)^2 := pow_le_pow_left₀ hx.le hx1 2
      _ = 1/3600 := by norm_num
  · rw [div_le_iff₀ (by positivity)]
    refine y1.trans ?_
    rw [mul_assoc, ← pow_add]
    exact mul_le_mul_of_nonneg_left (pow_le_pow_of_le_one hx.le (by linarith) (by omega)) (by norm_num)
  · rw [mul_div_cancel₀ _ (by positivity)]; exact hy

theorem pow_small {t : ℝ} (h0 : 0 ≤ t) (h1 : t ≤ 1/3600) {n : ℕ} (hn : 1 ≤ n) : 0 ≤ t^n ∧ t^n ≤ 1/3600 :=
  ⟨by positivity, (pow_le_of_le_one h0 (by linarith) (by omega)).trans h1⟩

theorem err_small {t z c : ℝ} (h0 : 0 ≤ t) (h1 : t ≤ 1/3600) (z0 : 0 ≤ z) (z1 : z ≤ 2*t) (n : ℕ) (c0 : 0 ≤ c) (c1 : c ≤ 10) : 0 ≤ (1 - t)^n*c*z ∧ (1 - t)^n*c*z ≤ 1/180 := by
  have h2 : 0 ≤ (1 - t)^n := pow_nonneg (by linarith) n
  have h3 : (1 - t)^n ≤ 1 := pow_le_one₀ (by linarith) (by linarith)
  have h4 : (1 - t)^n*c ≤ 10 := by nlinarith
  have h5 : 0 ≤ (1 - t)^n*c := mul_nonneg h2 c0
  exact ⟨mul_nonneg h5 z0, by nlinarith⟩

/-- the two branches of `g00` beyond `r = 60`: they differ by a term of order `1/r⁶` -/
theorem g00_bounds {r : ℝ} (hr : 60 ≤ r) : (1/1000)/r^6 ≤ g00x r - g00a r ∧ g00x r - g00a r ≤ (1/100)/r^6 := by
  obtain ⟨x, t, z, rfl, hx, ht, t0, t1, z0, z1, hy⟩ := asym_vars hr 6 (by norm_num)
  have hd := g00_diff hx.ne' hy
  rw [← ht] at hd
  have p2 := pow_small t0 t1 (n := 2) (by norm_num)
  have p3 := pow_small t0 t1 (n := 3) (by norm_num)
  have p4 := pow_small t0 t1 (n := 4) (by norm_num)
  have p5 := pow_small t0 t1 (n := 5) (by norm_num)
  have p6 := pow_small t0 t1 (n := 6) (by norm_num)
  have p7 := pow_small t0 t1 (n := 7) (by norm_num)
  have p8 := pow_small t0 t1 (n := 8) (by norm_num)
  have pe := err_small t0 t1 z0 z1 3 (c := (7 + 2*t)) (by linarith) (by linarith)
  have hx6 : 0 < x^6 := by positivity
  have e6 : ∀ c : ℝ, c/(x⁻¹)^6 = x^6*c := fun c => by rw [inv_pow, div_inv_eq_mul, mul_comm]
  rw [e6, e6]
  have hd' : g00x x⁻¹ - g00a x⁻¹ = x^6*((1/792)*1 + (-85/36036)*t + (113/154440)*t^2 + (3793/9189180)*t^3 + (-46/2909907)*t^4 + (-1121/1670760)*t^5 + (1447/1220940)*t^6 + (-55/162792)*t^7 + (-1/4788)*t^8 + 6/3024*((1 - t)^3*(7 + 2*t)*z)) := by rw [hd]; ring
  rw [hd']
  constructor
  · exact mul_le_mul_of_nonneg_left (by linarith) hx6.le
  · exact mul_le_mul_of_nonneg_left (by linarith) hx6.le

/-- the two branches of `g01` beyond `r = 60`: they differ by a term of order `1/r⁶` -/
theorem g01_bounds {r : ℝ} (hr : 60 ≤ r) : (9/10000)/r^6 ≤ g01x r - g01a r ∧ g01x r - g01a r ≤ (1/100)/r^6 := by
  obtain ⟨x, t, z, rfl, hx, ht, t0, t1, z0, z1, hy⟩ := asym_vars hr 6 (by norm_num)
  have hd := g01_diff hx.ne' hy
  rw [← ht] at hd
  have p2 := pow_small t0 t1 (n := 2) (by norm_num)
  have p3 := pow_small t0 t1 (n := 3) (by norm_num)
  have p4 := pow_small t0 t1 (n := 4) (by norm_num)
  have p5 := pow_small t0 t1 (n := 5) (by norm_num)
  have p6 := pow_small t0 t1 (n := 6) (by norm_num)
  have p7 := pow_small t0 t1 (n := 7) (by norm_num)
  have p8 := pow_small t0 t1 (n := 8) (by norm_num)
  have pe := err_small t0 t1 z0 z1 3 (c := (5 + 4*t)) (by linarith) (by linarith)
  have hx6 : 0 < x^6 := by positivity
  have e6 : ∀ c : ℝ, c/(x⁻¹)^6 = x^6*c := fun c => by rw [inv_pow, div_inv_eq_mul, mul_comm]
  rw [e6, e6]
  have hd' : g01x x⁻¹ - g01a x⁻¹ = x^6*((5/5544)*1 + (-1/819)*t + (-103/216216)*t^2 + (3901/4594590)*t^3 + (-262/14549535)*t^4 + (-2191/4534920)*t^5 + (367/610470)*t^6 + (43/162792)*t^7 + (-1/2394)*t^8 + 6/3024*((1 - t)^3*(5 + 4*t)*z)) := by rw [hd]; ring
  rw [hd']
  constructor
  · exact mul_le_mul_of_nonneg_left (by linarith) hx6.le
  · exact mul_le_mul_of_nonneg_left (by linarith) hx6.le

/-- the two branches of `g11` beyond `r = 60`: they differ by a term of order `1/r⁶` -/
theorem g11_bounds {r : ℝ} (hr : 60 ≤ r) : (1/2000)/r^6 ≤ g11x r - g11a r ∧ g11x r - g11a r ≤ (1/100)/r^6 := by
  obtain ⟨x, t, z, rfl, hx, ht, t0, t1, z0, z1, hy⟩ := asym_vars hr 6 (by norm_num)
  have hd := g11_diff hx.ne' hy
  rw [← ht] at hd
  have p2 := pow_small t0 t1 (n := 2) (by norm_num)
  have p3 := pow_small t0 t1 (n := 3) (by norm_num)
  have p4 := pow_small t0 t1 (n := 4) (by norm_num)
  have p5 := pow_small t0 t1 (n := 5) (by norm_num)
  have p6 := pow_small t0 t1 (n := 6) (by norm_num)
  have p7 := pow_small t0 t1 (n := 7) (by norm_num)
  have p8 := pow_small t0 t1 (n := 8) (by norm_num)
  have pe := err_small t0 t1 z0 z1 3 (c := (1 + 2*t)) (by linarith) (by linarith)
  have hx6 : 0 < x^6 := by positivity
  have e6 : ∀ c : ℝ, c/(x⁻¹)^6 = x^6*c := fun c => by rw [inv_pow, div_inv_eq_mul, mul_comm]
  rw [e6, e6]
  have hd' : g11x x⁻¹ - g11a x⁻¹ = x^6*((1/1848)*1 + (-1/12012)*t + (-607/360360)*t^2 + (3937/3063060)*t^3 + (-14/692835)*t^4 + (-625/2116296)*t^5 + (1/58140)*t^6 + (47/54264)*t^7 + (-1/1596)*t^8 + 6/1008*((1 - t)^3*(1 + 2*t)*z)) := by rw [hd]; ring
  rw [hd']
  constructor
  · exact mul_le_mul_of_nonneg_left (by linarith) hx6.le
  · exact mul_le_mul_of_nonneg_left (by linarith) hx6.le

/-- the two branches of `g02` beyond `r = 60`: they differ by a term of order `1/r⁶` -/
theorem g02_bounds {r : ℝ} (hr : 60 ≤ r) : (2/1000)/r^6 ≤ g02a r - g02x r ∧ g02a r - g02x r ≤ (1/100)/r^6 := by
  obtain ⟨x, t, z, rfl, hx, ht, t0, t1, z0, z1, hy⟩ := asym_vars hr 6 (by norm_num)
  have hd := g02_diff hx.ne' hy
  rw [← ht] at hd
  have p2 := pow_small t0 t1 (n := 2) (by norm_num)
  have p3 := pow_small t0 t1 (n := 3) (by norm_num)
  have p4 := pow_small t0 t1 (n := 4) (by norm_num)
  have p5 := pow_small t0 t1 (n := 5) (by norm_num)
  have p6 := pow_small t0 t1 (n := 6) (by norm_num)
  have p7 := pow_small t0 t1 (n := 7) (by norm_num)
  have p8 := pow_small t0 t1 (n := 8) (by norm_num)
  have pe := err_small t0 t1 z0 z1 4 (c := 1) (by linarith) (by linarith)
  have hx6 : 0 < x^6 := by positivity
  have e6 : ∀ c : ℝ, c/(x⁻¹)^6 = x^6*c := fun c => by rw [inv_pow, div_inv_eq_mul, mul_comm]
  rw [e6, e6]
  have hd' : g02a x⁻¹ - g02x x⁻¹ = x^6*(-((-3/1232)*1 + (123/16016)*t + (-653/80080)*t^2 + (4009/1361360)*t^3 + (-24/1616615)*t^4 + (2981/2351440)*t^5 + (-713/180880)*t^6 + (21/5168)*t^7 + (-3/2128)*t^8 + -6/224*((1 - t)^4*1*z))) := by rw [show g02a x⁻¹ - g02x x⁻¹ = -(g02x x⁻¹ - g02a x⁻¹) by ring, hd]; ring
  rw [hd']
  constructor
  · exact mul_le_mul_of_nonneg_left (by linarith) hx6.le
  · exact mul_le_mul_of_nonneg_left (by linarith) hx6.le

/-- the two branches of `g20` beyond `r = 60`: they differ by a term of order `1/r⁶` -/
theorem g20_bounds {r : ℝ} (hr : 60 ≤ r) : (7/1000)/r^6 ≤ g20x r - g20a r ∧ g20x r - g20a r ≤ (1/100)/r^6 := by
  obtain ⟨x, t, z, rfl, hx, ht, t0, t1, z0, z1, hy⟩ := asym_vars hr 6 (by norm_num)
  have hd := g20_diff hx.ne' hy
  rw [← ht] at hd
  have p2 := pow_small t0 t1 (n := 2) (by norm_num)
  have p3 := pow_small t0 t1 (n := 3) (by norm_num)
  have p4 := pow_small t0 t1 (n := 4) (by norm_num)
  have p5 := pow_small t0 t1 (n := 5) (by norm_num)
  have p6 := pow_small t0 t1 (n := 6) (by norm_num)
  have p7 := pow_small t0 t1 (n := 7) (by norm_num)
  have p8 := pow_small t0 t1 (n := 8) (by norm_num)
  have pe := err_small t0 t1 z0 z1 3 (c := (3 + t)) (by linarith) (by linarith)
  have hx6 : 0 < x^6 := by positivity
  have e6 : ∀ c : ℝ, c/(x⁻¹)^6 = x^6*c := fun c => by rw [inv_pow, div_inv_eq_mul, mul_comm]
  rw [e6, e6]
  have hd' : g20x x⁻¹ - g20a x⁻¹ = x^6*((9/1232)*1 + (-213/16016)*t + (279/80080)*t^2 + (347/123760)*t^3 + (-12/124355)*t^4 + (-261/67184)*t^5 + (71/10640)*t^6 + (-3/1904)*t^7 + (-3/2128)*t^8 + 18/672*((1 - t)^3*(3 + t)*z)) := by rw [hd]; ring
  rw [hd']
  constructor
  · exact mul_le_mul_of_nonneg_left (by linarith) hx6.le
  · exact mul_le_mul_of_nonneg_left (by linarith) hx6.le

/-- the two branches of `g10` beyond `r = 60`: the polynomial of the code is the expansion, up to a term of order `1/r¹²` -/
theorem g10_bounds {r : ℝ} (hr : 60 ≤ r) : |g10x r - g10a r| ≤ (1/5000)/r^12 := by
  obtain ⟨x, t, z, rfl, hx, ht, t0, t1, z0, z1, hy⟩ := asym_vars hr 12 (by norm_num)
  have hd := g10_diff hx.ne' hy
  rw [← ht] at hd
  have p2 := pow_small t0 t1 (n := 2) (by norm_num)
  have p3 := pow_small t0 t1 (n := 3) (by norm_num)
  have p4 := pow_small t0 t1 (n := 4) (by norm_num)
  have pe := err_small t0 t1 z0 z1 3 (c := 1) (by linarith) (by linarith)
  have hx6 : 0 < x^12 := by positivity
  have e6 : ∀ c : ℝ, c/(x⁻¹)^12 = x^12*c := fun c => by rw [inv_pow, div_inv_eq_mul, mul_comm]
  have hd' : g10x x⁻¹ - g10a x⁻¹ = x^12*((-2/85085)*1 + (-2/146965)*t + (-233/271320)*t^2 + (4/2261)*t^3 + (-1/1064)*t^4 + 18/1008*((1 - t)^3*1*z)) := by rw [hd]; ring
  rw [hd', e6, abs_mul, abs_of_pos hx6]
  refine mul_le_mul_of_nonneg_left ?_ hx6.le
  rw [abs_le]
  constructor <;> linarith


/-! ### The integrals and the spectrum, whatever the range of the linear spectrum -/

/-- the difference of the two branches, as a bound for every `r ≥ 60` -/
noncomputable def asymEps : ℝ := (1/100)/60^6

theorem pow_bound {r c : ℝ} (hr : 60 ≤ r) (h : c ≤ (1/100)/r^6) : c ≤ asymEps :=
  h.trans (div_le_div_of_nonneg_left (by norm_num) (by norm_num) (pow_le_pow_left₀ (by norm_num) hr 6))

theorem branch_near {r : ℝ} : |g00 r - g00x r| ≤ asymEps ∧ |g01 r - g01x r| ≤ asymEps ∧ |g02 r - g02x r| ≤ asymEps ∧ |g10 r - g10x r| ≤ asymEps ∧ |g11 r - g11x r| ≤ asymEps ∧
    |g20 r - g20x r| ≤ asymEps := by
  have e0 : 0 ≤ asymEps := by unfold asymEps; norm_num
  by_cases hr : r < 60
  · simp only [g00, g01, g02, g10, g11, g20, if_pos hr, sub_self, abs_zero]
    exact ⟨e0, e0, e0, e0, e0, e0⟩
  · have hr' := not_lt.1 hr
    have hr0 : 0 < r := by linarith
    simp only [g00, g01, g02, g10, g11, g20, if_neg hr]
    have up : ∀ {c l : ℝ}, 0 ≤ l → l/r^6 ≤ c ∧ c ≤ (1/100)/r^6 → |c| ≤ asymEps := fun hl h => by
      rw [abs_of_nonneg ((by positivity : (0:ℝ) ≤ _).trans h.1)]; exact pow_bound hr' h.2
    refine ⟨?_, ?_, ?_, ?_, ?_, ?_⟩
    · rw [abs_sub_comm]; exact up (by norm_num) (g00_bounds hr')
    · rw [abs_sub_comm]; exact up (by norm_num) (g01_bounds hr')
    · exact up (by norm_num) (g02_bounds hr')
    · rw [abs_sub_comm]
      refine (g10_bounds hr').trans (pow_bound hr' ?_)
      rw [div_le_div_iff₀ (by positivity) (by positivity)]
      have h1 : (1:ℝ) ≤ r^6 := one_le_pow₀ (by linarith)
      have e : r^12 = r^6*r^6 := by ring
      rw [e]
      have : 0 < r^6 := by positivity
      nlinarith
    · rw [abs_sub_comm]; exact up (by norm_num) (g11_bounds hr')
    · rw [abs_sub_comm]; exact up (by norm_num) (g20_bounds hr')

theorem g_meas {i j : ℕ} {g : ℝ → ℝ} (hj : jmnKernel i j = some g) : Measurable g := by
  have hm : MeasurableSet {r : ℝ | r < 60} := measurableSet_Iio
  have hl : Measurable fun r : ℝ => Real.log ((r + 1)/|r - 1|) := by
    have : Measurable fun r : ℝ => |r - 1| := continuous_abs.measurable.comp (by fun_prop : Measurable fun r : ℝ => r - 1)
    fun_prop
  have n00 : Measurable g00 := Measurable.ite hm (by unfold g00x; fun_prop) (by unfold g00a; fun_prop)
  have n01 : Measurable g01 := Measurable.ite hm (by unfold g01x; fun_prop) (by unfold g01a; fun_prop)
  have n02 : Measurable g02 := Measurable.ite hm (by unfold g02x; fun_prop) (by unfold g02a; fun_prop)
  have n10 : Measurable g10 := Measurable.ite hm (by unfold g10x; fun_prop) (by unfold g10a; fun_prop)
  have n11 : Measurable g11 := Measurable.ite hm (by unfold g11x; fun_prop) (by unfold g11a; fun_prop)
  have n20 : Measurable g20 := Measurable.ite hm (by unfold g20x; fun_prop) (by unfold g20a; fun_prop)
  unfold jmnKernel at hj
  split at hj <;> simp only [Option.some.injEq, reduceCtorEq] at hj <;> subst hj <;> assumption

/-- `Jmn` is the integral of a kernel which is near the exact one -/
theorem jmn_near {a b k : ℝ} {P : ℝ → ℝ} (h : Band a b P) (ha : 1/100000 < a) (hb : b ≤ 100) (hk : 0 < k) {g gx : ℝ → ℝ} (hm : Measurable g) (hg : ∀ r, |g r - gx r| ≤ asymEps)
    (hc : ContinuousOn (fun q => gx (q/k)) (Icc a b)) :
    |jmnCompute Num.exact g P k - 1/(2*Real.pi^2) * ∫ q in Icc a b, P q * gx (q/k)| ≤ asymEps * (1/(2*Real.pi^2) * ∫ q in Icc a b, P q) := by
  have h1 : Real.log (1/100000) ≤ Real.log QMAX := Real.log_le_log (by norm_num) (by norm_num [QMAX])
  have e0 : jmnCompute Num.exact g P k = 1/(2*Real.pi^2) * ∫ q in Icc a b, P q * g (q/k) := by
    simp only [jmnCompute, not_le.2 hk, if_false, Num.exact]
    rw [intervalIntegral.integral_of_le h1]
    have e := integral_image_eq_integral_abs_deriv_smul (s := Ioc (Real.log (1/100000)) (Real.log QMAX)) measurableSet_Ioc
      (fun x _ => (Real.hasDerivAt_exp x).hasDerivWithinAt) Real.exp_injective.injOn (fun q => P q * g (if q/k = 1 then 1 - 1/10^10 else q/k))
    rw [exp_image (by norm_num) (by norm_num [QMAX])] at e
    have e2 : ∫ x in Ioc (Real.log (1/100000)) (Real.log QMAX), jmnIntegrand g P k x = ∫ q in Ioc (1/100000) QMAX, P q * g (if q/k = 1 then 1 - 1/10^10 else q/k) := by
      rw [e]
      refine setIntegral_congr_fun measurableSet_Ioc fun x _ => ?_
      simp only [jmnIntegrand, smul_eq_mul, abs_of_pos (Real.exp_pos x)]; ring
    rw [e2, band_integral h measurableSet_Ioc fun q hq => ⟨ha.trans_le hq.1, hq.2.trans (hb.trans (by norm_num [QMAX]))⟩]
    rw [mul_assoc 2, show Real.pi*Real.pi = Real.pi^2 by ring]
    congr 1
    refine setIntegral_congr_ae measurableSet_Icc ?_
    filter_upwards [ae_ne k] with q hq hm
    have h2 : q/k ≠ 1 := by rw [ne_eq, div_eq_one_iff_eq hk.ne']; exact hq
    rw [if_neg h2]
  have iP : IntegrableOn P (Icc a b) := band_integrable h a b
  have ix : IntegrableOn (fun q => P q * gx (q/k)) (Icc a b) := band_mul h hc
  have id : IntegrableOn (fun q => P q * (g (q/k) - gx (q/k))) (Icc a b) := by
    refine Integrable.mono' (iP.integrable.const_mul asymEps) ?_ (Filter.Eventually.of_forall fun q => ?_)
    · refine AEStronglyMeasurable.mul h.meas.aestronglyMeasurable (AEStronglyMeasurable.sub ?_ (hc.aestronglyMeasurable measurableSet_Icc))
      exact (hm.comp (by fun_prop : Measurable fun q : ℝ => q/k)).aestronglyMeasurable
    · rw [Real.norm_eq_abs, abs_mul, abs_of_nonneg (h.nonneg q), mul_comm]
      exact mul_le_mul_of_nonneg_right (hg _) (h.nonneg q)
  have ed : ∫ q in Icc a b, P q * g (q/k) = (∫ q in Icc a b, P q * gx (q/k)) + ∫ q in Icc a b, P q * (g (q/k) - gx (q/k)) := by
    rw [← integral_add ix id]
    exact integral_congr_ae (Filter.Eventually.of_forall fun q => by simp only; ring)
  have hp : 0 ≤ 1/(2*Real.pi^2) := by positivity
  rw [e0, ed, mul_add, add_sub_cancel_left, abs_mul, abs_of_nonneg hp, mul_left_comm, ← integral_const_mul]
  refine mul_le_mul_of_nonneg_left ?_ hp
  rw [← Real.norm_eq_abs]
  refine norm_integral_le_of_norm_le (iP.integrable.const_mul asymEps) (Filter.Eventually.of_forall fun q => ?_)
  rw [Real.norm_eq_abs, abs_mul, abs_of_nonneg (h.nonneg q), mul_comm]
  exact mul_le_mul_of_nonneg_right (hg _) (h.nonneg q)


theorem err_total {f μ e00 e02 e10 e11 e20 B : ℝ} (hμ : μ^2 ≤ 1) (hB0 : 0 ≤ B) (b00 : |e00| ≤ B) (b02 : |e02| ≤ B) (b10 : |e10| ≤ B) (b11 : |e11| ≤ B) (b20 : |e20| ≤ B) :
    |e00*(1 + 4*f*μ^2) + f^2*μ^4*(e11 + 2*e10) + f^2/3*μ^2*(1 + f*μ^2)*(e02 + μ^2*e20)| ≤ B*(1 + |f|)^4 := by
  have hf := abs_nonneg f
  have m0 := sq_nonneg μ
  have q1 : |e00*(1 + 4*f*μ^2)| ≤ B*(1 + 4*|f|) := by
    rw [abs_mul]
    refine mul_le_mul b00 ((abs_add_le _ _).trans ?_) (abs_nonneg _) hB0
    rw [abs_one, abs_mul, abs_mul, abs_of_nonneg m0, abs_of_pos (by norm_num : (0:ℝ) < 4)]
    nlinarith [mul_le_mul_of_nonneg_left hμ hf]
  have q2 : |f^2*μ^4*(e11 + 2*e10)| ≤ |f|^2*(B*3) := by
    rw [abs_mul, abs_mul, abs_pow, abs_of_nonneg (by positivity : 0 ≤ μ^4), mul_assoc]
    refine mul_le_mul_of_nonneg_left ?_ (by positivity)
    have : |e11 + 2*e10| ≤ B*3 := by
      refine (abs_add_le _ _).trans ?_
      rw [abs_mul, abs_of_pos (by norm_num : (0:ℝ) < 2)]; linarith
    have hμ4 : μ^4 ≤ 1 := by nlinarith
    calc μ^4*|e11 + 2*e10| ≤ 1*|e11 + 2*e10| := mul_le_mul_of_nonneg_right hμ4 (abs_nonneg _)
      _ ≤ B*3 := by linarith
  have q3 : |f^2/3*μ^2*(1 + f*μ^2)*(e02 + μ^2*e20)| ≤ |f|^2/3*(1 + |f|)*(2*B) := by
    rw [abs_mul]
    refine mul_le_mul ?_ ?_ (abs_nonneg _) (by positivity)
    · rw [abs_mul, abs_mul, abs_div, abs_pow, abs_of_pos (by norm_num : (0:ℝ) < 3), abs_of_nonneg m0]
      have h1 : |1 + f*μ^2| ≤ 1 + |f| := by
        refine (abs_add_le _ _).trans ?_
        rw [abs_one, abs_mul, abs_of_nonneg m0]
        nlinarith [mul_le_mul_of_nonneg_left hμ hf]
      refine mul_le_mul ?_ h1 (abs_nonneg _) (by positivity)
      nlinarith [mul_le_mul_of_nonneg_left hμ (by positivity : 0 ≤ |f|^2/3)]
    · refine (abs_add_le _ _).trans ?_
      rw [abs_mul, abs_of_nonneg m0]
      nlinarith [mul_le_mul_of_nonneg_right hμ (abs_nonneg e20)]
  refine ((abs_add_le _ _).trans (add_le_add ((abs_add_le _ _).trans (add_le_add q1 q2)) q3)).trans ?_
  have : B*(1 + 4*|f|) + |f|^2*(B*3) + |f|^2/3*(1 + |f|)*(2*B) = B*(1 + 4*|f| + 11/3*|f|^2 + 2/3*|f|^3) := by ring
  rw [this]
  refine mul_le_mul_of_nonneg_left ?_ hB0
  have e : (1 + |f|)^4 - (1 + 4*|f| + 11/3*|f|^2 + 2/3*|f|^3) = 7/3*|f|^2 + 10/3*|f|^3 + |f|^4 := by ring
  have : 0 ≤ 7/3*|f|^2 + 10/3*|f|^3 + |f|^4 := by positivity
  linarith


section
variable {m : Dm} {a b k : ℝ} (h : Band a b m.lin.P) (ha : 1/100000 < a) (hb : b ≤ 100) (hk : 0 < k)
include h ha hb hk

theorem model_J_near {i j : ℕ} {g gx : ℝ → ℝ} (hj : jmnKernel i j = some g) (hg : ∀ r, |g r - gx r| ≤ asymEps) (hc : ContinuousOn (fun q => gx (q/k)) (Icc a b)) :
    ∃ e, m.J Num.exact k i j = 1/(2*Real.pi^2) * (∫ q in Icc a b, m.plin q * gx (q/k)) + e ∧ |e| ≤ asymEps * (1/(2*Real.pi^2) * ∫ q in Icc a b, m.plin q) := by
  have e : m.J Num.exact k i j = m.norm * jmnCompute Num.exact g m.lin.P k := by
    have : m.J Num.exact k i j = m.norm * (jmn Num.exact m.lin.P k i j).getD 0 := rfl
    rw [this, jmn, hj, Option.map_some, Option.getD_some]
  have hn := jmn_near h ha hb hk (g_meas hj) hg hc
  have e2 : ∀ q, m.plin q * gx (q/k) = m.norm * (m.lin.P q * gx (q/k)) := fun q => by rw [Dm.plin]; ring
  have e3 : ∀ q, m.plin q = m.norm * m.lin.P q := fun q => rfl
  have n0 : 0 ≤ m.norm := by unfold Dm.norm; positivity
  refine ⟨m.norm * (jmnCompute Num.exact g m.lin.P k - 1/(2*Real.pi^2) * ∫ q in Icc a b, m.lin.P q * gx (q/k)), ?_, ?_⟩
  · simp only [e, e2, integral_const_mul]; ring
  · simp only [e3, integral_const_mul]
    rw [abs_mul, abs_of_nonneg n0]
    refine (mul_le_mul_of_nonneg_left hn n0).trans (le_of_eq (by ring))

/-- **C105 with no bound on the range of the linear spectrum**: where the code uses the asymptotic kernels, the dark-matter spectrum without two-loop terms is that of one-loop standard
perturbation theory to a relative accuracy of `4·10⁻¹² (1 + |f|)⁴ k² σ_v²`. -/
theorem C99_one_loop (hs : OneLoopSettings m) (hQ : k ≤ 200000) {μ : ℝ} (hμ : μ^2 ≤ 1) :
    |m.P_mu0 Num.exact k + μ^2 * m.P_mu2 Num.exact k + μ^4 * m.P_mu4 Num.exact k +
      μ^6 * (m.P12_mu6 Num.exact k + m.P22_mu6 Num.exact k - m.f^4*k^2*(m.sigmaV Num.exact)^2 * m.plin k) + μ^8 * (m.f^4/16 * m.I Num.exact k 3 3) -
      (SPT.P11 m.f μ (fun q => m.plin q) k + SPT.P13 m.f μ (fun q => m.plin q) k + SPT.P22 m.f μ (fun q => m.plin q) k)| ≤
    4/10^12 * (1 + |m.f|)^4 * (k^2 * (m.sigmaV Num.exact)^2 * m.plin k) := by
  have hB := plin_band h ha hb hk
  have hI : ∀ {i j w s}, imnKernel i j = some (w, s) → m.I Num.exact k i j = L (fun q => m.plin q) k w := fun hw => model_I h ha hb hk hQ hw
  obtain ⟨c00, c01, c02, c10, c11, c20⟩ := gx_cont (b := b) hk (lt_trans (by norm_num) ha)
  obtain ⟨e00, j00, b00⟩ := model_J_near h ha hb hk (i := 0) (j := 0) (g := g00) rfl (fun r => branch_near.1) c00
  obtain ⟨e02, j02, b02⟩ := model_J_near h ha hb hk (i := 0) (j := 2) (g := g02) rfl (fun r => branch_near.2.2.1) c02
  obtain ⟨e10, j10, b10⟩ := model_J_near h ha hb hk (i := 1) (j := 0) (g := g10) rfl (fun r => branch_near.2.2.2.1) c10
  obtain ⟨e11, j11, b11⟩ := model_J_near h ha hb hk (i := 1) (j := 1) (g := g11) rfl (fun r => branch_near.2.2.2.2.1) c11
  obtain ⟨e20, j20, b20⟩ := model_J_near h ha hb hk (i := 2) (j := 0) (g := g20) rfl (fun r => branch_near.2.2.2.2.2) c20
  have hsig := model_sigma h ha hb hs.sv
  have hZ := Z1_frame (f := m.f) (μ := μ) hk
  have hmass := L_mass h hk hB (lt_trans (by norm_num) ha) hQ
  have hg : (∫ q in Icc a b, m.plin q * g11x (q/k)) + 2*(∫ q in Icc a b, m.plin q * g10x (q/k)) = 3*∫ q in Icc a b, m.plin q * g00x (q/k) := by
    rw [← integral_const_mul, ← integral_const_mul, ← integral_add (band_mul hB c11).integrable ((band_mul hB c10).integrable.const_mul 2)]
    refine setIntegral_congr_fun measurableSet_Icc fun q hq => ?_
    have hq0 : 0 < q := lt_of_lt_of_le (lt_trans (by norm_num) ha) hq.1
    have := g10x_eq (div_pos hq0 hk).ne'
    linear_combination -m.plin q * this
  have hsq : ∀ s, s = 0 → m.sigsq Num.exact s = (m.sigmaV Num.exact)^2 := by intro s hs; rw [Dm.sigsq, hs]; simp
  have e0 : m.P_mu0 Num.exact k = m.P00_mu0 Num.exact k := rfl
  have e2 : m.P_mu2 Num.exact k = m.P01_mu2 Num.exact k + m.P11_mu2 Num.exact k + m.P02_mu2 Num.exact k := rfl
  have e4 : m.P_mu4 Num.exact k = m.P11_mu4 Num.exact k + m.P02_mu4 Num.exact k + m.P12_mu4 Num.exact k + m.P22_mu4 Num.exact k + m.P03_mu4 Num.exact k := by
    have : m.P_mu4 Num.exact k = (let P := m.P11_mu4 Num.exact k + m.P02_mu4 Num.exact k + m.P12_mu4 Num.exact k + m.P22_mu4 Num.exact k + m.P03_mu4 Num.exact k;
      if m.include_2loop then P + (m.P13_mu4 Num.exact k + m.P04_mu4 Num.exact k) else P) := rfl
    rw [this, hs.loop]; rfl
  have hp0 : 0 ≤ m.plin k := hB.nonneg k
  have key : m.P_mu0 Num.exact k + μ^2 * m.P_mu2 Num.exact k + μ^4 * m.P_mu4 Num.exact k +
      μ^6 * (m.P12_mu6 Num.exact k + m.P22_mu6 Num.exact k - m.f^4*k^2*(m.sigmaV Num.exact)^2 * m.plin k) + μ^8 * (m.f^4/16 * m.I Num.exact k 3 3) -
      (SPT.P11 m.f μ (fun q => m.plin q) k + SPT.P13 m.f μ (fun q => m.plin q) k + SPT.P22 m.f μ (fun q => m.plin q) k) =
      6*k^2*m.plin k*(e00*(1 + 4*m.f*μ^2) + m.f^2*μ^4*(e11 + 2*e10) + m.f^2/3*μ^2*(1 + m.f*μ^2)*(e02 + μ^2*e20)) := by
    rw [spec_P13 hB ha hb hk hμ, spec_P22 hB ha hb hk hμ hQ, SPT.P11, hZ, e0, e2, e4]
    simp only [Dm.P00_mu0, Dm.P01_mu2, Dm.P02_mu2, Dm.P02_mu2_vel, Dm.P02_mu2_nov, Dm.P02_mu4, Dm.P03_mu4, Dm.P11_mu2, Dm.P11_mu4, Dm.P11_mu4_scalar, Dm.P12_mu4, Dm.P12_mu4_nov, Dm.P12_mu6,
      Dm.P22_mu4, Dm.P22_mu4_nov, Dm.P22_mu6, Dm.P22_mu6_nov, hs.loop, hs.p00, hs.p01, hs.p11, hs.l00, hs.l01, hs.l112, hs.l114, hsq _ hs.sv2, hsq _ hs.sbv2, Bool.false_eq_true, if_false,
      hI (i := 0) (j := 0) rfl, hI (i := 0) (j := 2) rfl, hI (i := 0) (j := 3) rfl, hI (i := 1) (j := 1) rfl, hI (i := 1) (j := 2) rfl, hI (i := 1) (j := 3) rfl,
      hI (i := 2) (j := 0) rfl, hI (i := 2) (j := 1) rfl, hI (i := 2) (j := 2) rfl, hI (i := 2) (j := 3) rfl, hI (i := 3) (j := 0) rfl, hI (i := 3) (j := 1) rfl, hI (i := 3) (j := 2) rfl,
      hI (i := 3) (j := 3) rfl, j00, j02, j10, j11, j20, hsig]
    generalize (∫ q in Icc a b, m.plin q * g00x (q/k)) = G00 at *
    generalize (∫ q in Icc a b, m.plin q * g02x (q/k)) = G02 at *
    generalize (∫ q in Icc a b, m.plin q * g10x (q/k)) = G10 at *
    generalize (∫ q in Icc a b, m.plin q * g11x (q/k)) = G11 at *
    generalize (∫ q in Icc a b, m.plin q * g20x (q/k)) = G20 at *
    generalize (∫ q in Icc a b, m.plin q) = S at *
    linear_combination -4*m.f*μ^2 * hmass - 6*m.plin k*k^2*m.f*μ^2*(1/(2*Real.pi^2)) * hg
  have hS : 1/(2*Real.pi^2) * (∫ q in Icc a b, m.plin q) = 3*(m.sigmaV Num.exact)^2 := by rw [hsig]; ring
  rw [hS] at b00 b02 b10 b11 b20
  rw [key]
  obtain ⟨B, hBd⟩ : ∃ B, B = asymEps * (3*(m.sigmaV Num.exact)^2) := ⟨_, rfl⟩
  rw [← hBd] at b00 b02 b10 b11 b20
  have hB0 : 0 ≤ B := (abs_nonneg _).trans b00
  rw [abs_mul, abs_of_nonneg (by positivity : 0 ≤ 6*k^2*m.plin k)]
  have q4 := err_total (f := m.f) hμ hB0 b00 b02 b10 b11 b20
  refine (mul_le_mul_of_nonneg_left q4 (by positivity)).trans ?_
  have hE : 6*(asymEps*3) ≤ 4/10^12 := by unfold asymEps; norm_num
  have e : 6*k^2*m.plin k*(B*(1 + |m.f|)^4) = 6*(asymEps*3)*((1 + |m.f|)^4*(k^2*(m.sigmaV Num.exact)^2*m.plin k)) := by rw [hBd]; ring
  rw [e, mul_assoc (4/10^12)]
  exact mul_le_mul_of_nonneg_right hE (by positivity)

end

/-- **The asymptotic kernels**: beyond `r = 60` each is within `1/(100 r⁶)` of the exact one, `g10` within `1/(5000 r¹²)`. -/
theorem C99_asymptotic {r : ℝ} (hr : 60 ≤ r) : |g00 r - g00x r| ≤ (1/100)/r^6 ∧ |g01 r - g01x r| ≤ (1/100)/r^6 ∧ |g02 r - g02x r| ≤ (1/100)/r^6 ∧ |g11 r - g11x r| ≤ (1/100)/r^6 ∧
    |g20 r - g20x r| ≤ (1/100)/r^6 ∧ |g10 r - g10x r| ≤ (1/5000)/r^12 := by
  have hr0 : 0 < r := by linarith
  simp only [g00, g01, g02, g10, g11, g20, if_neg (not_lt.2 hr)]
  have up : ∀ {c l : ℝ}, 0 ≤ l → l/r^6 ≤ c ∧ c ≤ (1/100)/r^6 → |c| ≤ (1/100)/r^6 := fun hl h => by
    rw [abs_of_nonneg ((by positivity : (0:ℝ) ≤ _).trans h.1)]; exact h.2
  refine ⟨?_, ?_, ?_, ?_, ?_, ?_⟩
  · rw [abs_sub_comm]; exact up (by norm_num) (g00_bounds hr)
  · rw [abs_sub_comm]; exact up (by norm_num) (g01_bounds hr)
  · exact up (by norm_num) (g02_bounds hr)
  · rw [abs_sub_comm]; exact up (by norm_num) (g11_bounds hr)
  · rw [abs_sub_comm]; exact up (by norm_num) (g20_bounds hr)
  · rw [abs_sub_comm]; exact g10_bounds hr

/-- **The terms of order `1/r⁶` and beyond, which five of the asymptotic kernels have, are not those of the expansion**: at every `r ≥ 60` the exact kernel differs from the one used by more
than a fixed multiple of `1/r⁶`, where terms up to `1/r¹²` of the expansion would leave an error of order `1/r¹⁴`. -/
theorem C99_asymptotic_counterexample {r : ℝ} (hr : 60 ≤ r) : (1/1000)/r^6 ≤ g00x r - g00 r ∧ (9/10000)/r^6 ≤ g01x r - g01 r ∧ (1/2000)/r^6 ≤ g11x r - g11 r ∧
    (2/1000)/r^6 ≤ g02 r - g02x r ∧ (7/1000)/r^6 ≤ g20x r - g20 r := by
  simp only [g00, g01, g02, g11, g20, if_neg (not_lt.2 hr)]
  exact ⟨(g00_bounds hr).1, (g01_bounds hr).1, (g11_bounds hr).1, (g02_bounds hr).1, (g20_bounds hr).1⟩

/-- the hypotheses of `C99_one_loop` hold where those of C105 do not: a band beyond `60 k` -/
example : Band 2 (11/5) boxOne.lin.P ∧ OneLoopSettings boxOne ∧ ¬ (11/5 : ℝ) < 60*(1/100) :=
  ⟨box_band, ⟨rfl, rfl, rfl, rfl, rfl, rfl, rfl, rfl, rfl, rfl, rfl⟩, by norm_num⟩


end Verif.PT
