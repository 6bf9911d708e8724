/-
C110: correlation functions.
-/
import Verif.Lemmas.XiBessel
import Mathlib.Analysis.SpecialFunctions.Integrals.Basic
import Mathlib.Data.Nat.Factorial.DoubleFactorial

namespace Verif.Xi

open Verif.Legendre intervalIntegral

/-! ### spherical Bessel functions -/

/-- **C110** (Bessel functions): the function the code takes for the order `ℓ` is the spherical Bessel function of that order: exactly for `|x| ≥ 10⁻⁴`, and nearer to zero up to `10⁻¹⁹` of its leading term `xˡ/(2ℓ+1)‼` -/
theorem C110_bessel {l : ℕ} {f : ℝ → ℝ} (h : bessel l = some f) (x : ℝ) : (1/10^4 ≤ |x| → f x = sph l x) ∧ |f x - sph l x| ≤ 1/10^19*(|x|^l/(Nat.doubleFactorial (2*l+1) : ℝ)) := by
  have key : ∀ {g : ℝ → ℝ}, (|x| < 1/10^4 → |g x - sph l x| ≤ 1/10^19*(|x|^l/(Nat.doubleFactorial (2*l+1) : ℝ))) → (¬ |x| < 1/10^4 → g x = sph l x) →
      (1/10^4 ≤ |x| → g x = sph l x) ∧ |g x - sph l x| ≤ 1/10^19*(|x|^l/(Nat.doubleFactorial (2*l+1) : ℝ)) := by
    intro g near far
    refine ⟨fun hx => far (not_lt.2 hx), ?_⟩
    by_cases hx : |x| < 1/10^4
    · exact near hx
    · rw [far hx, sub_self, abs_zero]; positivity
  unfold bessel at h
  split at h <;> cases h
  · exact key (fun hx => by have := near_zero hx; norm_num [Nat.doubleFactorial] at this ⊢; exact this) far_zero
  · exact key (fun hx => by have := near_one hx; norm_num [Nat.doubleFactorial] at this ⊢; exact this) far_one
  · exact key (fun hx => by have := near_two hx; norm_num [Nat.doubleFactorial] at this ⊢; exact this) far_two
  · exact key (fun hx => by have := near_three hx; norm_num [Nat.doubleFactorial] at this ⊢; exact this) far_three
  · exact key (fun hx => by have := near_four hx; norm_num [Nat.doubleFactorial] at this ⊢; exact this) far_four
  · exact key (fun hx => by have := near_six hx; norm_num [Nat.doubleFactorial] at this ⊢; exact this) far_six
  · exact key (fun hx => by have := near_eight hx; norm_num [Nat.doubleFactorial] at this ⊢; exact this) far_eight

/-! ### the mean over the sky -/

/-- the means of the powers of the cosine -/
def cmean : ℕ → ℚ
  | 0 => 1
  | 1 => 0
  | n+2 => (n+1)/(n+2)*cmean n

theorem cmean_eq : ∀ n, ∫ φ in (0:ℝ)..(2*Real.pi), Real.cos φ^n = 2*Real.pi*cmean n
  | 0 => by simp [cmean]
  | 1 => by simp [cmean]
  | n+2 => by
    rw [integral_cos_pow, cmean_eq n, Real.sin_two_pi, Real.sin_zero]
    simp only [cmean]
    push_cast
    ring

theorem power_mean (a s : ℝ) (n : ℕ) : 1/(2*Real.pi) * ∫ φ in (0:ℝ)..(2*Real.pi), (a + s*Real.cos φ)^n = ∑ m ∈ Finset.range (n+1), a^m*s^(n-m)*(cmean (n-m)*n.choose m : ℚ) := by
  have e : ∀ φ, (a + s*Real.cos φ)^n = ∑ m ∈ Finset.range (n+1), a^m*s^(n-m)*n.choose m*Real.cos φ^(n-m) := by
    intro φ
    rw [add_pow]
    refine Finset.sum_congr rfl fun m _ => ?_
    rw [mul_pow]; ring
  simp only [e]
  have hint : ∀ m ∈ Finset.range (n+1), IntervalIntegrable (fun φ => a^m*s^(n-m)*n.choose m*Real.cos φ^(n-m)) MeasureTheory.volume 0 (2*Real.pi) :=
    fun m _ => Continuous.intervalIntegrable (continuous_const.mul (Real.continuous_cos.pow _)) _ _
  rw [integral_finsetSum hint, Finset.mul_sum]
  refine Finset.sum_congr rfl fun m _ => ?_
  rw [integral_const_mul, cmean_eq]
  have := Real.pi_ne_zero
  push_cast
  field_simp

theorem leg_zero' (t : ℝ) : leg 0 t = 1 := rfl
theorem leg_two' (t : ℝ) : leg 2 t = (3*t^2 - 1)/2 := by simp only [leg]; push_cast; ring
theorem leg_four' (t : ℝ) : leg 4 t = (35*t^4 - 30*t^2 + 3)/8 := by simp only [leg]; push_cast; ring
theorem leg_six' (t : ℝ) : leg 6 t = (231*t^6 - 315*t^4 + 105*t^2 - 5)/16 := by simp only [leg]; push_cast; ring
theorem leg_eight' (t : ℝ) : leg 8 t = (6435*t^8 - 12012*t^6 + 6930*t^4 - 1260*t^2 + 35)/128 := by simp only [leg]; push_cast; ring

theorem pm2 (a s : ℝ) : 1/(2*Real.pi) * ∫ φ in (0:ℝ)..(2*Real.pi), (a + s*Real.cos φ)^2 = a^2 + s^2/2 := by
  rw [power_mean]; simp [Finset.sum_range_succ, cmean, Nat.choose]; ring
theorem pm4 (a s : ℝ) : 1/(2*Real.pi) * ∫ φ in (0:ℝ)..(2*Real.pi), (a + s*Real.cos φ)^4 = a^4 + 3*a^2*s^2 + 3/8*s^4 := by
  rw [power_mean]; simp [Finset.sum_range_succ, cmean, Nat.choose]; ring
theorem pm6 (a s : ℝ) : 1/(2*Real.pi) * ∫ φ in (0:ℝ)..(2*Real.pi), (a + s*Real.cos φ)^6 = a^6 + 15/2*a^4*s^2 + 45/8*a^2*s^4 + 5/16*s^6 := by
  rw [power_mean]; simp [Finset.sum_range_succ, cmean, Nat.choose]; ring
theorem pm8 (a s : ℝ) : 1/(2*Real.pi) * ∫ φ in (0:ℝ)..(2*Real.pi), (a + s*Real.cos φ)^8 = a^8 + 14*a^6*s^2 + 105/4*a^4*s^4 + 35/4*a^2*s^6 + 35/128*s^8 := by
  rw [power_mean]; simp [Finset.sum_range_succ, cmean, Nat.choose]; ring

/-- the mean over the azimuth of a Legendre polynomial -/
theorem azimuth {l : ℕ} (hl : l ∈ ({0, 2, 4, 6, 8} : Finset ℕ)) {μ ν : ℝ} (hμ : |μ| ≤ 1) (hν : |ν| ≤ 1) :
    1/(2*Real.pi) * ∫ φ in (0:ℝ)..(2*Real.pi), leg l (μ*ν + Real.sqrt (1 - μ^2)*Real.sqrt (1 - ν^2)*Real.cos φ) = leg l μ*leg l ν := by
  obtain ⟨s, hs⟩ : ∃ s, s = Real.sqrt (1 - μ^2)*Real.sqrt (1 - ν^2) := ⟨_, rfl⟩
  obtain ⟨a, ha⟩ : ∃ a, a = μ*ν := ⟨_, rfl⟩
  have s2 : s^2 = (1 - μ^2)*(1 - ν^2) := by
    rw [hs, mul_pow, Real.sq_sqrt, Real.sq_sqrt]
    · have := (sq_le_one_iff_abs_le_one ν).2 hν; linarith
    · have := (sq_le_one_iff_abs_le_one μ).2 hμ; linarith
  have s4 : s^4 = ((1 - μ^2)*(1 - ν^2))^2 := by rw [← s2]; ring
  have s6 : s^6 = ((1 - μ^2)*(1 - ν^2))^3 := by rw [← s2]; ring
  have s8 : s^8 = ((1 - μ^2)*(1 - ν^2))^4 := by rw [← s2]; ring
  rw [← hs, ← ha]
  have hpi := Real.pi_ne_zero
  have hi : ∀ n, IntervalIntegrable (fun φ => (a + s*Real.cos φ)^n) MeasureTheory.volume 0 (2*Real.pi) :=
    fun n => Continuous.intervalIntegrable ((continuous_const.add (continuous_const.mul Real.continuous_cos)).pow n) _ _
  have hc : ∀ c : ℝ, 1/(2*Real.pi) * ∫ _ in (0:ℝ)..(2*Real.pi), c = c := by
    intro c; rw [integral_const, smul_eq_mul]; field_simp; ring
  have p2 := pm2 a s
  have p4 := pm4 a s
  have p6 := pm6 a s
  have p8 := pm8 a s
  simp only [Finset.mem_insert, Finset.mem_singleton] at hl
  rcases hl with rfl | rfl | rfl | rfl | rfl
  · simp only [leg_zero']; rw [hc]; ring
  · simp only [leg_two']
    rw [integral_div, integral_sub ((hi 2).const_mul 3) intervalIntegrable_const, integral_const_mul]
    have := hc 1
    rw [s2] at p2
    rw [ha] at p2 ⊢
    linear_combination 3/2*p2 - 1/2*this
  · simp only [leg_four']
    rw [integral_div, integral_add (((hi 4).const_mul 35).sub ((hi 2).const_mul 30)) intervalIntegrable_const, integral_sub ((hi 4).const_mul 35) ((hi 2).const_mul 30), integral_const_mul, integral_const_mul]
    have := hc 3
    rw [s2] at p2
    rw [s2, s4] at p4
    rw [ha] at p2 p4 ⊢
    linear_combination 35/8*p4 - 30/8*p2 + 1/8*this
  · simp only [leg_six']
    rw [integral_div, integral_sub ((((hi 6).const_mul 231).sub ((hi 4).const_mul 315)).add ((hi 2).const_mul 105)) intervalIntegrable_const,
      integral_add (((hi 6).const_mul 231).sub ((hi 4).const_mul 315)) ((hi 2).const_mul 105), integral_sub ((hi 6).const_mul 231) ((hi 4).const_mul 315), integral_const_mul, integral_const_mul, integral_const_mul]
    have := hc 5
    rw [s2] at p2
    rw [s2, s4] at p4
    rw [s2, s4, s6] at p6
    rw [ha] at p2 p4 p6 ⊢
    linear_combination 231/16*p6 - 315/16*p4 + 105/16*p2 - 1/16*this
  · simp only [leg_eight']
    rw [integral_div, integral_add (((((hi 8).const_mul 6435).sub ((hi 6).const_mul 12012)).add ((hi 4).const_mul 6930)).sub ((hi 2).const_mul 1260)) intervalIntegrable_const,
      integral_sub ((((hi 8).const_mul 6435).sub ((hi 6).const_mul 12012)).add ((hi 4).const_mul 6930)) ((hi 2).const_mul 1260),
      integral_add (((hi 8).const_mul 6435).sub ((hi 6).const_mul 12012)) ((hi 4).const_mul 6930), integral_sub ((hi 8).const_mul 6435) ((hi 6).const_mul 12012),
      integral_const_mul, integral_const_mul, integral_const_mul, integral_const_mul]
    have := hc 35
    rw [s2] at p2
    rw [s2, s4] at p4
    rw [s2, s4, s6] at p6
    rw [s2, s4, s6, s8] at p8
    rw [ha] at p2 p4 p6 p8 ⊢
    linear_combination 6435/128*p8 - 12012/128*p6 + 6930/128*p4 - 1260/128*p2 + 1/128*this

/-- the mean over the sky of a plane wave times a sum of multipoles -/
theorem skyMean_eq {S : Finset ℕ} (hS : S ⊆ {0, 2, 4, 6, 8}) (p : ℕ → ℝ) (x : ℝ) {ν : ℝ} (hν : |ν| ≤ 1) :
    skyMean (fun μ => ∑ l ∈ S, p l*leg l μ) x ν = ∑ l ∈ S, (-1)^(l/2)*sph l x*p l*leg l ν := by
  unfold skyMean
  have h1 : ∀ μ ∈ Set.uIcc (-1:ℝ) 1, Real.cos (x*μ) * (1/(2*Real.pi) * ∫ φ in (0:ℝ)..(2*Real.pi), ∑ l ∈ S, p l*leg l (μ*ν + Real.sqrt (1 - μ^2)*Real.sqrt (1 - ν^2)*Real.cos φ)) =
      ∑ l ∈ S, p l*leg l ν*(Real.cos (x*μ)*leg l μ) := by
    intro μ hμ
    rw [Set.uIcc_of_le (by norm_num)] at hμ
    have hint : ∀ l ∈ S, IntervalIntegrable (fun φ => p l*leg l (μ*ν + Real.sqrt (1 - μ^2)*Real.sqrt (1 - ν^2)*Real.cos φ)) MeasureTheory.volume 0 (2*Real.pi) :=
      fun l _ => Continuous.intervalIntegrable (continuous_const.mul ((leg_continuous l).comp (continuous_const.add (continuous_const.mul Real.continuous_cos)))) _ _
    rw [integral_finsetSum hint, Finset.mul_sum, Finset.mul_sum]
    refine Finset.sum_congr rfl fun l hl => ?_
    rw [integral_const_mul]
    have := azimuth (hS hl) (abs_le.2 hμ) hν
    linear_combination Real.cos (x*μ)*p l*this
  rw [integral_congr h1]
  have hint : ∀ l ∈ S, IntervalIntegrable (fun μ => p l*leg l ν*(Real.cos (x*μ)*leg l μ)) MeasureTheory.volume (-1) 1 :=
    fun l _ => Continuous.intervalIntegrable (continuous_const.mul ((Real.continuous_cos.comp (continuous_const.mul continuous_id)).mul (leg_continuous l))) _ _
  rw [integral_finsetSum hint, Finset.mul_sum]
  refine Finset.sum_congr rfl fun l hl => ?_
  rw [integral_const_mul]
  unfold sph wave
  have hev : l % 2 = 0 := by
    have := hS hl
    simp only [Finset.mem_insert, Finset.mem_singleton] at this
    omega
  have hsq : ((-1:ℝ)^(l/2))*(-1)^(l/2) = 1 := by rw [← mul_pow]; norm_num
  simp only [hev, if_true]
  linear_combination (-1/2*p l*leg l ν*∫ t in (-1:ℝ)..1, Real.cos (x*t)*leg l t)*hsq

/-! ### the rules are linear -/

theorem integrate_sum (M : Method) (N : ℕ) (x : ℕ → ℝ) (S : Finset ℕ) (y : ℕ → ℕ → ℝ) (c : ℕ → ℝ) : ∑ l ∈ S, c l*M.integrate N x (y l) = M.integrate N x fun j => ∑ l ∈ S, c l*y l j := by
  have panel : ∀ i, Quad.panel x (fun j => ∑ l ∈ S, c l*y l j) i = ∑ l ∈ S, c l*Quad.panel x (y l) i := by
    intro i
    simp only [Quad.panel]
    rw [Finset.sum_mul, Finset.sum_mul, Finset.sum_mul, Finset.sum_mul, Finset.sum_div, ← Finset.sum_add_distrib, ← Finset.sum_add_distrib, Finset.mul_sum]
    refine Finset.sum_congr rfl fun l _ => ?_
    ring
  have basic : ∀ a b, Quad.basicSimps x (fun j => ∑ l ∈ S, c l*y l j) a b = ∑ l ∈ S, c l*Quad.basicSimps x (y l) a b := by
    intro a b
    simp only [Quad.basicSimps, panel]
    rw [Finset.sum_comm]
    refine Finset.sum_congr rfl fun l _ => ?_
    rw [Finset.mul_sum]
  cases M with
  | trapz =>
    simp only [Method.integrate, Quad.trapz]
    simp only [Finset.mul_sum]
    rw [Finset.sum_comm]
    refine Finset.sum_congr rfl fun i _ => ?_
    rw [← Finset.sum_add_distrib, Finset.mul_sum]
    refine Finset.sum_congr rfl fun l _ => ?_
    ring
  | simps =>
    simp only [Method.integrate, Quad.simps]
    split
    · rw [basic, basic]
      simp only [← Finset.sum_add_distrib, Finset.mul_sum]
      refine Finset.sum_congr rfl fun l _ => ?_
      ring
    · rw [basic]

theorem integrate_congr (M : Method) {N : ℕ} (hN : 3 ≤ N) (x : ℕ → ℝ) {y z : ℕ → ℝ} (h : ∀ j, j < N → y j = z j) : M.integrate N x y = M.integrate N x z := by
  cases M with
  | trapz =>
    simp only [Method.integrate, Quad.trapz]
    refine Finset.sum_congr rfl fun i hi => ?_
    have := Finset.mem_range.1 hi
    rw [h i (by omega), h (i+1) (by omega)]
  | simps =>
    have panel : ∀ i, i + 2 < N → Quad.panel x y i = Quad.panel x z i := by
      intro i hi
      simp only [Quad.panel]
      rw [h i (by omega), h (i+1) (by omega), h (i+2) hi]
    have basic : ∀ a b, a ≤ b → b + 2 ≤ N → a + 2 < N → Quad.basicSimps x y a b = Quad.basicSimps x z a b := by
      intro a b hab hb ha
      simp only [Quad.basicSimps]
      refine Finset.sum_congr rfl fun m hm => ?_
      have := Finset.mem_range.1 hm
      exact panel _ (by omega)
    simp only [Method.integrate, Quad.simps]
    split
    · rw [basic 0 (N-3) (by omega) (by omega) (by omega), basic 1 (N-2) (by omega) (by omega) (by omega), h (N-1) (by omega), h (N-2) (by omega), h 1 (by omega), h 0 (by omega)]
    · rw [basic 0 (N-2) (by omega) (by omega) (by omega)]

/-! ### the transforms -/

theorem xiLM_sum (M : Method) {S : Finset ℕ} (hS : S ⊆ {0, 2, 4, 6, 8}) {N : ℕ} (hN : 3 ≤ N) (k : ℕ → ℝ) (p : ℕ → ℕ → ℝ) {r : ℝ} (sm : ℝ) (hk : ∀ j, j < N → 1/10^4 ≤ |k j*r|) {ν : ℝ} (hν : |ν| ≤ 1) :
    ∃ xi : ℕ → ℝ, (∀ l ∈ S, xiLM M l 2 N k (p l) r sm = some (xi l)) ∧
      ∑ l ∈ S, (-1)^(l/2)*xi l*leg l ν = M.integrate N k fun j => (k j)^2/(2*Real.pi^2)*(Real.exp (-(k j*sm)^2)*skyMean (fun μ => ∑ l ∈ S, p l j*leg l μ) (k j*r) ν) := by
  have hb : ∀ l ∈ S, ∃ f, bessel l = some f := by
    intro l hl
    have := hS hl
    simp only [Finset.mem_insert, Finset.mem_singleton] at this
    rcases this with rfl | rfl | rfl | rfl | rfl <;> exact ⟨_, rfl⟩
  refine ⟨fun l => M.integrate N k fun j => Real.exp (-(k j*sm)^2) * p l j * (k j)^2/(2*Real.pi*Real.pi) * sph l (k j*r), fun l hl => ?_, ?_⟩
  · obtain ⟨f, hf⟩ := hb l hl
    unfold xiLM
    rw [hf, Option.map_some]
    congr 1
    refine integrate_congr M hN k fun j hj => ?_
    rw [(C110_bessel hf (k j*r)).1 (hk j hj)]
  · have e : ∀ l, (-1:ℝ)^(l/2)*(M.integrate N k fun j => Real.exp (-(k j*sm)^2) * p l j * (k j)^2/(2*Real.pi*Real.pi) * sph l (k j*r))*leg l ν =
        ((-1:ℝ)^(l/2)*leg l ν)*(M.integrate N k fun j => Real.exp (-(k j*sm)^2) * p l j * (k j)^2/(2*Real.pi*Real.pi) * sph l (k j*r)) := fun l => by ring
    simp only [e]
    rw [integrate_sum M N k S (fun l j => Real.exp (-(k j*sm)^2) * p l j * (k j)^2/(2*Real.pi*Real.pi) * sph l (k j*r)) fun l => (-1)^(l/2)*leg l ν]
    congr 1
    funext j
    rw [skyMean_eq hS (fun l => p l j) _ hν, Finset.mul_sum, Finset.mul_sum]
    refine Finset.sum_congr rfl fun l _ => ?_
    ring

/-- **C110** (pk_to_xi): let the power spectrum be a sum of even multipoles up to the eighth.  The multipoles of the correlation function that `pk_to_xi` gives sum to the Fourier transform of the (smoothed) spectrum: the integral over `k`
of `k²/(2π²)` times the mean over the directions of `k` of `cos(k·r) P`, by the rule that was asked for, for every angle `arccos ν` of the separation to the line of sight -/
theorem C110_pk_to_xi (M : Method) {S : Finset ℕ} (hS : S ⊆ {0, 2, 4, 6, 8}) {N : ℕ} (hN : 3 ≤ N) (k : ℕ → ℝ) (p : ℕ → ℕ → ℝ) {r : ℝ} (sm : ℝ) (hk : ∀ j, j < N → 1/10^4 ≤ |k j*r|) :
    ∃ xi : ℕ → ℝ, (∀ l ∈ S, pkToXi M l N k (p l) r sm = some (xi l)) ∧ ∀ ν, |ν| ≤ 1 →
      ∑ l ∈ S, xi l*leg l ν = M.integrate N k fun j => (k j)^2/(2*Real.pi^2)*(Real.exp (-(k j*sm)^2)*skyMean (fun μ => ∑ l ∈ S, p l j*leg l μ) (k j*r) ν) := by
  obtain ⟨xi, h1, _⟩ := xiLM_sum M hS hN k p sm hk (ν := 0) (by norm_num)
  refine ⟨fun l => (-1)^(l/2)*xi l, fun l hl => by unfold pkToXi; rw [h1 l hl]; rfl, fun ν hν => ?_⟩
  obtain ⟨xi', h1', h2'⟩ := xiLM_sum M hS hN k p sm hk hν
  rw [← h2']
  refine Finset.sum_congr rfl fun l hl => ?_
  have := (h1 l hl).symm.trans (h1' l hl)
  simp only [Option.some.inj this]

/-- **C110** (xi_to_pk): likewise for the transform back: `4π r²` times the mean over the directions of `r` -/
theorem C110_xi_to_pk (M : Method) {S : Finset ℕ} (hS : S ⊆ {0, 2, 4, 6, 8}) {N : ℕ} (hN : 3 ≤ N) (r : ℕ → ℝ) (x : ℕ → ℕ → ℝ) {k : ℝ} (sm : ℝ) (hk : ∀ j, j < N → 1/10^4 ≤ |r j*k|) :
    ∃ pk : ℕ → ℝ, (∀ l ∈ S, xiToPk M l N r (x l) k sm = some (pk l)) ∧ ∀ ν, |ν| ≤ 1 →
      ∑ l ∈ S, pk l*leg l ν = M.integrate N r fun j => 4*Real.pi*(r j)^2*(Real.exp (-(r j*sm)^2)*skyMean (fun μ => ∑ l ∈ S, x l j*leg l μ) (r j*k) ν) := by
  obtain ⟨xi, h1, _⟩ := xiLM_sum M hS hN r x sm hk (ν := 0) (by norm_num)
  refine ⟨fun l => (-1)^(l/2)*(8*Real.pi*Real.pi*Real.pi)*xi l, fun l hl => by unfold xiToPk; rw [h1 l hl]; rfl, fun ν hν => ?_⟩
  obtain ⟨xi', h1', h2'⟩ := xiLM_sum M hS hN r x sm hk hν
  have hpi := Real.pi_ne_zero
  have e : (M.integrate N r fun j => 4*Real.pi*(r j)^2*(Real.exp (-(r j*sm)^2)*skyMean (fun μ => ∑ l ∈ S, x l j*leg l μ) (r j*k) ν)) =
      8*Real.pi*Real.pi*Real.pi*M.integrate N r fun j => (r j)^2/(2*Real.pi^2)*(Real.exp (-(r j*sm)^2)*skyMean (fun μ => ∑ l ∈ S, x l j*leg l μ) (r j*k) ν) := by
    have := integrate_sum M N r {0} (fun _ j => (r j)^2/(2*Real.pi^2)*(Real.exp (-(r j*sm)^2)*skyMean (fun μ => ∑ l ∈ S, x l j*leg l μ) (r j*k) ν)) fun _ => 8*Real.pi*Real.pi*Real.pi
    simp only [Finset.sum_singleton] at this
    rw [this]
    congr 1
    funext j
    field_simp
    ring
  rw [e, ← h2', Finset.mul_sum]
  refine Finset.sum_congr rfl fun l hl => ?_
  have := (h1 l hl).symm.trans (h1' l hl)
  simp only [Option.some.inj this]
  ring

/-- a case of `C110_pk_to_xi` -/
example : ∃ xi : ℕ → ℝ, (∀ l ∈ ({0, 2, 4} : Finset ℕ), pkToXi .simps l 4 (fun j => (j:ℝ) + 1) (fun j => (l:ℝ) + j) 100 0 = some (xi l)) ∧ ∀ ν, |ν| ≤ 1 →
    ∑ l ∈ ({0, 2, 4} : Finset ℕ), xi l*leg l ν = Method.simps.integrate 4 (fun j => (j:ℝ) + 1) fun j => ((j:ℝ) + 1)^2/(2*Real.pi^2)*(Real.exp (-(((j:ℝ) + 1)*0)^2)*
      skyMean (fun μ => ∑ l ∈ ({0, 2, 4} : Finset ℕ), ((l:ℝ) + j)*leg l μ) (((j:ℝ) + 1)*100) ν) := by
  refine C110_pk_to_xi .simps (by decide) (by norm_num) (fun j => (j:ℝ) + 1) (fun l j => (l:ℝ) + j) 0 fun j _ => ?_
  rw [abs_of_nonneg (by positivity)]
  have : (0:ℝ) ≤ j := Nat.cast_nonneg j
  norm_num
  linarith

/-- **C110** (CorrelationFunction): calling the object gives the integral of `k²/(2π²) P(k) j₀(kr)`, the monopole -/
theorem C110_correlation (P : ℝ → ℝ) {kmin kmax r : ℝ} (h0 : 0 < kmin) (h1 : kmin ≤ kmax) (hr : 0 < r) :
    correlation P kmin kmax r = ∫ k in kmin..kmax, k^2/(2*Real.pi^2)*P k*sph 0 (k*r) := by
  unfold correlation
  rw [← integral_const_mul]
  refine integral_congr fun k hk => ?_
  rw [Set.uIcc_of_le h1] at hk
  have hk0 : 0 < k := lt_of_lt_of_le h0 hk.1
  have hpi := Real.pi_ne_zero
  rw [sph_zero (by positivity)]
  field_simp

/-! ### linear theory -/

theorem kaiser_expand (b f : ℝ) (mu : ℝ) : (b + f*mu^2)^2 = (b^2 + 2/3*b*f + 1/5*f^2)*leg 0 mu + (4/3*b*f + 4/7*f^2)*leg 2 mu + 8/35*f^2*leg 4 mu := by
  rw [leg_zero', leg_two', leg_four']; ring

theorem prefactor_eq (K : Kaiser) (hb : K.b1 ≠ 0) (ell : ℕ) :
    K.prefactor ell = if ell = 0 then K.b1^2 + 2/3*K.b1*K.f + 1/5*K.f^2 else if ell = 2 then 4/3*K.b1*K.f + 4/7*K.f^2 else if ell = 4 then 8/35*K.f^2 else 0 := by
  unfold Kaiser.prefactor
  simp only
  split
  · field_simp
  · split
    · field_simp
    · split
      · field_simp
      · ring

/-- **C110** (Kaiser): `P_ell` are the multipoles, of every order, of the linear redshift-space power spectrum of a tracer with bias `b1` -/
theorem C110_kaiser (K : Kaiser) (hb : K.b1 ≠ 0) (ell : ℕ) (k : ℝ) : K.Pell ell k = multipole ell fun mu => (K.b1 + K.f*mu^2)^2*K.P k := by
  unfold multipole Kaiser.Pell
  rw [prefactor_eq K hb]
  have e : ∀ mu, (K.b1 + K.f*mu^2)^2*K.P k*leg ell mu =
      K.P k*((K.b1^2 + 2/3*K.b1*K.f + 1/5*K.f^2)*(leg 0 mu*leg ell mu) + (4/3*K.b1*K.f + 4/7*K.f^2)*(leg 2 mu*leg ell mu) + 8/35*K.f^2*(leg 4 mu*leg ell mu)) := by
    intro mu; rw [kaiser_expand]; ring
  simp only [e]
  have hi : ∀ a (c : ℝ), IntervalIntegrable (fun mu => c*(leg a mu*leg ell mu)) MeasureTheory.volume (-1) 1 :=
    fun a c => Continuous.intervalIntegrable (continuous_const.mul ((leg_continuous a).mul (leg_continuous ell))) _ _
  rw [integral_const_mul, integral_add ((hi 0 _).add (hi 2 _)) (hi 4 _), integral_add (hi 0 _) (hi 2 _), integral_const_mul, integral_const_mul, integral_const_mul]
  change _ = _ * (_ * (_ * ip 0 ell + _ * ip 2 ell + _ * ip 4 ell))
  rw [ip_eq, ip_eq, ip_eq]
  by_cases h0 : ell = 0
  · subst h0; norm_num; ring
  · by_cases h2 : ell = 2
    · subst h2; norm_num; ring
    · by_cases h4 : ell = 4
      · subst h4; norm_num; ring
      · rw [if_neg h0, if_neg h2, if_neg h4, if_neg (Ne.symm h0), if_neg (Ne.symm h2), if_neg (Ne.symm h4)]; ring

/-- **C110**, finding: `P_s(k, mu)` ignores the bias: where there is power it is the spectrum whose multipoles are `P_ell` only if the bias is one (or minus one, without growth) -/
theorem C110_kaiser_bias_counterexample (K : Kaiser) (hb : K.b1 ≠ 0) {k : ℝ} (hP : K.P k ≠ 0) :
    (∀ mu, K.Ps k mu = K.Pell 0 k*leg 0 mu + K.Pell 2 k*leg 2 mu + K.Pell 4 k*leg 4 mu) ↔ (K.b1 = 1 ∨ K.b1 = -1 ∧ K.f = 0) := by
  have e : ∀ mu, K.Pell 0 k*leg 0 mu + K.Pell 2 k*leg 2 mu + K.Pell 4 k*leg 4 mu = (K.b1 + K.f*mu^2)^2*K.P k := by
    intro mu
    unfold Kaiser.Pell
    rw [prefactor_eq K hb, prefactor_eq K hb, prefactor_eq K hb, kaiser_expand]
    norm_num
    ring
  simp only [e]
  unfold Kaiser.Ps
  constructor
  · intro h
    have h0 := mul_right_cancel₀ hP (h 0)
    have h1 := mul_right_cancel₀ hP (h 1)
    have hsq : (K.b1 - 1)*(K.b1 + 1) = 0 := by linear_combination (-1)*h0
    rcases mul_eq_zero.1 hsq with hh | hh
    · left; linarith
    · right
      have hb1 : K.b1 = -1 := by linarith
      refine ⟨hb1, ?_⟩
      rw [hb1] at h1
      linear_combination 1/4*h1
  · rintro (h | ⟨h1, h2⟩) mu
    · rw [h]; ring
    · rw [h1, h2]; ring

end Verif.Xi
