/-
C122: the error estimate of the 15-point rule.
-/
import Verif.Props.GKQuad

namespace Verif.GK

open MeasureTheory

/-- The 7-point rule of Gauss on `[-1, 1]` -/
noncomputable def G7 (g : ℝ → ℝ) : ℝ := g 0 * wg15 3 + ∑ j ∈ Finset.range 3, wg15 j * (g (-xgk15 (2 * j + 1)) + g (xgk15 (2 * j + 1)))

/-- The estimate from the two rules, the mean absolute value `B` and the mean deviation `A` of the integrand -/
noncomputable def estimate (e A B : ℝ) : ℝ :=
  let x := if A ≠ 0 ∧ e ≠ 0 then (if (200 * e / A) ^ (1.5 : ℝ) < 1 then A * (200 * e / A) ^ (1.5 : ℝ) else A) else e
  if B > dblMin / (50 * dblEps) then max x (50 * dblEps * B) else x

theorem wgk15_nonneg (j : ℕ) : 0 ≤ wgk15 j := by
  unfold wgk15
  split <;> norm_num

theorem gk15_err (f : ℝ → ℝ) (a b : ℝ) : (gk15 f a b).2 =
    estimate (|K15 (fun t => f ((a + b) / 2 + (b - a) / 2 * t)) - G7 (fun t => f ((a + b) / 2 + (b - a) / 2 * t))| * ((b - a) / 2))
      (K15 (fun t => |f ((a + b) / 2 + (b - a) / 2 * t) - K15 (fun t => f ((a + b) / 2 + (b - a) / 2 * t)) / 2|) * |(b - a) / 2|) (K15 (fun t => |f ((a + b) / 2 + (b - a) / 2 * t)|) * |(b - a) / 2|) := by
  have h1 : (0.5 : ℝ) * (a + b) = (a + b) / 2 := by ring
  have h2 : (0.5 : ℝ) * (b - a) = (b - a) / 2 := by ring
  obtain ⟨F, hF⟩ : ∃ F : ℝ → ℝ, F = fun t => f ((a + b) / 2 + (b - a) / 2 * t) := ⟨_, rfl⟩
  have e1 : ∀ j, f ((a + b) / 2 - (b - a) / 2 * xgk15 j) = F (-xgk15 j) := fun j => by rw [hF]; congr 1; ring
  have e2 : ∀ j, f ((a + b) / 2 + (b - a) / 2 * xgk15 j) = F (xgk15 j) := fun j => by rw [hF]
  have e3 : f ((a + b) / 2) = F 0 := by rw [hF]; simp
  have e4 : ∀ t, f ((a + b) / 2 + (b - a) / 2 * t) = F t := fun t => by rw [hF]
  have hK : F 0 * wgk15 7 + ∑ j ∈ Finset.range 3, wgk15 (2 * j + 1) * (F (-xgk15 (2 * j + 1)) + F (xgk15 (2 * j + 1))) + ∑ j ∈ Finset.range 4, wgk15 (2 * j) * (F (-xgk15 (2 * j)) + F (xgk15 (2 * j))) = K15 F := by
    simp only [K15, Finset.sum_range_succ, Finset.sum_range_zero]
    ring
  have hB : |F 0 * wgk15 7| + ∑ j ∈ Finset.range 3, wgk15 (2 * j + 1) * (|F (-xgk15 (2 * j + 1))| + |F (xgk15 (2 * j + 1))|) + ∑ j ∈ Finset.range 4, wgk15 (2 * j) * (|F (-xgk15 (2 * j))| + |F (xgk15 (2 * j))|)
      = K15 fun t => |F t| := by
    rw [abs_mul, abs_of_nonneg (wgk15_nonneg 7)]
    simp only [K15, Finset.sum_range_succ, Finset.sum_range_zero]
    ring
  have hA : ∀ m, wgk15 7 * |F 0 - m| + ∑ j ∈ Finset.range 7, wgk15 j * (|F (-xgk15 j) - m| + |F (xgk15 j) - m|) = K15 fun t => |F t - m| := fun m => by
    unfold K15
    ring
  have hm : (0.5 : ℝ) * K15 F = K15 F / 2 := by ring
  simp only [gk15, gaussKronrod, h1, h2, e1, e2, e3, e4, hK, hB, hA, hm]
  rfl

/-- The estimate is at most 200 times the difference of the two rules, or what rounding makes of it -/
theorem estimate_le {e A B : ℝ} (he : 0 ≤ e) (hA : 0 ≤ A) : estimate e A B ≤ max (200 * e) (50 * dblEps * B) := by
  have hx : (if A ≠ 0 ∧ e ≠ 0 then (if (200 * e / A) ^ (1.5 : ℝ) < 1 then A * (200 * e / A) ^ (1.5 : ℝ) else A) else e) ≤ 200 * e := by
    split_ifs with h1 h2
    · have hA' : 0 < A := lt_of_le_of_ne hA (Ne.symm h1.1)
      have he' : 0 < e := lt_of_le_of_ne he (Ne.symm h1.2)
      have hq : 0 < 200 * e / A := by positivity
      have hq1 : 200 * e / A < 1 := by
        by_contra hc
        have : (1 : ℝ) ≤ (200 * e / A) ^ (1.5 : ℝ) := Real.one_le_rpow (not_lt.1 hc) (by norm_num)
        linarith
      have : (200 * e / A) ^ (1.5 : ℝ) ≤ (200 * e / A) ^ (1 : ℝ) := Real.rpow_le_rpow_of_exponent_ge hq hq1.le (by norm_num)
      rw [Real.rpow_one] at this
      calc A * (200 * e / A) ^ (1.5 : ℝ) ≤ A * (200 * e / A) := mul_le_mul_of_nonneg_left this hA
        _ = 200 * e := by field_simp
    · have hA' : 0 < A := lt_of_le_of_ne hA (Ne.symm h1.1)
      have : 1 ≤ 200 * e / A := by
        by_contra hc
        have hq0 : 0 ≤ 200 * e / A := by positivity
        exact h2 (Real.rpow_lt_one hq0 (not_le.1 hc) (by norm_num))
      rwa [le_div_iff₀ hA', one_mul] at this
    · linarith
  unfold estimate
  dsimp only
  by_cases hB : B > dblMin / (50 * dblEps)
  · rw [if_pos hB]
    exact max_le_max hx (le_refl _)
  · rw [if_neg hB]
    exact le_trans hx (le_max_left _ _)

theorem G7_monomial (m : ℕ) (hm : m < 14) : |G7 (fun t => t ^ m) - ∫ t in (-1 : ℝ)..1, t ^ m| ≤ 2 / 10 ^ 16 := by
  rw [integral_pow]
  simp only [G7, Finset.sum_range_succ, Finset.sum_range_zero, wg15, xgk15]
  rw [abs_le]
  interval_cases m <;> norm_num

theorem G7_sum {ι : Type} (s : Finset ι) (g : ι → ℝ → ℝ) (q : ι → ℝ) : G7 (fun t => ∑ i ∈ s, q i * g i t) = ∑ i ∈ s, q i * G7 (g i) := by
  simp only [G7, mul_add, Finset.sum_add_distrib, Finset.sum_mul, Finset.mul_sum]
  rw [Finset.sum_comm (s := Finset.range 3), Finset.sum_comm (s := Finset.range 3)]
  congr 1
  · exact Finset.sum_congr rfl fun i _ => by ring
  · congr 1
    · exact Finset.sum_congr rfl fun i _ => Finset.sum_congr rfl fun j _ => by ring
    · exact Finset.sum_congr rfl fun i _ => Finset.sum_congr rfl fun j _ => by ring

/-- The two rules agree on polynomials of degree up to 13 -/
theorem KG_affine (c h : ℝ) (m : ℕ) (hm : m < 14) : |K15 (fun t => (c + h * t) ^ m) - G7 (fun t => (c + h * t) ^ m)| ≤ 3 / 10 ^ 16 * (|c| + |h|) ^ m := by
  have h1 : (fun t => (c + h * t) ^ m) = fun t => ∑ j ∈ Finset.range (m + 1), (h ^ j * c ^ (m - j) * (m.choose j : ℝ)) * t ^ j := by
    funext t
    rw [add_comm c, add_pow]
    refine Finset.sum_congr rfl ?_
    intro j _
    rw [mul_pow]
    ring
  rw [h1, K15_sum (Finset.range (m + 1)) (fun j t => t ^ j) (fun j => h ^ j * c ^ (m - j) * (m.choose j : ℝ)), G7_sum (Finset.range (m + 1)) (fun j t => t ^ j) (fun j => h ^ j * c ^ (m - j) * (m.choose j : ℝ))]
  rw [← Finset.sum_sub_distrib]
  have h2 : (|c| + |h|) ^ m = ∑ j ∈ Finset.range (m + 1), |h ^ j * c ^ (m - j) * (m.choose j : ℝ)| := by
    rw [add_comm, add_pow]
    refine Finset.sum_congr rfl ?_
    intro j _
    rw [abs_mul, abs_mul, abs_pow, abs_pow, abs_of_nonneg (by positivity : (0 : ℝ) ≤ (m.choose j : ℝ))]
  rw [h2, Finset.mul_sum]
  refine le_trans (Finset.abs_sum_le_sum_abs _ _) (Finset.sum_le_sum ?_)
  intro j hj
  rw [← mul_sub, abs_mul, mul_comm]
  have hj' : j < 14 := by
    simp at hj
    omega
  refine mul_le_mul_of_nonneg_right ?_ (abs_nonneg _)
  have a1 := K15_monomial j (by omega)
  have a2 := G7_monomial j hj'
  rw [abs_le] at a1 a2 ⊢
  constructor <;> linarith [a1.1, a1.2, a2.1, a2.2]

theorem xgk15_mem (j : ℕ) : |xgk15 j| ≤ 1 := by
  unfold xgk15
  split <;> norm_num [abs_of_pos]

/-- The 15-point rule of a bounded function is bounded -/
theorem K15_le {g : ℝ → ℝ} {M : ℝ} (hg : ∀ t, |t| ≤ 1 → g t ≤ M) (hM : 0 ≤ M) : K15 g ≤ 2.1 * M := by
  have h : K15 g ≤ K15 fun _ => M := by
    unfold K15
    refine add_le_add (mul_le_mul_of_nonneg_right (hg 0 (by simp)) (wgk15_nonneg 7)) (Finset.sum_le_sum fun j _ => ?_)
    exact mul_le_mul_of_nonneg_left (add_le_add (hg _ (by rw [abs_neg]; exact xgk15_mem j)) (hg _ (xgk15_mem j))) (wgk15_nonneg j)
  refine le_trans h ?_
  simp only [K15, Finset.sum_range_succ, Finset.sum_range_zero, wgk15]
  nlinarith

theorem K15_nonneg {g : ℝ → ℝ} (hg : ∀ t, 0 ≤ g t) : 0 ≤ K15 g := by
  unfold K15
  have : 0 ≤ ∑ j ∈ Finset.range 7, wgk15 j * (g (-xgk15 j) + g (xgk15 j)) := Finset.sum_nonneg fun j _ => mul_nonneg (wgk15_nonneg j) (add_nonneg (hg _) (hg _))
  have := mul_nonneg (hg 0) (wgk15_nonneg 7)
  linarith

/-- The estimate of a polynomial of degree up to 13 -/
theorem est_poly (q : ℕ → ℝ) (hq : ∀ m, 14 ≤ m → q m = 0) (a b M : ℝ) (hab : a ≤ b) (ha : |a| ≤ M) (hb : |b| ≤ M) :
    (gk15 (poly q) a b).2 ≤ 1 / 10 ^ 13 * (∑ m ∈ Finset.range 24, |q m| * M ^ m) * ((b - a) / 2) := by
  have hM : |(a + b) / 2| + |(b - a) / 2| ≤ M := by
    rw [abs_of_nonneg (by linarith : 0 ≤ (b - a) / 2)]
    rcases abs_cases ((a + b) / 2) with ⟨h, _⟩ | ⟨h, _⟩ <;> rw [h] <;> linarith [le_abs_self b, neg_abs_le a]
  have hM0 : 0 ≤ |(a + b) / 2| + |(b - a) / 2| := by positivity
  have hM1 : 0 ≤ M := le_trans hM0 hM
  have hh : 0 ≤ (b - a) / 2 := by linarith
  obtain ⟨P, hP⟩ : ∃ P, P = ∑ m ∈ Finset.range 24, |q m| * M ^ m := ⟨_, rfl⟩
  have hP0 : 0 ≤ P := by
    rw [hP]
    exact Finset.sum_nonneg fun m _ => by positivity
  have hKG : |K15 (fun t => poly q ((a + b) / 2 + (b - a) / 2 * t)) - G7 (fun t => poly q ((a + b) / 2 + (b - a) / 2 * t))| ≤ 3 / 10 ^ 16 * P := by
    unfold poly
    rw [K15_sum (Finset.range 24) (fun m t => ((a + b) / 2 + (b - a) / 2 * t) ^ m) q, G7_sum (Finset.range 24) (fun m t => ((a + b) / 2 + (b - a) / 2 * t) ^ m) q, ← Finset.sum_sub_distrib, hP, Finset.mul_sum]
    refine le_trans (Finset.abs_sum_le_sum_abs _ _) (Finset.sum_le_sum ?_)
    intro m _
    rw [← mul_sub, abs_mul, mul_left_comm]
    rcases lt_or_ge m 14 with hm | hm
    · refine mul_le_mul_of_nonneg_left ?_ (abs_nonneg _)
      refine le_trans (KG_affine _ _ m hm) ?_
      exact mul_le_mul_of_nonneg_left (pow_le_pow_left₀ hM0 hM m) (by positivity)
    · rw [hq m hm]
      simp
  have hB : K15 (fun t => |poly q ((a + b) / 2 + (b - a) / 2 * t)|) ≤ 2.1 * P := by
    refine K15_le (fun t ht => ?_) hP0
    unfold poly
    rw [hP]
    refine le_trans (Finset.abs_sum_le_sum_abs _ _) (Finset.sum_le_sum fun m _ => ?_)
    rw [abs_mul, abs_pow]
    refine mul_le_mul_of_nonneg_left (pow_le_pow_left₀ (abs_nonneg _) ?_ m) (abs_nonneg _)
    refine le_trans (abs_add_le _ _) (le_trans ?_ hM)
    rw [abs_mul]
    have := mul_le_mul_of_nonneg_left ht (abs_nonneg ((b - a) / 2))
    linarith
  rw [gk15_err]
  refine le_trans (estimate_le (mul_nonneg (abs_nonneg _) hh) (mul_nonneg (K15_nonneg fun t => abs_nonneg _) (abs_nonneg _))) ?_
  rw [← hP, abs_of_nonneg hh]
  refine max_le ?_ ?_
  · have := mul_le_mul_of_nonneg_right hKG hh
    have h0 : 0 ≤ P * ((b - a) / 2) := mul_nonneg hP0 hh
    nlinarith
  · have := mul_le_mul_of_nonneg_right hB hh
    have h0 : 0 ≤ P * ((b - a) / 2) := mul_nonneg hP0 hh
    have he : 50 * dblEps ≤ 2 / 10 ^ 14 := by
      unfold dblEps
      norm_num
    have he0 : 0 ≤ dblEps := by unfold dblEps; positivity
    calc 50 * dblEps * (K15 (fun t => |poly q ((a + b) / 2 + (b - a) / 2 * t)|) * ((b - a) / 2)) ≤ 50 * dblEps * (2.1 * P * ((b - a) / 2)) := mul_le_mul_of_nonneg_left this (by positivity)
      _ ≤ 2 / 10 ^ 14 * (2.1 * P * ((b - a) / 2)) := mul_le_mul_of_nonneg_right he (by positivity)
      _ ≤ _ := by nlinarith

/-- The reported error of a polynomial of degree up to 13 is at the level of rounding, so that the integration ends after the first bisection for any tolerance above it. -/
theorem C122_estimate (w : WS) (hl : 2 ≤ w.limit) (q : ℕ → ℝ) (a b epsrel epsabs : ℝ) (ht : Accepts epsrel epsabs) :
    ∃ out w' err, integrate w (fun x => ∑ m ∈ Finset.range 14, q m * x ^ m) a b epsrel epsabs = some (out, w') ∧ out.abserr = some err ∧
      err ≤ 1 / 10 ^ 13 * (∑ m ∈ Finset.range 14, |q m| * max |a| |b| ^ m) * (|b - a| / 2) ∧
      (1 / 10 ^ 13 * (∑ m ∈ Finset.range 14, |q m| * max |a| |b| ^ m) * (|b - a| / 2) ≤ epsabs → out.neval = some 45 ∧ out.warned = none) := by
  obtain ⟨r, hr⟩ : ∃ r : ℕ → ℝ, r = fun m => if m < 14 then q m else 0 := ⟨_, rfl⟩
  have hr0 : ∀ m, 14 ≤ m → r m = 0 := fun m hm => by simp [hr, hm]
  have hsum : ∀ g : ℕ → ℝ → ℝ, (∀ m, g m 0 = 0) → ∑ m ∈ Finset.range 14, g m (q m) = ∑ m ∈ Finset.range 24, g m (r m) := by
    intro g hg
    rw [← Finset.sum_subset (Finset.range_mono (by norm_num : 14 ≤ 24))]
    · refine Finset.sum_congr rfl fun m hm => ?_
      have : m < 14 := by simpa using hm
      simp [hr, this]
    · intro m _ hm
      rw [hr0 m (by simpa using hm), hg]
  have hf : (fun x => ∑ m ∈ Finset.range 14, q m * x ^ m) = poly r := by
    funext x
    exact hsum (fun m c => c * x ^ m) (fun m => by simp)
  rw [hf, hsum (fun m c => |c| * max |a| |b| ^ m) (fun m => by simp)]
  obtain ⟨out, w', n, S, I, hi, _, hR, h0, hn, hv, he, hne, hend⟩ := C122_adaptive_partial w hl (poly r) a b epsrel epsabs ht
  obtain ⟨C, hC⟩ : ∃ C, C = 1 / 10 ^ 13 * (∑ m ∈ Finset.range 24, |r m| * max |a| |b| ^ m) / 2 := ⟨_, rfl⟩
  have habs : ∀ x, min a b ≤ x → x ≤ max a b → |x| ≤ max |a| |b| := by
    intro x h1 h2
    rw [abs_le]
    constructor
    · have : -(max |a| |b|) ≤ min a b := le_min (by linarith [neg_abs_le a, le_max_left |a| |b|]) (by linarith [neg_abs_le b, le_max_right |a| |b|])
      linarith
    · have : max a b ≤ max |a| |b| := max_le_max (le_abs_self a) (le_abs_self b)
      linarith
  have hba : max a b - min a b = |b - a| := by
    rw [max_sub_min_eq_abs]
  have hbound : ∀ i, i ≤ n → total (fun a b => (gk15 (poly r) a b).2) (S i) ≤ 1 / 10 ^ 13 * (∑ m ∈ Finset.range 24, |r m| * max |a| |b| ^ m) * (|b - a| / 2) := by
    intro i hin
    obtain ⟨xs, hx, hS, hlen⟩ := run_subdivision hR (min_le_max (a := a) (b := b)) h0 i hin
    have h1 : total (fun a b => (gk15 (poly r) a b).2) (S i) ≤ total (fun x y => C * (y - x)) (pieces xs : Multiset (ℝ × ℝ)) := by
      rw [hS]
      unfold total
      refine Multiset.sum_map_le_sum_map _ _ fun J hJ => ?_
      obtain ⟨h1, h2, h3⟩ := pieces_mem xs _ _ hx J (by simpa using hJ)
      have := est_poly r hr0 J.1 J.2 (max |a| |b|) h2 (habs _ h1 (le_trans h2 h3)) (habs _ (le_trans h1 h2) h3)
      rw [hC]
      calc _ ≤ _ := this
        _ = _ := by ring
    rw [pieces_len xs C _ _ hx, hba] at h1
    refine le_trans h1 (le_of_eq ?_)
    rw [hC]
    ring
  refine ⟨out, w', _, hi, he, hbound n (le_refl _), fun htol => ?_⟩
  have hconv : ∀ i, i ≤ n → Converged (fun a b => (gk15 (poly r) a b).1) (fun a b => (gk15 (poly r) a b).2) epsrel epsabs (S i) := fun i hin =>
    le_trans (le_trans (hbound i hin) htol) (le_max_left _ _)
  have hn1 : n = 1 := by
    have := hR.pos
    by_contra hc
    exact (hR.go 0 (by omega)).1 (hconv 1 (by omega))
  rw [hne, hn1]
  refine ⟨rfl, ?_⟩
  rcases hend with ⟨_, h⟩ | ⟨h, _⟩ | ⟨h, _⟩
  · exact h
  · exact absurd (hconv n (le_refl _)) h
  · exact absurd (hconv n (le_refl _)) h

/-- Where the two rules differ by more than half a percent of the variation of the integrand, the estimate is not less than that variation. -/
theorem C122_cautious (f : ℝ → ℝ) (a b : ℝ) (hab : a ≤ b)
    (hd : K15 (fun t => |f ((a + b) / 2 + (b - a) / 2 * t) - K15 (fun t => f ((a + b) / 2 + (b - a) / 2 * t)) / 2|) * ((b - a) / 2) ≤
      200 * (|K15 (fun t => f ((a + b) / 2 + (b - a) / 2 * t)) - G7 (fun t => f ((a + b) / 2 + (b - a) / 2 * t))| * ((b - a) / 2))) :
    K15 (fun t => |f ((a + b) / 2 + (b - a) / 2 * t) - K15 (fun t => f ((a + b) / 2 + (b - a) / 2 * t)) / 2|) * ((b - a) / 2) ≤ (gk15 f a b).2 := by
  have hh : 0 ≤ (b - a) / 2 := by linarith
  rw [gk15_err, abs_of_nonneg hh]
  obtain ⟨A, hA⟩ : ∃ A, A = K15 (fun t => |f ((a + b) / 2 + (b - a) / 2 * t) - K15 (fun t => f ((a + b) / 2 + (b - a) / 2 * t)) / 2|) * ((b - a) / 2) := ⟨_, rfl⟩
  obtain ⟨e, he⟩ : ∃ e, e = |K15 (fun t => f ((a + b) / 2 + (b - a) / 2 * t)) - G7 (fun t => f ((a + b) / 2 + (b - a) / 2 * t))| * ((b - a) / 2) := ⟨_, rfl⟩
  have hA0 : 0 ≤ A := by
    rw [hA]
    exact mul_nonneg (K15_nonneg fun t => abs_nonneg _) hh
  have he0 : 0 ≤ e := by
    rw [he]
    exact mul_nonneg (abs_nonneg _) hh
  rw [← hA, ← he] at hd ⊢
  have hx : A ≤ (if A ≠ 0 ∧ e ≠ 0 then (if (200 * e / A) ^ (1.5 : ℝ) < 1 then A * (200 * e / A) ^ (1.5 : ℝ) else A) else e) := by
    split_ifs with h1 h2
    · exfalso
      have hA' : 0 < A := lt_of_le_of_ne hA0 (Ne.symm h1.1)
      have : (1 : ℝ) ≤ (200 * e / A) ^ (1.5 : ℝ) := Real.one_le_rpow (by rw [le_div_iff₀ hA', one_mul]; exact hd) (by norm_num)
      linarith
    · exact le_refl _
    · by_cases hA1 : A = 0
      · rw [hA1]
        exact he0
      · have : e = 0 := by
          by_contra h
          exact h1 ⟨hA1, h⟩
        rw [this] at hd
        linarith
  unfold estimate
  dsimp only
  by_cases hB : K15 (fun t => |f ((a + b) / 2 + (b - a) / 2 * t)|) * ((b - a) / 2) > dblMin / (50 * dblEps)
  · rw [if_pos hB]
    exact le_trans hx (le_max_left _ _)
  · rw [if_neg hB]
    exact hx

end Verif.GK
