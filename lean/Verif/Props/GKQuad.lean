/-
C122: adaptive one-dimensional quadrature.
-/
import Verif.Lemmas.GKExact
import Verif.Lemmas.GKFresh

namespace Verif.GK

open MeasureTheory

/-- The tolerances are ones that the routine accepts (`Quadrature.inl:88-91`) -/
def Accepts (epsrel epsabs : ℝ) : Prop := 0 < epsabs ∨ 50 / 2 ^ 52 ≤ epsrel

theorem accepts_ok {epsrel epsabs : ℝ} (h : Accepts epsrel epsabs) : ¬ (epsabs ≤ 0 ∧ (epsrel < 50 * dblEps ∨ epsrel < 0.5e-28)) := by
  have he : 50 * dblEps = 50 / 2 ^ 52 := by unfold dblEps; rw [inv_pow]; ring
  rintro ⟨h1, h2⟩
  rw [he] at h2
  rcases h with h | h
  · linarith
  · rcases h2 with h2 | h2
    · linarith
    · have : (0.5e-28 : ℝ) < 50 / 2 ^ 52 := by norm_num
      linarith

/-- **C122.** In a workspace for at least two intervals, whatever it held before, `Integrate` touches no memory outside of it and reads nothing it has not written; it bisects, again and again, the interval
with the largest error estimate, at least once, until the estimated error is within the tolerance, a tiny interval was cut or the workspace is full; it returns the sum of the rule over the
intervals, the sum of the error estimates and the number of evaluations. -/
theorem C122_adaptive_partial (w : WS) (hl : 2 ≤ w.limit) (f : ℝ → ℝ) (a b epsrel epsabs : ℝ) (ht : Accepts epsrel epsabs) :
    ∃ out w' n S I, integrate w f a b epsrel epsabs = some (out, w') ∧ w'.limit = w.limit ∧
      Run (fun a b => (gk15 f a b).1) (fun a b => (gk15 f a b).2) epsrel epsabs n S I ∧ S 0 = {(min a b, max a b)} ∧ n < w.limit ∧
      out.value = (if a > b then -1 else 1) * total (fun a b => (gk15 f a b).1) (S n) ∧ out.abserr = some (total (fun a b => (gk15 f a b).2) (S n)) ∧ out.neval = some (15 + 30 * n) ∧
      ((Converged (fun a b => (gk15 f a b).1) (fun a b => (gk15 f a b).2) epsrel epsabs (S n) ∧ out.warned = none) ∨
       (¬ Converged (fun a b => (gk15 f a b).1) (fun a b => (gk15 f a b).2) epsrel epsabs (S n) ∧ Tiny (I (n - 1)) ∧ out.warned = some 3) ∨
       (¬ Converged (fun a b => (gk15 f a b).1) (fun a b => (gk15 f a b).2) epsrel epsabs (S n) ∧ ¬ Tiny (I (n - 1)) ∧ n + 1 = w.limit ∧ out.warned = none)) :=
  integrate_spec (gk15 f) w hl a b epsrel epsabs (accepts_ok ht)

example : Accepts 1e-5 1e-10 := Or.inl (by norm_num)

/-- Other tolerances are rejected: the value is 0, whatever the integrand, neither the error nor the number of evaluations is written, and a message is printed. -/
theorem C122_rejects (w : WS) (f : ℝ → ℝ) (a b epsrel epsabs : ℝ) (ht : ¬ Accepts epsrel epsabs) : integrate w f a b epsrel epsabs = some (⟨0, none, none, some 1⟩, w) := by
  have he : 50 * dblEps = 50 / 2 ^ 52 := by unfold dblEps; rw [inv_pow]; ring
  unfold Accepts at ht
  push Not at ht
  unfold integrate WS.integrate
  rw [if_pos ⟨ht.1, Or.inl (by rw [he]; exact ht.2)⟩]

example : ¬ Accepts 1e-16 0 := by
  unfold Accepts
  norm_num

/-- The result does not depend on what the workspace held: on the integrals computed in it before. -/
theorem C122_history (w w' : WS) (hl : 2 ≤ w.limit) (hll : w'.limit = w.limit) (f : ℝ → ℝ) (a b epsrel epsabs : ℝ) :
    (integrate w f a b epsrel epsabs).map Prod.fst = (integrate w' f a b epsrel epsabs).map Prod.fst ∧ (integrate w f a b epsrel epsabs).isSome := by
  have key : ∀ v : WS, v.limit = w.limit → ∃ out v1 v2, integrate (WS.new w.limit) f a b epsrel epsabs = some (out, v1) ∧ integrate v f a b epsrel epsabs = some (out, v2) := by
    intro v hv
    have hs : ∃ out v1, integrate (WS.new w.limit) f a b epsrel epsabs = some (out, v1) := by
      by_cases ht : Accepts epsrel epsabs
      · obtain ⟨out, w1, _, _, _, h, _⟩ := C122_adaptive_partial (WS.new w.limit) hl f a b epsrel epsabs ht
        exact ⟨out, w1, h⟩
      · exact ⟨_, _, C122_rejects _ f a b epsrel epsabs ht⟩
    obtain ⟨out, v1, h1⟩ := hs
    obtain ⟨v2, h2⟩ := integrate_mono (gk15 f) a b epsrel epsabs (w := WS.new w.limit) (w' := v) hv
      ⟨fun i u h => by simp [WS.new] at h, fun i u h => by simp [WS.new] at h, fun i u h => by simp [WS.new] at h, fun i u h => by simp [WS.new] at h, fun i u h => by simp [WS.new] at h⟩ h1
    exact ⟨out, v1, v2, h1, h2⟩
  obtain ⟨o1, _, _, g1, g2⟩ := key w rfl
  obtain ⟨o2, _, _, g3, g4⟩ := key w' hll
  have : o1 = o2 := by
    rw [g1] at g3
    simp only [Option.some.injEq, Prod.mk.injEq] at g3
    exact g3.1
  rw [g2, g4, this]
  simp

/-- Exchanging the limits of integration changes the sign of the value and nothing else. -/
theorem C122_swap (w : WS) (f : ℝ → ℝ) (a b epsrel epsabs : ℝ) (h : a ≠ b) :
    integrate w f b a epsrel epsabs = (integrate w f a b epsrel epsabs).map fun p => ({ p.1 with value := -p.1.value }, p.2) := by
  unfold integrate
  obtain ⟨gk, hgk⟩ : ∃ gk, gk = gk15 f := ⟨_, rfl⟩
  rw [← hgk]
  unfold WS.integrate
  by_cases hc : epsabs ≤ 0 ∧ (epsrel < 50 * dblEps ∨ epsrel < 0.5e-28)
  · rw [if_pos hc, if_pos hc]
    simp
  · rw [if_neg hc, if_neg hc]
    rcases lt_or_gt_of_ne h with h | h
    · have h' : ¬ a > b := not_lt.2 h.le
      have h2 : b > a := h
      simp only [h2, h', if_true, if_false, Option.map_bind, Function.comp_def, Option.map_some, neg_mul, one_mul]
    · have h' : ¬ b > a := not_lt.2 h.le
      simp only [h, h', if_true, if_false, Option.map_bind, Function.comp_def, Option.map_some, neg_mul, one_mul, neg_neg]

/-- The value is, up to the sign, the sum of the 15-point rule over the pieces of a subdivision of the interval, and the reported error the sum of the estimates: so, where each estimate bounds the
error of its piece, the reported error bounds the error of the value. -/
theorem C122_accuracy (w : WS) (hl : 2 ≤ w.limit) (f : ℝ → ℝ) (a b epsrel epsabs : ℝ) (ht : Accepts epsrel epsabs) (hf : IntervalIntegrable f volume a b) :
    ∃ out w' xs err, integrate w f a b epsrel epsabs = some (out, w') ∧ out.abserr = some err ∧ IsSubdivision (min a b) (max a b) xs ∧ 3 ≤ xs.length ∧ xs.length ≤ w.limit + 1 ∧
      out.neval = some (15 + 30 * (xs.length - 2)) ∧
      ((∀ J ∈ pieces xs, |(gk15 f J.1 J.2).1 - ∫ x in J.1..J.2, f x| ≤ (gk15 f J.1 J.2).2) → |out.value - ∫ x in a..b, f x| ≤ err) := by
  obtain ⟨out, w', n, S, I, hi, _, hR, h0, hn, hv, he, hne, _⟩ := C122_adaptive_partial w hl f a b epsrel epsabs ht
  obtain ⟨xs, hx, hS, hlen⟩ := run_subdivision hR (min_le_max (a := a) (b := b)) h0 n (le_refl _)
  have hpos := hR.pos
  refine ⟨out, w', xs, _, hi, he, hx, by omega, by omega, by rw [hne, hlen]; rfl, ?_⟩
  intro hJ
  have hf' : IntervalIntegrable f volume (min a b) (max a b) := by
    rcases le_total a b with h | h
    · rwa [min_eq_left h, max_eq_right h]
    · rw [min_eq_right h, max_eq_left h]
      exact hf.symm
  have hb := sum_bound f (fun a b => (gk15 f a b).1) (fun a b => (gk15 f a b).2) xs _ _ hx hf' hJ
  rw [hv, hS]
  rcases lt_or_ge b a with h | h
  · rw [if_pos h, intervalIntegral.integral_symm]
    rw [min_eq_right h.le, max_eq_left h.le] at hb
    rw [show -1 * total (fun a b => (gk15 f a b).1) (pieces xs : Multiset (ℝ × ℝ)) - -∫ x in b..a, f x = -(total (fun a b => (gk15 f a b).1) (pieces xs : Multiset (ℝ × ℝ)) - ∫ x in b..a, f x) by ring,
      abs_neg]
    exact hb
  · rw [if_neg (not_lt.2 h), one_mul]
    rwa [min_eq_left h, max_eq_right h] at hb

/-- On an interval of one point the value is 0. -/
theorem C122_point (w : WS) (hl : 2 ≤ w.limit) (f : ℝ → ℝ) (a epsrel epsabs : ℝ) : ∃ out w', integrate w f a a epsrel epsabs = some (out, w') ∧ out.value = 0 := by
  by_cases ht : Accepts epsrel epsabs
  · obtain ⟨out, w', n, S, I, hi, _, hR, h0, _, hv, _⟩ := C122_adaptive_partial w hl f a a epsrel epsabs ht
    refine ⟨out, w', hi, ?_⟩
    have hall : ∀ i, i ≤ n → ∀ J ∈ S i, J = (a, a) := by
      intro i
      induction i with
      | zero =>
        intro _ J hJ
        rw [h0] at hJ
        simpa using hJ
      | succ i ih =>
        intro hin J hJ
        obtain ⟨hw, hs⟩ := hR.step i (by omega)
        have hI := ih (by omega) (I i) hw.1
        rw [hs] at hJ
        simp only [halve, Multiset.mem_add, hI] at hJ
        rcases hJ with hJ | hJ
        · exact ih (by omega) J (Multiset.mem_of_mem_erase hJ)
        · have hm : (a + a) / 2 = a := by ring
          simpa [hm] using hJ
    have hz : total (fun a b => (gk15 f a b).1) (S n) = 0 := by
      unfold total
      refine Multiset.sum_eq_zero ?_
      intro x hx
      obtain ⟨J, hJ, rfl⟩ := Multiset.mem_map.1 hx
      rw [hall n (le_refl _) J hJ]
      show (gk15 f a a).1 = 0
      rw [gk15_val]
      simp
    rw [hv, hz, mul_zero]
  · exact ⟨_, _, C122_rejects w f a a epsrel epsabs ht, rfl⟩

/-- A polynomial of degree up to 23 is integrated to the precision of the nodes and weights, whatever the tolerances. -/
theorem C122_polynomials (w : WS) (hl : 2 ≤ w.limit) (q : ℕ → ℝ) (a b epsrel epsabs : ℝ) (ht : Accepts epsrel epsabs) :
    ∃ out w', integrate w (fun x => ∑ m ∈ Finset.range 24, q m * x ^ m) a b epsrel epsabs = some (out, w') ∧
      |out.value - ∫ x in a..b, ∑ m ∈ Finset.range 24, q m * x ^ m| ≤ 1 / 10 ^ 16 * (∑ m ∈ Finset.range 24, |q m| * max |a| |b| ^ m) * (|b - a| / 2) := by
  have hcont := poly_continuous q
  obtain ⟨out, w', n, S, I, hi, _, hR, h0, hn, hv, he, hne, _⟩ := C122_adaptive_partial w hl (poly q) a b epsrel epsabs ht
  obtain ⟨xs, hx, hS, hlen⟩ := run_subdivision hR (min_le_max (a := a) (b := b)) h0 n (le_refl _)
  refine ⟨out, w', hi, ?_⟩
  obtain ⟨C, hC⟩ : ∃ C, C = 1 / 10 ^ 16 * (∑ m ∈ Finset.range 24, |q m| * max |a| |b| ^ m) / 2 := ⟨_, rfl⟩
  have habs : ∀ x, min a b ≤ x → x ≤ max a b → |x| ≤ max |a| |b| := by
    intro x h1 h2
    rw [abs_le]
    constructor
    · have : -(max |a| |b|) ≤ min a b := le_min (by linarith [neg_abs_le a, le_max_left |a| |b|]) (by linarith [neg_abs_le b, le_max_right |a| |b|])
      linarith
    · have : max a b ≤ max |a| |b| := max_le_max (le_abs_self a) (le_abs_self b)
      linarith
  have hb := sum_bound (poly q) (fun a b => (gk15 (poly q) a b).1) (fun x y => C * (y - x)) xs _ _ hx (hcont.intervalIntegrable _ _) (by
    intro J hJ
    obtain ⟨h1, h2, h3⟩ := pieces_mem xs _ _ hx J hJ
    have := gk15_poly q J.1 J.2 (max |a| |b|) h2 (habs _ h1 (le_trans h2 h3)) (habs _ (le_trans h1 h2) h3)
    rw [hC]
    calc _ ≤ _ := this
      _ = _ := by ring)
  rw [pieces_len xs C _ _ hx] at hb
  show |out.value - ∫ x in a..b, poly q x| ≤ _
  rw [hv, hS]
  rcases lt_or_ge b a with h | h
  · rw [if_pos h, intervalIntegral.integral_symm]
    rw [min_eq_right h.le, max_eq_left h.le] at hb
    rw [show -1 * total (fun a b => (gk15 (poly q) a b).1) (pieces xs : Multiset (ℝ × ℝ)) - -∫ x in b..a, poly q x
      = -(total (fun a b => (gk15 (poly q) a b).1) (pieces xs : Multiset (ℝ × ℝ)) - ∫ x in b..a, poly q x) by ring, abs_neg]
    refine le_trans hb (le_of_eq ?_)
    rw [abs_of_neg (by linarith : b - a < 0), hC]
    ring
  · rw [if_neg (not_lt.2 h), one_mul]
    rw [min_eq_left h, max_eq_right h] at hb
    refine le_trans hb (le_of_eq ?_)
    rw [abs_of_nonneg (by linarith : 0 ≤ b - a), hC]
    ring

/-- `Integrate<ExpSub>` over positive numbers and `Integrate<InverseSub>` integrate functions whose integrals are those of `f`: where each estimate bounds the error of its piece, the reported error
bounds the distance of the value from the integral of `f` itself. -/
theorem C122_exp (w : WS) (hl : 2 ≤ w.limit) (f : ℝ → ℝ) (a b epsrel epsabs : ℝ) (ht : Accepts epsrel epsabs) (ha : 0 < a) (hb : 0 < b) (hf : ContinuousOn f (Set.uIcc a b)) :
    ∃ out w' xs err, integrateSub expSub w f a b epsrel epsabs = some (out, w') ∧ out.abserr = some err ∧ IsSubdivision (min (Real.log a) (Real.log b)) (max (Real.log a) (Real.log b)) xs ∧
      ((∀ J ∈ pieces xs, |(gk15 (fun u => f (Real.exp u) * Real.exp u) J.1 J.2).1 - ∫ u in J.1..J.2, f (Real.exp u) * Real.exp u| ≤ (gk15 (fun u => f (Real.exp u) * Real.exp u) J.1 J.2).2) →
        |out.value - ∫ x in a..b, f x| ≤ err) := by
  have hint : IntervalIntegrable (subFunc expSub f) volume (Real.log a) (Real.log b) := by
    refine ContinuousOn.intervalIntegrable ?_
    refine ContinuousOn.mul (ContinuousOn.comp hf Real.continuous_exp.continuousOn ?_) Real.continuous_exp.continuousOn
    intro u hu
    have h2 := Real.exp_monotone.mapsTo_uIcc hu
    rwa [Real.exp_log ha, Real.exp_log hb] at h2
  obtain ⟨out, w', xs, err, h1, h2, h3, _, _, _, h4⟩ := C122_accuracy w hl (subFunc expSub f) (Real.log a) (Real.log b) epsrel epsabs ht hint
  refine ⟨out, w', xs, err, h1, h2, h3, ?_⟩
  intro hJ
  rw [← exp_sub f a b ha hb hf]
  exact h4 hJ

theorem C122_inverse (w : WS) (hl : 2 ≤ w.limit) (f : ℝ → ℝ) (a b epsrel epsabs : ℝ) (ht : Accepts epsrel epsabs) (ha : 0 < a) (hb : 0 < b) (hf : ContinuousOn f (Set.uIcc a b))
    (hint : IntervalIntegrable (fun u => f (1 / u) * (-1 / (u * u))) volume (1 / a) (1 / b)) :
    ∃ out w' xs err, integrateSub inverseSub w f a b epsrel epsabs = some (out, w') ∧ out.abserr = some err ∧ IsSubdivision (min (1 / a) (1 / b)) (max (1 / a) (1 / b)) xs ∧
      ((∀ J ∈ pieces xs, |(gk15 (fun u => f (1 / u) * (-1 / (u * u))) J.1 J.2).1 - ∫ u in J.1..J.2, f (1 / u) * (-1 / (u * u))| ≤ (gk15 (fun u => f (1 / u) * (-1 / (u * u))) J.1 J.2).2) →
        |out.value - ∫ x in a..b, f x| ≤ err) := by
  obtain ⟨out, w', xs, err, h1, h2, h3, _, _, _, h4⟩ := C122_accuracy w hl (subFunc inverseSub f) (1 / a) (1 / b) epsrel epsabs ht hint
  refine ⟨out, w', xs, err, h1, h2, h3, ?_⟩
  intro hJ
  rw [← inverse_sub f a b ha hb hf]
  exact h4 hJ

/-- `NoSub` changes nothing. -/
theorem C122_nosub (w : WS) (f : ℝ → ℝ) (a b epsrel epsabs : ℝ) : integrateSub noSub w f a b epsrel epsabs = integrate w f a b epsrel epsabs := by
  have : subFunc noSub f = f := by
    funext u
    simp [subFunc, noSub]
  unfold integrateSub
  rw [this]
  rfl

end Verif.GK
