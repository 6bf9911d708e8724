/- Lemmas for C104: the third-order kernels in the frame of the wave vector. -/
import Verif.Spec.SPT
import Verif.Model.PTKernels
import Verif.Lemmas.PTKernels
import Mathlib.Tactic.FieldSimp
import Mathlib.Tactic.Positivity
import Mathlib.Tactic.LinearCombination
import Mathlib.Analysis.SpecialFunctions.Log.Deriv
import Mathlib.MeasureTheory.Integral.IntervalIntegral.FundThmCalculus

namespace Verif.SPT

open Real

/-! ### Geometry -/

/-- `k`, `q` with `|q| = r|k|` and cosine `x` -/
structure Geo (k q : V) (κ r x : ℝ) : Prop where
  κ0 : κ ≠ 0
  r0 : r ≠ 0
  kk : dot k k = κ^2
  qq : dot q q = (r*κ)^2
  kq : dot k q = r*x*κ^2
  dm : 1 + r^2 - 2*r*x ≠ 0
  dp : 1 + r^2 + 2*r*x ≠ 0

theorem dot_comm (a b : V) : dot a b = dot b a := by simp only [dot]; ring
theorem dot_add_left (a b c : V) : dot (a + b) c = dot a c + dot b c := by simp only [dot, Prod.fst_add, Prod.snd_add]; ring
theorem dot_add_right (a b c : V) : dot a (b + c) = dot a b + dot a c := by simp only [dot, Prod.fst_add, Prod.snd_add]; ring
theorem dot_neg_left (a b : V) : dot (-a) b = -dot a b := by simp only [dot, Prod.fst_neg, Prod.snd_neg]; ring
theorem dot_neg_right (a b : V) : dot a (-b) = -dot a b := by simp only [dot, Prod.fst_neg, Prod.snd_neg]; ring
theorem dot_zero_left (a : V) : dot 0 a = 0 := by simp [dot]
theorem dot_zero_right (a : V) : dot a 0 = 0 := by simp [dot]

variable {k q : V} {κ r x : ℝ}

theorem Geo.neg (g : Geo k q κ r x) : Geo k (-q) κ r (-x) where
  κ0 := g.κ0
  r0 := g.r0
  kk := g.kk
  qq := by rw [dot_neg_left, dot_neg_right, neg_neg, g.qq]
  kq := by rw [dot_neg_right, g.kq]; ring
  dm := by have := g.dp; intro h; apply this; linarith
  dp := by have := g.dm; intro h; apply this; linarith

section
variable (g : Geo k q κ r x)
include g

theorem al_kq : al k q = 1 + r*x := by
  have := g.κ0
  rw [al, dot_add_left, dot_comm q k, g.kk, g.kq]; field_simp
theorem al_qk : al q k = 1 + x/r := by
  have := g.κ0; have := g.r0
  rw [al, dot_add_left, g.qq, g.kq]; field_simp
theorem be_kq : be k q = (1 + r^2 + 2*r*x)*x/(2*r) := by
  have := g.κ0; have := g.r0
  rw [be, dot_add_left, dot_add_right, dot_add_right, dot_comm q k, g.kk, g.kq, g.qq]; field_simp; ring
theorem be_qk : be q k = (1 + r^2 + 2*r*x)*x/(2*r) := by
  have := g.κ0; have := g.r0
  rw [be, dot_add_left, dot_add_right, dot_add_right, dot_comm q k, g.kk, g.kq, g.qq]; field_simp; ring
/-- second-order kernels of the pair `k`, `q` -/
theorem F2_kq : F2 k q = 5/7 + x/2*(r + 1/r) + 2/7*x^2 := by
  have := g.r0
  simp only [F2, sym2, F2r, al_kq g, al_qk g, be_kq g, be_qk g]; field_simp; ring
theorem G2_kq : G2 k q = 3/7 + x/2*(r + 1/r) + 4/7*x^2 := by
  have := g.r0
  simp only [G2, sym2, G2r, al_kq g, al_qk g, be_kq g, be_qk g]; field_simp; ring

/-- the couplings of `k + q` with `-q` -/
theorem al_sum : al (k + q) (-q) = (1 + r*x)/(1 + r^2 + 2*r*x) := by
  have := g.κ0; have := g.dp
  have e : dot (k + q) (k + q) = κ^2*(1 + r^2 + 2*r*x) := by rw [dot_add_left, dot_add_right, dot_add_right, dot_comm q k, g.kk, g.kq, g.qq]; ring
  rw [al, add_neg_cancel_right, e, dot_add_right, g.kk, g.kq]; field_simp
theorem al_sum' : al (-q) (k + q) = -x/r := by
  have := g.κ0; have := g.r0
  have e : -q + (k + q) = k := by abel
  rw [al, e, dot_neg_right, dot_neg_right, dot_neg_left, g.kq, g.qq]; field_simp
theorem be_sum : be (k + q) (-q) = -(x + r)/(2*r*(1 + r^2 + 2*r*x)) := by
  have := g.κ0; have := g.dp; have := g.r0
  have e : dot (k + q) (k + q) = κ^2*(1 + r^2 + 2*r*x) := by rw [dot_add_left, dot_add_right, dot_add_right, dot_comm q k, g.kk, g.kq, g.qq]; ring
  rw [be, add_neg_cancel_right, e, dot_neg_right, dot_neg_right, dot_neg_left, dot_add_left, g.kk, g.kq, g.qq]; field_simp
theorem be_sum' : be (-q) (k + q) = -(x + r)/(2*r*(1 + r^2 + 2*r*x)) := by
  rw [← be_sum g, be, be, add_comm (-q) (k + q), dot_comm (-q) (k + q)]; ring
end

theorem al_zero (a : V) : al 0 a = 0 := by simp [al, dot_zero_left]
theorem al_opp (a : V) : al a (-a) = 0 := by simp [al, dot_zero_left]
theorem al_opp' (a : V) : al (-a) a = 0 := by simp [al, dot_zero_left]
theorem be_opp (a : V) : be a (-a) = 0 := by simp [be, dot_zero_left]
theorem be_opp' (a : V) : be (-a) a = 0 := by simp [be, dot_zero_left]
theorem be_zero (a : V) : be 0 a = 0 := by simp [be, dot_zero_left]
theorem be_zero' (a : V) : be a 0 = 0 := by simp [be, dot_zero_right]
theorem F2_opp (a : V) : F2 a (-a) = 0 := by simp [F2, sym2, F2r, al_opp, al_opp', be_opp, be_opp']
theorem G2_opp (a : V) : G2 a (-a) = 0 := by simp [G2, sym2, G2r, al_opp, al_opp', be_opp, be_opp']
theorem F2_comm (a b : V) : F2 a b = F2 b a := by simp only [F2, sym2]; ring
theorem G2_comm (a b : V) : G2 a b = G2 b a := by simp only [G2, sym2]; ring

variable (g : Geo k q κ r x)
include g

/-- The third-order kernels of `k`, `q`, `-q` -/
theorem F3_kqq : F3 k q (-q) = (-42*x^2 + r^2*(20 - 88*x^2 + 152*x^4) + r^4*(20 - 118*x^2 + 56*x^4))/(252*r^2*((1 + r^2 - 2*r*x)*(1 + r^2 + 2*r*x))) := by
  have hr := g.r0; have hm := g.dm; have hp := g.dp
  have g' := g.neg
  have p1 := al_sum g; have p2 := al_sum' g; have p3 := be_sum g; have p4 := be_sum' g
  have n1 : al (k + -q) q = (1 - r*x)/(1 + r^2 - 2*r*x) := by have := al_sum g'; rw [neg_neg] at this; rw [this]; congr 1 <;> ring
  have n2 : al q (k + -q) = x/r := by have := al_sum' g'; rw [neg_neg] at this; rw [this]; ring
  have n3 : be (k + -q) q = (x - r)/(2*r*(1 + r^2 - 2*r*x)) := by have := be_sum g'; rw [neg_neg] at this; rw [this]; congr 1 <;> ring
  have n4 : be q (k + -q) = (x - r)/(2*r*(1 + r^2 - 2*r*x)) := by have := be_sum' g'; rw [neg_neg] at this; rw [this]; congr 1 <;> ring
  obtain ⟨A, hA⟩ : ∃ A, A = 1 + r^2 - 2*r*x := ⟨_, rfl⟩
  obtain ⟨B, hB⟩ : ∃ B, B = 1 + r^2 + 2*r*x := ⟨_, rfl⟩
  rw [← hA] at hm n1 n3 n4 ⊢
  rw [← hB] at hp p1 p3 p4 ⊢
  simp only [F3, sym3, F3r, add_neg_cancel, neg_add_cancel, F2_opp, G2_opp, F2_comm (-q) q, G2_comm (-q) q, add_comm q k, add_comm (-q) k, F2_comm q k, G2_comm q k, F2_comm (-q) k,
    G2_comm (-q) k, p1, p2, p3, p4, n1, n2, n3, n4, F2_kq g, G2_kq g, F2_kq g', G2_kq g']
  field_simp
  rw [hA, hB]
  ring
theorem G3_kqq : G3 k q (-q) = (-42*x^2 + r^2*(-12 - 24*x^2 + 120*x^4) + r^4*(-12 - 54*x^2 + 24*x^4))/(252*r^2*((1 + r^2 - 2*r*x)*(1 + r^2 + 2*r*x))) := by
  have hr := g.r0; have hm := g.dm; have hp := g.dp
  have g' := g.neg
  have p1 := al_sum g; have p2 := al_sum' g; have p3 := be_sum g; have p4 := be_sum' g
  have n1 : al (k + -q) q = (1 - r*x)/(1 + r^2 - 2*r*x) := by have := al_sum g'; rw [neg_neg] at this; rw [this]; congr 1 <;> ring
  have n2 : al q (k + -q) = x/r := by have := al_sum' g'; rw [neg_neg] at this; rw [this]; ring
  have n3 : be (k + -q) q = (x - r)/(2*r*(1 + r^2 - 2*r*x)) := by have := be_sum g'; rw [neg_neg] at this; rw [this]; congr 1 <;> ring
  have n4 : be q (k + -q) = (x - r)/(2*r*(1 + r^2 - 2*r*x)) := by have := be_sum' g'; rw [neg_neg] at this; rw [this]; congr 1 <;> ring
  obtain ⟨A, hA⟩ : ∃ A, A = 1 + r^2 - 2*r*x := ⟨_, rfl⟩
  obtain ⟨B, hB⟩ : ∃ B, B = 1 + r^2 + 2*r*x := ⟨_, rfl⟩
  rw [← hA] at hm n1 n3 n4 ⊢
  rw [← hB] at hp p1 p3 p4 ⊢
  simp only [G3, sym3, G3r, add_neg_cancel, neg_add_cancel, F2_opp, G2_opp, F2_comm (-q) q, G2_comm (-q) q, add_comm q k, add_comm (-q) k, F2_comm q k, G2_comm q k, F2_comm (-q) k,
    G2_comm (-q) k, p1, p2, p3, p4, n1, n2, n3, n4, F2_kq g, G2_kq g, F2_kq g', G2_kq g']
  field_simp
  rw [hA, hB]
  ring

omit g

/-! ### Integrals over the angle between `k` and `q` -/

theorem sides_pos (hr : r ≠ 1) (hr0 : 0 < r) (hx : x ∈ Set.Icc (-1:ℝ) 1) : 0 < 1 + r^2 - 2*r*x ∧ 0 < 1 + r^2 + 2*r*x := by
  have h1 : 0 < (1 - r)^2 := by
    have : 1 - r ≠ 0 := sub_ne_zero.2 (Ne.symm hr)
    positivity
  obtain ⟨a, b⟩ := hx
  constructor <;> nlinarith

theorem sides_ae (hr : r ≠ 1) (hr0 : 0 < r) : ∀ x ∈ Set.uIcc (-1:ℝ) 1, 0 < 1 + r^2 - 2*r*x ∧ 0 < 1 + r^2 + 2*r*x := by
  intro x hx
  rw [Set.uIcc_of_le (by norm_num)] at hx
  exact sides_pos hr hr0 hx

/-- `∫ dx` of a polynomial and the two poles -/
theorem integral_poles (hr : r ≠ 1) (hr0 : 0 < r) (a0 a1 a2 a3 a4 c d : ℝ) :
    ∫ x in (-1:ℝ)..1, (a0 + a1*x + a2*x^2 + a3*x^3 + a4*x^4 + c/(1 + r^2 - 2*r*x) + d/(1 + r^2 + 2*r*x)) =
      2*a0 + 2*a2/3 + 2*a4/5 + (c + d)*log ((r + 1)/|r - 1|)/r := by
  have hd : ∀ x ∈ Set.uIcc (-1:ℝ) 1, HasDerivAt (fun x => a0*x + a1*(x^2/2) + a2*(x^3/3) + a3*(x^4/4) + a4*(x^5/5) + -(c/(2*r))*log (1 + r^2 - 2*r*x) + (d/(2*r))*log (1 + r^2 + 2*r*x))
      (a0 + a1*x + a2*x^2 + a3*x^3 + a4*x^4 + c/(1 + r^2 - 2*r*x) + d/(1 + r^2 + 2*r*x)) x := by
    intro x hx
    obtain ⟨hm, hp⟩ := sides_ae hr hr0 x hx
    have i := hasDerivAt_id' x
    have lm : HasDerivAt (fun x => log (1 + r^2 - 2*r*x)) (-(2*r*1)/(1 + r^2 - 2*r*x)) x := ((i.const_mul (2*r)).const_sub (1 + r^2)).log hm.ne'
    have lp : HasDerivAt (fun x => log (1 + r^2 + 2*r*x)) ((2*r*1)/(1 + r^2 + 2*r*x)) x := ((i.const_mul (2*r)).const_add (1 + r^2)).log hp.ne'
    refine (((((((i.const_mul a0).add (((hasDerivAt_pow 2 x).div_const 2).const_mul a1)).add (((hasDerivAt_pow 3 x).div_const 3).const_mul a2)).add
      (((hasDerivAt_pow 4 x).div_const 4).const_mul a3)).add (((hasDerivAt_pow 5 x).div_const 5).const_mul a4)).add (lm.const_mul (-(c/(2*r))))).add (lp.const_mul (d/(2*r)))).congr_deriv ?_
    obtain ⟨A, hA⟩ : ∃ A, A = 1 + r^2 - 2*r*x := ⟨_, rfl⟩
    obtain ⟨B, hB⟩ : ∃ B, B = 1 + r^2 + 2*r*x := ⟨_, rfl⟩
    rw [← hA] at hm ⊢
    rw [← hB] at hp ⊢
    have := hr0.ne'; have := hm.ne'; have := hp.ne'
    push_cast
    field_simp
  rw [intervalIntegral.integral_eq_sub_of_hasDerivAt hd]
  · have h1 : (0:ℝ) < r + 1 := by linarith
    have h2 : 0 < |r - 1| := abs_pos.2 (sub_ne_zero.2 hr)
    have e1 : 1 + r^2 - 2*r*1 = |r - 1|^2 := by rw [sq_abs]; ring
    have e2 : 1 + r^2 + 2*r*1 = (r + 1)^2 := by ring
    have e3 : 1 + r^2 - 2*r*(-1) = (r + 1)^2 := by ring
    have e4 : 1 + r^2 + 2*r*(-1) = |r - 1|^2 := by rw [sq_abs]; ring
    simp only [e1, e2, e3, e4, log_pow, log_div h1.ne' h2.ne']
    have := hr0.ne'
    push_cast
    field_simp
    ring
  · refine ContinuousOn.intervalIntegrable ?_
    refine ContinuousOn.add (ContinuousOn.add (by fun_prop) (ContinuousOn.div (by fun_prop) (by fun_prop) fun x hx => (sides_ae hr hr0 x hx).1.ne'))
      (ContinuousOn.div (by fun_prop) (by fun_prop) fun x hx => (sides_ae hr hr0 x hx).2.ne')

/-- a quartic over one of the denominators -/
theorem integral_one (hr : r ≠ 1) (hr0 : 0 < r) (p0 p1 p2 p3 p4 : ℝ) {t q2 q1 q0 : ℝ}
    (ht0 : t = (1 + r^2)/(2*r)) (hq2 : q2 = p3 + t*p4) (hq1 : q1 = p2 + t*q2) (hq0 : q0 = p1 + t*q1) :
    ∫ x in (-1:ℝ)..1, (p0 + p1*x + p2*x^2 + p3*x^3 + p4*x^4)/(1 + r^2 - 2*r*x) =
      -(2*q0 + 2*q2/3)/(2*r) + (p0 + t*q0)*log ((r + 1)/|r - 1|)/r := by
  have h := integral_poles hr hr0 (-q0/(2*r)) (-q1/(2*r)) (-q2/(2*r)) (-p4/(2*r)) 0 (p0 + t*q0) 0
  have e : ∫ x in (-1:ℝ)..1, (p0 + p1*x + p2*x^2 + p3*x^3 + p4*x^4)/(1 + r^2 - 2*r*x) = ∫ x in (-1:ℝ)..1, (-q0/(2*r) + -q1/(2*r)*x + -q2/(2*r)*x^2 + -p4/(2*r)*x^3 + 0*x^4 +
      (p0 + t*q0)/(1 + r^2 - 2*r*x) + 0/(1 + r^2 + 2*r*x)) := by
    refine intervalIntegral.integral_congr fun x hx => ?_
    obtain ⟨hm, -⟩ := sides_ae hr hr0 x hx
    obtain ⟨A, hA⟩ : ∃ A, A = 1 + r^2 - 2*r*x := ⟨_, rfl⟩
    have ht : 2*r*t = A + 2*r*x := by rw [hA, ht0]; have := hr0.ne'; field_simp; ring
    have hm' : A ≠ 0 := by rw [hA]; exact hm.ne'
    simp only [← hA]
    clear ht0 h
    have ht' : t = (A + 2*r*x)/(2*r) := by have := hr0.ne'; field_simp; linarith
    subst hq0 hq1 hq2
    rw [ht']
    have := hr0.ne'
    field_simp
    ring
  rw [e, h]; ring

/-- an even quartic over both denominators -/
theorem integral_two (hr : r ≠ 1) (hr0 : 0 < r) (p0 p2 p4 : ℝ) {t : ℝ} (ht0 : t = ((1 + r^2)/(2*r))^2) :
    ∫ x in (-1:ℝ)..1, (p0 + p2*x^2 + p4*x^4)/((1 + r^2 - 2*r*x)*(1 + r^2 + 2*r*x)) =
      -(2*(p2 + t*p4) + 2*p4/3)/(4*r^2) + (p0 + t*(p2 + t*p4))*log ((r + 1)/|r - 1|)/(r*(1 + r^2)) := by
  have hs : (0:ℝ) < 1 + r^2 := by positivity
  have h := integral_poles hr hr0 (-(p2 + t*p4)/(4*r^2)) 0 (-p4/(4*r^2)) 0 0 ((p0 + t*(p2 + t*p4))/(2*(1 + r^2))) ((p0 + t*(p2 + t*p4))/(2*(1 + r^2)))
  have e : ∫ x in (-1:ℝ)..1, (p0 + p2*x^2 + p4*x^4)/((1 + r^2 - 2*r*x)*(1 + r^2 + 2*r*x)) = ∫ x in (-1:ℝ)..1, (-(p2 + t*p4)/(4*r^2) + 0*x + -p4/(4*r^2)*x^2 + 0*x^3 + 0*x^4 +
      (p0 + t*(p2 + t*p4))/(2*(1 + r^2))/(1 + r^2 - 2*r*x) + (p0 + t*(p2 + t*p4))/(2*(1 + r^2))/(1 + r^2 + 2*r*x)) := by
    refine intervalIntegral.integral_congr fun x hx => ?_
    obtain ⟨hm, hp⟩ := sides_ae hr hr0 x hx
    obtain ⟨S, hS⟩ : ∃ S, S = 1 + r^2 := ⟨_, rfl⟩
    have ht : t = (S/(2*r))^2 := by rw [hS]; exact ht0
    clear ht0 h
    rw [ht]
    simp only [← hS] at hm hp hs ⊢
    have := hr0.ne'; have := hs.ne'
    obtain ⟨A, hA⟩ : ∃ A, A = S - 2*r*x := ⟨_, rfl⟩
    obtain ⟨B, hB⟩ : ∃ B, B = S + 2*r*x := ⟨_, rfl⟩
    rw [← hA] at hm ⊢
    rw [← hB] at hp ⊢
    have := hm.ne'; have := hp.ne'
    field_simp
    rw [hA, hB]
    ring
  rw [e, h]
  have := hr0.ne'
  field_simp
  ring

theorem dot_frame (K q x : ℝ) (hx : x ∈ Set.Icc (-1:ℝ) 1) : dot (kvec K) (kvec K) = K^2 ∧ dot (qvec q x) (qvec q x) = q^2 ∧ dot (kvec K) (qvec q x) = K*q*x := by
  have h : √(1 - x^2) * √(1 - x^2) = 1 - x^2 := Real.mul_self_sqrt (by obtain ⟨a, b⟩ := hx; nlinarith)
  simp only [dot, kvec, qvec]
  refine ⟨by ring, ?_, by ring⟩
  linear_combination q^2 * h

theorem geo_frame {K q x : ℝ} (hK : 0 < K) (hq : 0 < q) (hne : q ≠ K) (hx : x ∈ Set.Icc (-1:ℝ) 1) : Geo (kvec K) (qvec q x) K (q/K) x := by
  obtain ⟨h1, h2, h3⟩ := dot_frame K q x hx
  have hr : q/K ≠ 1 := by rw [ne_eq, div_eq_one_iff_eq hK.ne']; exact hne
  obtain ⟨hm, hp⟩ := sides_pos hr (div_pos hq hK) hx
  have := hK.ne'
  exact ⟨hK.ne', (div_pos hq hK).ne', h1, by rw [h2]; field_simp, by rw [h3]; field_simp, hm.ne', hp.ne'⟩

end Verif.SPT
