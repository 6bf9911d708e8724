/-
C94: the perturbation-theory integrals are the mode-coupling integrals over all triangles.

The drivers integrate over half of the domain when the kernel is symmetric, reuse one integral for both cross terms when the two spectra are the same, and split the two-loop
integrals by powers of the normalisation.  With exact quadrature the results are the integrals over the full domain.
-/
import Verif.Lemmas.PTInt
import Mathlib.Tactic.IntervalCases
import Mathlib.Tactic.NormNum
import Mathlib.Tactic.ByContra
import Mathlib.MeasureTheory.Integral.IntegrableOn

namespace Verif.PT

open MeasureTheory Set

/-- The flag `symmetric` of `Imn` is only set for kernels that are. -/
theorem imn_symmetric {m n : ℕ} {f : ℝ → ℝ → ℝ} (h : imnKernel m n = some (f, true)) (u v : ℝ) : f u (-v) = f u v := by
  unfold imnKernel at h
  split at h <;> simp only [Option.some.injEq, Prod.mk.injEq, reduceCtorEq, and_false, and_true] at h <;> subst h <;>
    simp [f00, f01, f02, f11, f12, f20, f21, f23, f32, f33, neg_mul_neg, Even.neg_pow (show Even 4 by decide)]

/-- The flag `symmetric` of `Kmn` is only set for kernels that are. -/
theorem kmn_symmetric {m n part : ℕ} {t : Bool} {f : ℝ → ℝ → ℝ} (h : kmnKernel m n t part = some (f, true)) (u v : ℝ) : f u (-v) = f u v := by
  unfold kmnKernel at h
  split at h <;> (try split at h) <;> simp only [Option.some.injEq, Prod.mk.injEq, reduceCtorEq, and_false, and_true] at h <;> subst h <;>
    simp [k00, k00s, k01, k01s, k02s, k10, k10s, k20_a, k20_b, k20s_a, k20s_b, F2, G2, S2, h03, h04]

/-- The half-domain integral of a symmetric kernel is half of the full one. -/
theorem C94_half_domain {f : ℝ → ℝ → ℝ} (hf : ∀ u v, f u (-v) = f u v) {P : ℝ → ℝ} {k U : ℝ} (hU : 0 ≤ U) (h : Conv (integrand2 f P P k) U (-1) 1) :
    2 * Num.exact.int2 (integrand2 f P P k) 0 U 0 1 = Num.exact.int2 (integrand2 f P P k) 0 U (-1) 1 := by
  have e := int2_neg (U := U) (integrand2 f P P k) 0 1
  simp only [integrand2_swap hf, neg_zero] at e
  rw [← int2_split hU h, ← e]; ring

/-- Every `Imn(k, m, n)` is the integral of its kernel over all triangles with a side `k`. -/
theorem C94_imn_coupling {m n : ℕ} {f : ℝ → ℝ → ℝ} {s : Bool} (hK : imnKernel m n = some (f, s)) {P : ℝ → ℝ} {k : ℝ} (hk : 0 < k) (hQ : k ≤ 2*100000)
    (hint : IntegrableOn (PTSpec.pairs (fun q r => f ((q + r)/k) ((r - q)/k)) P P) (PTSpec.triangle k 100000)) :
    imn Num.exact P k m n = some (PTSpec.coupling (fun q r => f ((q + r)/k) ((r - q)/k)) P P k 100000) := by
  have hc := conv_of_triangle hk hQ hint
  have hU : 0 ≤ Real.log (2*100000/k) := Real.log_nonneg ((one_le_div hk).2 hQ)
  have hk0 := hk.ne'; have hpi := Real.pi_pos.ne'
  simp only [imn, hK, Option.map_some, Option.some.injEq, imnCompute, not_le.2 hk, if_false, Real.log_one, QMAX, PTSpec.coupling, int2_triangle hk hQ hc]
  cases s with
  | true =>
    rw [← C94_half_domain (imn_symmetric hK) hU hc]
    simp only [if_true]; field_simp; ring
  | false =>
    rw [← int2_split hU hc]
    simp only [Bool.false_eq_true, if_false]; field_simp; ring

/-- Every `Kmn(k, m, n, tidal, part)` is the integral of its kernel over all triangles with a side `k`. -/
theorem C94_kmn_coupling {m n part : ℕ} {t : Bool} {f : ℝ → ℝ → ℝ} {s : Bool} (hK : kmnKernel m n t part = some (f, s)) {P : ℝ → ℝ} {k : ℝ} (hk : 0 < k)
    (hQ : k ≤ 2*100000) (hint : IntegrableOn (PTSpec.pairs (fun q r => f ((q + r)/k) ((r - q)/k)) P P) (PTSpec.triangle k 100000)) :
    kmn Num.exact P k m n t part = some (PTSpec.coupling (fun q r => f ((q + r)/k) ((r - q)/k)) P P k 100000) := by
  have hc := conv_of_triangle hk hQ hint
  have hU : 0 ≤ Real.log (2*100000/k) := Real.log_nonneg ((one_le_div hk).2 hQ)
  have hk0 := hk.ne'; have hpi := Real.pi_pos.ne'
  simp only [kmn, hK, Option.map_some, Option.some.injEq, kmnCompute, not_le.2 hk, if_false, Real.log_one, QMAX, PTSpec.coupling, int2_triangle hk hQ hc]
  cases s with
  | true =>
    rw [← C94_half_domain (kmn_symmetric hK) hU hc]
    simp only [if_true]; field_simp
  | false =>
    simp only [Bool.false_eq_true, if_false]; field_simp

/-- The integral of `ImnOneLoop` is the integral over all triangles. -/
theorem C94_oneCompute_coupling (f : ℝ → ℝ → ℝ) {P P' : ℝ → ℝ} {k : ℝ} (hk : 0 < k) (hQ : k ≤ 2*10)
    (hint : IntegrableOn (PTSpec.pairs (fun q r => f ((q + r)/k) ((r - q)/k)) P P') (PTSpec.triangle k 10)) :
    oneCompute Num.exact f P P' k = PTSpec.coupling (fun q r => f ((q + r)/k) ((r - q)/k)) P P' k 10 := by
  have hc := conv_of_triangle hk hQ hint
  have hk0 := hk.ne'; have hpi := Real.pi_pos.ne'
  simp only [oneCompute, not_le.2 hk, if_false, Real.log_one, PTSpec.coupling, int2_triangle hk hQ hc]
  field_simp; ring

/-! ### The kernels in terms of the sides -/

theorem triangle_pos {k Q q r : ℝ} (h : (q, r) ∈ PTSpec.triangle k Q) : 0 < q ∧ 0 < r := by
  obtain ⟨h1, -, h3, h4⟩ := h
  simp only at h1 h3 h4
  exact ⟨by linarith, by linarith⟩

theorem measurable_triangle (k Q : ℝ) : MeasurableSet (PTSpec.triangle k Q) := by
  have h1 : Measurable fun p : ℝ × ℝ => p.1 + p.2 := measurable_fst.add measurable_snd
  have h2 : Measurable fun p : ℝ × ℝ => p.2 - p.1 := measurable_snd.sub measurable_fst
  exact (measurableSet_lt measurable_const h1).inter ((measurableSet_le h1 measurable_const).inter ((measurableSet_lt measurable_const h2).inter (measurableSet_le h2 measurable_const)))

/-- Integrands that agree on the triangles have the same integral. -/
theorem coupling_congr {w w' : ℝ → ℝ → ℝ} {P P' : ℝ → ℝ} {k Q : ℝ} (h : ∀ q r, 0 < q → 0 < r → w q r = w' q r) :
    PTSpec.coupling w P P' k Q = PTSpec.coupling w' P P' k Q := by
  unfold PTSpec.coupling
  congr 1
  refine setIntegral_congr_fun (measurable_triangle k Q) fun p hp => ?_
  obtain ⟨q, r⟩ := p
  obtain ⟨hq, hr⟩ := triangle_pos hp
  simp only [PTSpec.pairs, h q r hq hr]

theorem integrable_congr {w w' : ℝ → ℝ → ℝ} {P P' : ℝ → ℝ} {k Q : ℝ} (h : ∀ q r, 0 < q → 0 < r → w q r = w' q r)
    (hi : IntegrableOn (PTSpec.pairs w P P') (PTSpec.triangle k Q)) : IntegrableOn (PTSpec.pairs w' P P') (PTSpec.triangle k Q) := by
  refine hi.congr_fun (fun p hp => ?_) (measurable_triangle k Q)
  obtain ⟨q, r⟩ := p
  obtain ⟨hq, hr⟩ := triangle_pos hp
  simp only [PTSpec.pairs, h q r hq hr]

theorem sides_kernels {k q r : ℝ} (hk : 0 < k) (hq : 0 < q) (hr : 0 < r) :
    F2 ((q + r)/k) ((r - q)/k) = PTSpec.F2s k q r ∧ G2 ((q + r)/k) ((r - q)/k) = PTSpec.G2s k q r ∧ S2 ((q + r)/k) ((r - q)/k) = PTSpec.S2s k q r := by
  have hk0 := hk.ne'; have hq0 := hq.ne'; have hr0 := hr.ne'
  have e : ((q + r)/k)*((q + r)/k) - ((r - q)/k)*((r - q)/k) = 4*q*r/k^2 := by field_simp; ring
  refine ⟨?_, ?_, ?_⟩
  · simp only [F2, PTSpec.F2s, e]; field_simp; ring
  · simp only [G2, PTSpec.G2s, e]; field_simp; ring
  · simp only [S2, PTSpec.S2s, e]; field_simp; ring

/-- `I00`, `I01` and `I11` are the one-loop `22` integrals of density-density, density-velocity and velocity-velocity of standard perturbation theory. -/
theorem C94_one_loop_22 {P : ℝ → ℝ} {k : ℝ} (hk : 0 < k) (hQ : k ≤ 2*100000)
    (h0 : IntegrableOn (PTSpec.pairs (fun q r => PTSpec.F2s k q r ^ 2) P P) (PTSpec.triangle k 100000))
    (h1 : IntegrableOn (PTSpec.pairs (fun q r => PTSpec.F2s k q r * PTSpec.G2s k q r) P P) (PTSpec.triangle k 100000))
    (h2 : IntegrableOn (PTSpec.pairs (fun q r => PTSpec.G2s k q r ^ 2) P P) (PTSpec.triangle k 100000)) :
    imn Num.exact P k 0 0 = some (PTSpec.coupling (fun q r => PTSpec.F2s k q r ^ 2) P P k 100000) ∧
    imn Num.exact P k 0 1 = some (PTSpec.coupling (fun q r => PTSpec.F2s k q r * PTSpec.G2s k q r) P P k 100000) ∧
    imn Num.exact P k 1 1 = some (PTSpec.coupling (fun q r => PTSpec.G2s k q r ^ 2) P P k 100000) := by
  have key : ∀ q r : ℝ, 0 < q → 0 < r → f00 ((q + r)/k) ((r - q)/k) = PTSpec.F2s k q r ^ 2 ∧
      f01 ((q + r)/k) ((r - q)/k) = PTSpec.F2s k q r * PTSpec.G2s k q r ∧ f11 ((q + r)/k) ((r - q)/k) = PTSpec.G2s k q r ^ 2 := by
    intro q r hq hr
    obtain ⟨a, b, -⟩ := sides_kernels hk hq hr
    rw [← a, ← b]
    have hk0 := hk.ne'; have hq0 := hq.ne'; have hr0 := hr.ne'
    have e : ((q + r)/k)*((q + r)/k) - ((r - q)/k)*((r - q)/k) = 4*q*r/k^2 := by field_simp; ring
    refine ⟨?_, ?_, ?_⟩
    · simp only [f00, F2, e]; field_simp; ring
    · simp only [f01, F2, G2, e]; field_simp; ring
    · simp only [f11, G2, e]; field_simp; ring
  refine ⟨?_, ?_, ?_⟩
  · rw [C94_imn_coupling (m := 0) (n := 0) rfl hk hQ (integrable_congr (fun q r hq hr => ((key q r hq hr).1).symm) h0)]
    exact congrArg some (coupling_congr fun q r hq hr => (key q r hq hr).1)
  · rw [C94_imn_coupling (m := 0) (n := 1) rfl hk hQ (integrable_congr (fun q r hq hr => ((key q r hq hr).2.1).symm) h1)]
    exact congrArg some (coupling_congr fun q r hq hr => (key q r hq hr).2.1)
  · rw [C94_imn_coupling (m := 1) (n := 1) rfl hk hQ (integrable_congr (fun q r hq hr => ((key q r hq hr).2.2).symm) h2)]
    exact congrArg some (coupling_congr fun q r hq hr => (key q r hq hr).2.2)

/-! ### The two-loop integrals -/

theorem cross_symmetric {m n : ℕ} (h : 3 ≤ 2*m + n) {f : ℝ → ℝ → ℝ} (hf : crossKernel m n = some f) (u v : ℝ) : f u (-v) = f u v := by
  unfold crossKernel at hf
  split at hf <;> simp only [Option.some.injEq, reduceCtorEq] at hf <;> (try omega) <;> subst hf <;>
    simp [h03, h04, f23, f32, f33, Even.neg_pow (show Even 4 by decide)]

theorem oneKernel_eq {m n : ℕ} (h8 : 2*m + n ≠ 8) : oneKernel m n = crossKernel m n := by
  unfold oneKernel crossKernel
  split <;> simp_all

/-- The objects Python builds: two different spectra (used with `h01`, `h02`), or a single one (used with the symmetric kernels). -/
def Built (o : OneLoop) (m n : ℕ) : Prop := o.equal = false ∨ (o.P1 = o.P2 ∧ 3 ≤ 2*m + n)

theorem cross_eq {o : OneLoop} {m n : ℕ} (ho : Built o m n) {f : ℝ → ℝ → ℝ} (hf : crossKernel m n = some f) {k : ℝ} :
    o.cross Num.exact k m n = some (oneCompute Num.exact f o.PL o.P2 k + oneCompute Num.exact f o.P1 o.PL k) := by
  simp only [OneLoop.cross, hf, Option.map_some, Option.some.injEq]
  rcases ho with ho | ⟨ho, h3⟩
  · simp [ho]
  · have hs : oneCompute Num.exact f o.P1 o.PL k = oneCompute Num.exact f o.PL o.P2 k := by
      rw [ho]
      unfold oneCompute
      by_cases hk : k ≤ 0
      · simp [hk]
      · simp only [hk, if_false, Real.log_one]
        have e := int2_neg (U := Real.log (2*10/k)) (integrand2 f o.P2 o.PL k) (-1) 1
        simp only [integrand2_swap (cross_symmetric h3 hf), neg_neg] at e
        rw [e]
    split
    · rw [hs]; ring
    · rfl

theorem integral_add4 {μ : Measure (ℝ × ℝ)} {a b c d : ℝ × ℝ → ℝ} (ha : Integrable a μ) (hb : Integrable b μ) (hc : Integrable c μ) (hd : Integrable d μ) :
    ∫ p, ((a p + b p) + c p) + d p ∂μ = ((∫ p, a p ∂μ) + (∫ p, b p ∂μ) + ∫ p, c p ∂μ) + ∫ p, d p ∂μ := by
  have e1 : ∫ p, ((a p + b p) + c p) + d p ∂μ = (∫ p, (a p + b p) + c p ∂μ) + ∫ p, d p ∂μ := integral_add ((ha.add hb).add hc) hd
  have e2 : ∫ p, (a p + b p) + c p ∂μ = (∫ p, a p + b p ∂μ) + ∫ p, c p ∂μ := integral_add (ha.add hb) hc
  rw [e1, e2, integral_add ha hb]

/-- The three parts that Python adds with powers 2, 3, 4 of the normalisation make up the integral with the normalised sums of linear and one-loop spectra, `nPL + n²P1` and
`nPL + n²P2`, over all triangles: for every index pair but (3,2). -/
theorem C94_two_loop_split {o : OneLoop} {m n : ℕ} (ho : Built o m n) (h8 : 2*m + n ≠ 8) {f : ℝ → ℝ → ℝ} (hf : crossKernel m n = some f) {k : ℝ}
    (hk : 0 < k) (hQ : k ≤ 2*10) (norm : ℝ)
    (hLL : IntegrableOn (PTSpec.pairs (fun q r => f ((q + r)/k) ((r - q)/k)) o.PL o.PL) (PTSpec.triangle k 10))
    (hL2 : IntegrableOn (PTSpec.pairs (fun q r => f ((q + r)/k) ((r - q)/k)) o.PL o.P2) (PTSpec.triangle k 10))
    (h1L : IntegrableOn (PTSpec.pairs (fun q r => f ((q + r)/k) ((r - q)/k)) o.P1 o.PL) (PTSpec.triangle k 10))
    (h12 : IntegrableOn (PTSpec.pairs (fun q r => f ((q + r)/k) ((r - q)/k)) o.P1 o.P2) (PTSpec.triangle k 10)) :
    ∃ lin cross one, o.linear Num.exact k m n = some lin ∧ o.cross Num.exact k m n = some cross ∧ o.oneLoop Num.exact k m n = some one ∧
      norm^2*lin + norm^3*cross + norm^4*one =
        PTSpec.coupling (fun q r => f ((q + r)/k) ((r - q)/k)) (fun q => norm*o.PL q + norm^2*o.P1 q) (fun q => norm*o.PL q + norm^2*o.P2 q) k 10 := by
  refine ⟨oneCompute Num.exact f o.PL o.PL k, oneCompute Num.exact f o.PL o.P2 k + oneCompute Num.exact f o.P1 o.PL k, oneCompute Num.exact f o.P1 o.P2 k,
    by simp only [OneLoop.linear, oneKernel_eq h8, hf, Option.map_some], cross_eq ho hf,
    by simp only [OneLoop.oneLoop, oneKernel_eq h8, hf, Option.map_some], ?_⟩
  rw [C94_oneCompute_coupling f hk hQ hLL, C94_oneCompute_coupling f hk hQ hL2, C94_oneCompute_coupling f hk hQ h1L, C94_oneCompute_coupling f hk hQ h12]
  simp only [PTSpec.coupling]
  have e : ∀ p : ℝ × ℝ, PTSpec.pairs (fun q r => f ((q + r)/k) ((r - q)/k)) (fun q => norm*o.PL q + norm^2*o.P1 q) (fun q => norm*o.PL q + norm^2*o.P2 q) p =
      ((norm^2 * PTSpec.pairs (fun q r => f ((q + r)/k) ((r - q)/k)) o.PL o.PL p + norm^3 * PTSpec.pairs (fun q r => f ((q + r)/k) ((r - q)/k)) o.PL o.P2 p)
      + norm^3 * PTSpec.pairs (fun q r => f ((q + r)/k) ((r - q)/k)) o.P1 o.PL p) + norm^4 * PTSpec.pairs (fun q r => f ((q + r)/k) ((r - q)/k)) o.P1 o.P2 p := by
    intro p; simp only [PTSpec.pairs]; ring
  simp only [e]
  have i1 := hLL.integrable.const_mul (norm^2)
  have i2 := hL2.integrable.const_mul (norm^3)
  have i3 := h1L.integrable.const_mul (norm^3)
  have i4 := h12.integrable.const_mul (norm^4)
  rw [integral_add4 i1 i2 i3 i4]
  simp only [integral_const_mul]
  ring

/-! ### Spectra with support in a box: the hypotheses hold, and the pair (3,2) -/

/-- a spectrum with power at wavenumbers from a to b -/
noncomputable def boxP (a b q : ℝ) : ℝ := if a ≤ q ∧ q ≤ b then 1 else 0

/-- the square of such pairs -/
def box (a b : ℝ) : Set (ℝ × ℝ) := Icc a b ×ˢ Icc a b

/-- the boxes used here: inside the triangles with a side 1 -/
def Inside (a b : ℝ) : Prop := 1 ≤ a ∧ a < b ∧ b ≤ 3 ∧ b - a ≤ 2/5

theorem box_subset {a b : ℝ} (hab : Inside a b) {Q : ℝ} (hQ : 10 ≤ Q) : box a b ⊆ PTSpec.triangle 1 Q := by
  obtain ⟨ha, hb, hb', hc⟩ := hab
  rintro ⟨q, r⟩ ⟨⟨h1, h2⟩, h3, h4⟩
  simp only at h1 h2 h3 h4
  refine ⟨?_, ?_, ?_, ?_⟩ <;> simp only <;> linarith

theorem pairs_off {a b : ℝ} {w : ℝ → ℝ → ℝ} {p : ℝ × ℝ} (hp : p ∉ box a b) : PTSpec.pairs w (boxP a b) (boxP a b) p = 0 := by
  have : boxP a b p.1 = 0 ∨ boxP a b p.2 = 0 := by
    by_contra h
    rw [not_or] at h
    apply hp
    constructor
    · by_contra h'; exact h.1 (if_neg h')
    · by_contra h'; exact h.2 (if_neg h')
  rcases this with h | h <;> simp [PTSpec.pairs, h]

theorem pairs_on {a b : ℝ} {w : ℝ → ℝ → ℝ} {p : ℝ × ℝ} (hp : p ∈ box a b) : PTSpec.pairs w (boxP a b) (boxP a b) p = p.1*p.2*w p.1 p.2 := by
  have h1 : boxP a b p.1 = 1 := if_pos hp.1
  have h2 : boxP a b p.2 = 1 := if_pos hp.2
  simp [PTSpec.pairs, h1, h2]

theorem measurable_box (a b : ℝ) : MeasurableSet (box a b) := measurableSet_Icc.prod measurableSet_Icc

theorem box_integrable {a b : ℝ} {w : ℝ → ℝ → ℝ} (hw : ContinuousOn (fun p : ℝ × ℝ => w p.1 p.2) (box a b)) (Q : ℝ) :
    IntegrableOn (PTSpec.pairs w (boxP a b) (boxP a b)) (PTSpec.triangle 1 Q) := by
  refine IntegrableOn.of_forall_diff_eq_zero ?_ (measurable_triangle 1 Q) (s := box a b) fun p hp => pairs_off hp.2
  refine IntegrableOn.congr_fun (f := fun p : ℝ × ℝ => p.1*p.2*w p.1 p.2) ?_ (fun p hp => (pairs_on hp).symm) (measurable_box a b)
  exact (((continuous_fst.mul continuous_snd).continuousOn).mul hw).integrableOn_compact (isCompact_Icc.prod isCompact_Icc)

theorem box_integral {a b : ℝ} (hab : Inside a b) (w : ℝ → ℝ → ℝ) {Q : ℝ} (hQ : 10 ≤ Q) :
    ∫ p in PTSpec.triangle 1 Q, PTSpec.pairs w (boxP a b) (boxP a b) p = ∫ p in box a b, p.1*p.2*w p.1 p.2 := by
  rw [setIntegral_eq_of_subset_of_forall_diff_eq_zero (measurable_triangle 1 Q) (box_subset hab hQ) fun p hp => pairs_off hp.2]
  exact setIntegral_congr_fun (measurable_box a b) fun p hp => pairs_on hp

theorem box_bounds {a b : ℝ} (hab : Inside a b) {p : ℝ × ℝ} (hp : p ∈ box a b) : 4*a^2 ≤ (p.1 + p.2)^2 ∧ (p.2 - p.1)^2 ≤ 4/25 := by
  obtain ⟨ha, hb, hb', hc⟩ := hab
  obtain ⟨⟨h1, h2⟩, h3, h4⟩ := hp
  constructor
  · have : 2*a ≤ p.1 + p.2 := by linarith
    nlinarith
  · have h5 : p.2 - p.1 ≤ 2/5 := by linarith
    have h6 : -(2/5) ≤ p.2 - p.1 := by linarith
    nlinarith

theorem box_continuous {a b : ℝ} (hab : Inside a b) (e : ℕ) {N : ℝ → ℝ → ℝ} (hN : Continuous fun p : ℝ × ℝ => N p.1 p.2) {f : ℝ → ℝ → ℝ}
    (hf : ∀ u v, f u v = N u v / (u*u - v*v)^e) : ContinuousOn (fun p : ℝ × ℝ => f ((p.1 + p.2)/1) ((p.2 - p.1)/1)) (box a b) := by
  simp only [hf, div_one]
  refine ContinuousOn.div (Continuous.continuousOn ?_) (Continuous.continuousOn (by fun_prop)) fun p hp => ?_
  · exact hN.comp (g := fun p : ℝ × ℝ => N p.1 p.2) (f := fun p : ℝ × ℝ => (p.1 + p.2, p.2 - p.1)) (by fun_prop)
  · obtain ⟨h1, h2⟩ := box_bounds hab hp
    have ha := hab.1
    have : 0 < (p.1 + p.2)*(p.1 + p.2) - (p.2 - p.1)*(p.2 - p.1) := by nlinarith
    positivity

/-- The integral of a positive kernel over a box is positive. -/
theorem box_pos {a b : ℝ} (hab : Inside a b) {w : ℝ → ℝ → ℝ} (hw : ContinuousOn (fun p : ℝ × ℝ => w p.1 p.2) (box a b)) (hp : ∀ p ∈ box a b, 0 < w p.1 p.2) {Q : ℝ}
    (hQ : 10 ≤ Q) : 0 < PTSpec.coupling w (boxP a b) (boxP a b) 1 Q := by
  have hpos : ∀ p ∈ box a b, 0 < p.1*p.2*w p.1 p.2 := fun p h => by
    have h1 : 0 < p.1 := by linarith [hab.1, h.1.1]
    have h2 : 0 < p.2 := by linarith [hab.1, h.2.1]
    have := hp p h
    positivity
  rw [PTSpec.coupling, box_integral hab _ hQ]
  refine mul_pos (by have := Real.pi_pos; positivity) ?_
  rw [setIntegral_pos_iff_support_of_nonneg_ae]
  · have : box a b ⊆ Function.support fun p : ℝ × ℝ => p.1*p.2*w p.1 p.2 := fun p h => (hpos p h).ne'
    rw [Set.inter_eq_self_of_subset_right this]
    simp only [box, Measure.volume_eq_prod, Measure.prod_prod, Real.volume_Icc]
    have : 0 < b - a := by linarith [hab.2.1]
    simpa using this
  · rw [Filter.EventuallyLE, ae_restrict_iff' (measurable_box _ _)]
    exact Filter.Eventually.of_forall fun p h => (hpos p h).le
  · exact (((continuous_fst.mul continuous_snd).continuousOn).mul hw).integrableOn_compact (isCompact_Icc.prod isCompact_Icc)

theorem coupling_sub {w w' : ℝ → ℝ → ℝ} {P P' : ℝ → ℝ} {k Q : ℝ} (h : IntegrableOn (PTSpec.pairs w P P') (PTSpec.triangle k Q))
    (h' : IntegrableOn (PTSpec.pairs w' P P') (PTSpec.triangle k Q)) :
    PTSpec.coupling (fun q r => w q r - w' q r) P P' k Q = PTSpec.coupling w P P' k Q - PTSpec.coupling w' P P' k Q := by
  simp only [PTSpec.coupling]
  rw [← mul_sub, ← integral_sub h h']
  congr 2; funext p
  simp only [PTSpec.pairs]; ring

theorem f23_form (u v : ℝ) : f23 u v = (48*(-1 + u*u)^2*(-1 + v*v)^2) / (u*u - v*v)^4 := rfl
theorem f32_form (u v : ℝ) : f32 u v = (-(16*(-1 + u*u)*(-1 + v*v)*(-1 - 3*(v*v) + 3*(u*u)*(-1 + 5*(v*v))))) / (u*u - v*v)^4 := by
  simp only [f32, neg_div]

theorem inside1 : Inside 1 (7/5) := by norm_num [Inside]

theorem cont23 : ContinuousOn (fun p : ℝ × ℝ => f23 ((p.1 + p.2)/1) ((p.2 - p.1)/1)) (box 1 (7/5)) :=
  box_continuous inside1 4 (N := fun u v => 48*(-1 + u*u)^2*(-1 + v*v)^2) (by fun_prop) f23_form
theorem cont32 : ContinuousOn (fun p : ℝ × ℝ => f32 ((p.1 + p.2)/1) ((p.2 - p.1)/1)) (box 1 (7/5)) :=
  box_continuous inside1 4 (N := fun u v => -(16*(-1 + u*u)*(-1 + v*v)*(-1 - 3*(v*v) + 3*(u*u)*(-1 + 5*(v*v))))) (by fun_prop) f32_form

/-- The hypotheses of `C94_imn_coupling`, `C94_oneCompute_coupling` and `C94_two_loop_split` hold for a spectrum with power, and the integral is not zero. -/
theorem hypotheses_hold : IntegrableOn (PTSpec.pairs (fun q r => f23 ((q + r)/1) ((r - q)/1)) (boxP 1 (7/5)) (boxP 1 (7/5))) (PTSpec.triangle 1 10) ∧
    IntegrableOn (PTSpec.pairs (fun q r => f23 ((q + r)/1) ((r - q)/1)) (boxP 1 (7/5)) (boxP 1 (7/5))) (PTSpec.triangle 1 100000) ∧
    0 < PTSpec.coupling (fun q r => f23 ((q + r)/1) ((r - q)/1)) (boxP 1 (7/5)) (boxP 1 (7/5)) 1 100000 := by
  refine ⟨box_integrable cont23 10, box_integrable cont23 100000, box_pos inside1 cont23 (fun p hp => ?_) (by norm_num)⟩
  obtain ⟨h1, h2⟩ := box_bounds inside1 hp
  rw [f23_form, div_one, div_one]
  have hd : 0 < (p.1 + p.2)*(p.1 + p.2) - (p.2 - p.1)*(p.2 - p.1) := by nlinarith
  have h3 : 0 < -1 + (p.1 + p.2)*(p.1 + p.2) := by nlinarith
  have h4 : 0 < (-1 + (p.2 - p.1)*(p.2 - p.1))^2 := by
    have : -1 + (p.2 - p.1)*(p.2 - p.1) ≠ 0 := by nlinarith
    positivity
  positivity

theorem f23_gt {p : ℝ × ℝ} (hp : p ∈ box 1 (7/5)) : 0 < f23 ((p.1 + p.2)/1) ((p.2 - p.1)/1) - f32 ((p.1 + p.2)/1) ((p.2 - p.1)/1) := by
  obtain ⟨h1, h2⟩ := box_bounds inside1 hp
  rw [f23_form, f32_form, div_one, div_one, ← sub_div]
  have hd : 0 < (p.1 + p.2)*(p.1 + p.2) - (p.2 - p.1)*(p.2 - p.1) := by nlinarith
  refine div_pos ?_ (by positivity)
  set a := (p.1 + p.2)^2 with ha
  set b := (p.2 - p.1)^2 with hb
  have ha' : (p.1 + p.2)*(p.1 + p.2) = a := by rw [ha]; ring
  have hb' : (p.2 - p.1)*(p.2 - p.1) = b := by rw [hb]; ring
  have hb0 : 0 ≤ b := sq_nonneg _
  rw [ha', hb']
  have e : 48*(-1 + a)^2*(-1 + b)^2 - -(16*(-1 + a)*(-1 + b)*(-1 - 3*b + 3*a*(-1 + 5*b))) = 32*((a - 1)*(1 - b)*((3*a - 1)*(1 - 3*b))) := by ring
  rw [e]
  have p1 : 0 < a - 1 := by linarith
  have p2 : 0 < 1 - b := by linarith
  have p3 : 0 < 3*a - 1 := by linarith
  have p4 : 0 < 1 - 3*b := by linarith
  positivity

/-- `C94_two_loop_split` does not extend to the pair (3,2) that `I32` of the two-loop model uses: the linear part is not the integral with the kernel of the cross part, `f32`, which is
also the kernel of `Imn(k, 3, 2)`. -/
theorem C94_two_loop_32_counterexample : ∃ P : ℝ → ℝ, ∃ f : ℝ → ℝ → ℝ, crossKernel 3 2 = some f ∧ imnKernel 3 2 = some (f, true) ∧
    IntegrableOn (PTSpec.pairs (fun q r => f ((q + r)/1) ((r - q)/1)) P P) (PTSpec.triangle 1 10) ∧
    (OneLoop.mk1 P fun _ => 0).linear Num.exact 1 3 2 ≠ some (PTSpec.coupling (fun q r => f ((q + r)/1) ((r - q)/1)) P P 1 10) := by
  refine ⟨boxP 1 (7/5), f32, rfl, rfl, box_integrable cont32 10, ?_⟩
  have hl : (OneLoop.mk1 (boxP 1 (7/5)) fun _ => 0).linear Num.exact 1 3 2 =
      some (PTSpec.coupling (fun q r => f23 ((q + r)/1) ((r - q)/1)) (boxP 1 (7/5)) (boxP 1 (7/5)) 1 10) := by
    rw [← C94_oneCompute_coupling f23 one_pos (by norm_num) (box_integrable cont23 10)]; rfl
  rw [hl]
  intro h
  rw [Option.some.injEq] at h
  have hs := coupling_sub (box_integrable (w := fun q r => f23 ((q + r)/1) ((r - q)/1)) cont23 10) (box_integrable (w := fun q r => f32 ((q + r)/1) ((r - q)/1)) cont32 10)
  rw [h, sub_self] at hs
  exact (box_pos inside1 (w := fun q r => f23 ((q + r)/1) ((r - q)/1) - f32 ((q + r)/1) ((r - q)/1)) (cont23.sub cont32) (fun p hp => f23_gt hp) le_rfl).ne' hs

end Verif.PT
