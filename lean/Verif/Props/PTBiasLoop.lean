/-
C106: to second order in the linear spectrum, the spectra of matter and of biased tracers are those of one-loop standard perturbation theory in redshift space.
-/
import Verif.Lemmas.PTOrder
import Verif.Lemmas.SPTBiasLoop

namespace Verif.PT

open Verif.SPT Verif.PTSpec MeasureTheory Set Filter Topology

/-! ### The integrals, with exact quadrature -/

/-- a band below `Q` is inside the triangles of both programs -/
theorem coupling_cut {a b k Q Q' : ℝ} {P : ℝ → ℝ} (h : Band a b P) (hQ : b ≤ Q) (hQQ : Q ≤ Q') (w : ℝ → ℝ → ℝ) : coupling w P P k Q = coupling w P P k Q' := by
  unfold coupling
  congr 1
  symm
  refine setIntegral_eq_of_subset_of_forall_diff_eq_zero (measurable_triangle k Q') (fun p hp => ?_) (fun p hp => ?_)
  · obtain ⟨h1, h2, h3, h4⟩ := hp
    exact ⟨h1, h2.trans (by linarith), h3, h4⟩
  · obtain ⟨⟨h1, h2, h3, h4⟩, hn⟩ := hp
    by_contra h0
    have e1 : P p.1 ≠ 0 := fun e => h0 (by simp [pairs, e])
    have e2 : P p.2 ≠ 0 := fun e => h0 (by simp [pairs, e])
    exact hn ⟨h1, by have := (h.supp _ e1).2; have := (h.supp _ e2).2; linarith, h3, h4⟩

section
variable {m : Dm} {a b k : ℝ} (h : Band a b m.lin.P) (ha : 1/100000 < a) (hk : 0 < k)
include h ha hk

theorem unit_i (hQ : k ≤ 200000) {i j : ℕ} {w : ℝ → ℝ → ℝ} {s : Bool} (hw : imnKernel i j = some (w, s)) : m.i1 Num.exact k i j = L m.lin.P k w := by
  have ha0 : 0 < a := lt_trans (by norm_num) ha
  have hi := band_pairs h (w := fun q r => w ((q + r)/k) ((r - q)/k)) (imn_cts hk ha0 hw).1 _ (measurable_triangle k 100000)
  have e : m.i1 Num.exact k i j = (imn Num.exact m.lin.P k i j).getD 0 := rfl
  rw [e, C94_imn_coupling hw hk (by linarith) hi, Option.getD_some]; rfl

theorem unit_k (hQ : k ≤ 200000) {i j p : ℕ} {w : ℝ → ℝ → ℝ} {t s : Bool} (hw : kmnKernel i j t p = some (w, s)) : m.k1 Num.exact k i j t p = L m.lin.P k w := by
  have ha0 : 0 < a := lt_trans (by norm_num) ha
  have hi := band_pairs h (w := fun q r => w ((q + r)/k) ((r - q)/k)) (kmn_cts hk ha0 hw).1 _ (measurable_triangle k 100000)
  have e : m.k1 Num.exact k i j t p = (kmn Num.exact m.lin.P k i j t p).getD 0 := rfl
  rw [e, C94_kmn_coupling hw hk (by linarith) hi, Option.getD_some]; rfl

theorem unit_l (hb : b ≤ 10) (hQ : k ≤ 20) {i j : ℕ} {w : ℝ → ℝ → ℝ} (hw : oneKernel i j = some w) (hc : Cts k a b w) : m.l1 Num.exact k i j = L m.lin.P k w := by
  have hi := band_pairs h (w := fun q r => w ((q + r)/k) ((r - q)/k)) hc _ (measurable_triangle k 10)
  have e : m.l1 Num.exact k i j = ((oneKernel i j).map fun f => oneCompute Num.exact f m.lin.P m.lin.P k).getD 0 := rfl
  rw [e, hw, Option.map_some, Option.getD_some, C94_oneCompute_coupling w hk (by linarith) hi, coupling_cut h hb (by norm_num : (10:ℝ) ≤ 100000)]; rfl

theorem unit_j (hb : b ≤ 100) (hbk : b < 60*k) {i j : ℕ} {g gx : ℝ → ℝ} (hj : jmnKernel i j = some g) (hg : ∀ r < 60, g r = gx r) :
    m.j1 Num.exact k i j = 1/(2*Real.pi^2) * ∫ q in Icc a b, m.lin.P q * gx (q/k) := by
  have e : m.j1 Num.exact k i j = (jmn Num.exact m.lin.P k i j).getD 0 := rfl
  rw [e, jmn, hj, Option.map_some, Option.getD_some, jmn_band h ha hb hk hbk hg]

omit hk in
theorem unit_v (hb : b ≤ 100) : m.v1 Num.exact = 1/(6*Real.pi^2) * ∫ q in Icc a b, m.lin.P q := by
  have e1 : ∫ q in (1/100000:ℝ)..100, m.lin.P q = ∫ q in Icc a b, m.lin.P q := by
    rw [intervalIntegral.integral_of_le (by norm_num)]
    have := band_integral h (g := fun _ => 1) (s := Ioc (1/100000) 100) measurableSet_Ioc fun q hq => ⟨ha.trans_le hq.1, hq.2.trans hb⟩
    simpa using this
  have e2 : velocityDispersion Num.exact m.lin.P = 1/(6*Real.pi*Real.pi) * ∫ q in Icc a b, m.lin.P q := by rw [← e1]; rfl
  have hv : 0 ≤ velocityDispersion Num.exact m.lin.P := by
    rw [e2]; exact mul_nonneg (by have := Real.pi_pos; positivity) (integral_nonneg h.nonneg)
  rw [Dm.v1, Real.sq_sqrt hv, e2, mul_assoc 6, show Real.pi*Real.pi = Real.pi^2 by ring]

omit h in
theorem h_cts : Cts k a b h01 ∧ Cts k a b h02 ∧ Cts k a b h03 ∧ Cts k a b h04 ∧ Cts k a b f23 ∧ Cts k a b f31 ∧ Cts k a b f13 := by
  have ha0 : 0 < a := lt_trans (by norm_num) ha
  refine ⟨?_, ?_, ?_, ?_, (imn_cts hk ha0 (m := 2) (n := 3) rfl).1, (imn_cts hk ha0 (m := 3) (n := 1) rfl).1, (imn_cts hk ha0 (m := 1) (n := 3) rfl).1⟩
  · simp only [Cts, h01]
    exact (ContinuousOn.div (by fun_prop) (by fun_prop) fun p hp => pow_ne_zero _ (box_ne hk ha0 hp).1).neg
  · simp only [Cts, h02]
    exact ContinuousOn.div (by fun_prop) (by fun_prop) fun p hp => pow_ne_zero _ (box_ne hk ha0 hp).1
  · exact (kmn_cts hk ha0 (m := 2) (n := 0) (tid := false) (p := 0) rfl).1
  · exact (kmn_cts hk ha0 (m := 2) (n := 0) (tid := false) (p := 1) rfl).1

omit ha in
theorem L_sum {v w x : ℝ → ℝ → ℝ} (hv : Cts k a b v) (hw : Cts k a b w) (e : ∀ u z, u - z ≠ 0 → u + z ≠ 0 → x u z = v u z + w u z) : L m.lin.P k v + L m.lin.P k w = L m.lin.P k x := by
  obtain ⟨l, hl⟩ : ∃ l : List (ℝ × (ℝ → ℝ → ℝ)), l = [(1, v), (1, w)] := ⟨_, rfl⟩
  have h1 : L m.lin.P k (comb l) = L m.lin.P k x := by
    unfold L
    refine coupling_congr fun q r hq hr => ?_
    rw [hl, e]
    · simp only [comb, List.map_cons, List.map_nil, List.sum_cons, List.sum_nil]; ring
    · rw [show (q + r)/k - (r - q)/k = 2*q/k by ring]; positivity
    · rw [show (q + r)/k + (r - q)/k = 2*r/k by ring]; positivity
  rw [← h1, L_comb h l, hl]
  · simp
  · rw [hl]; simpa using ⟨hv, hw⟩

theorem unit_c (hb : b ≤ 10) (hQ : k ≤ 10) : m.l1 Num.exact k 0 1 + m.l1 Num.exact k 0 3 = L m.lin.P k f31 ∧ m.l1 Num.exact k 0 2 + m.l1 Num.exact k 0 4 = L m.lin.P k f13 ∧
    m.c31 Num.exact k = L m.lin.P k f31 ∧ m.c13 Num.exact k = L m.lin.P k f13 ∧ m.c23 Num.exact k = L m.lin.P k f23 ∧
    m.c32 Num.exact k = L m.lin.P k (if m.include_2loop then f23 else f32) := by
  obtain ⟨c1, c2, c3, c4, c23, -, -⟩ := h_cts (b := b) ha hk
  have l1 := unit_l h ha hk hb (by linarith) (i := 0) (j := 1) rfl c1
  have l2 := unit_l h ha hk hb (by linarith) (i := 0) (j := 2) rfl c2
  have l3 := unit_l h ha hk hb (by linarith) (i := 0) (j := 3) rfl c3
  have l4 := unit_l h ha hk hb (by linarith) (i := 0) (j := 4) rfl c4
  have l23 := unit_l h ha hk hb (by linarith) (i := 2) (j := 3) rfl c23
  have l32 := unit_l h ha hk hb (by linarith) (i := 3) (j := 2) rfl c23
  have s31 := L_sum h hk c1 c3 (x := f31) fun u z e1 e2 => (C93_product_kernels u z e1 e2).2.2.2.2.2.2.2.2.2.1
  have s13 := L_sum h hk c2 c4 (x := f13) fun u z e1 e2 => (C93_product_kernels u z e1 e2).2.2.2.2.2.2.2.2.2.2
  have i31 := unit_i h ha hk (by linarith) (i := 3) (j := 1) rfl
  have i13 := unit_i h ha hk (by linarith) (i := 1) (j := 3) rfl
  have i23 := unit_i h ha hk (by linarith) (i := 2) (j := 3) rfl
  have i32 := unit_i h ha hk (by linarith) (i := 3) (j := 2) rfl
  have a31 : m.l1 Num.exact k 0 1 + m.l1 Num.exact k 0 3 = L m.lin.P k f31 := by rw [l1, l3, s31]
  have a13 : m.l1 Num.exact k 0 2 + m.l1 Num.exact k 0 4 = L m.lin.P k f13 := by rw [l2, l4, s13]
  refine ⟨a31, a13, ?_, ?_, ?_, ?_⟩
  · rw [Dm.c31, a31, i31, ite_self]
  · rw [Dm.c13, a13, i13, ite_self]
  · rw [Dm.c23, l23, i23, ite_self]
  · rw [Dm.c32, l32, i32]; split <;> rfl

omit h ha in
theorem unit_spectra (hk1 : 1/100000 ≤ k) (hk' : k ≤ 10) :
    m.Pdd0 Num.exact k = 2*m.i1 Num.exact k 0 0 + 6*k^2*m.j1 Num.exact k 0 0*m.lin.P k ∧
    m.Pdv0 Num.exact k = 2*m.i1 Num.exact k 0 1 + 6*k^2*m.j1 Num.exact k 0 1*m.lin.P k ∧
    m.Pvv0 Num.exact k = 2*m.i1 Num.exact k 1 1 + 6*k^2*m.j1 Num.exact k 1 1*m.lin.P k := by
  have hr : ¬(k < 1/100000 ∨ k > 10) := by rw [not_or]; exact ⟨not_lt.2 hk1, not_lt.2 hk'⟩
  have e (i j : ℕ) : oneLoopEval Num.exact (oneLoopTable Num.exact m.lin.P i j) k = 2*m.i1 Num.exact k i j + 6*k^2*m.j1 Num.exact k i j*m.lin.P k := by
    rw [oneLoopEval, if_neg hr, pow_two, ← mul_assoc]; rfl
  exact ⟨e 0 0, e 0 1, e 1 1⟩

/-- mass conservation, in terms of the integrals -/
theorem unit_mass (hb : b ≤ 10) (hk' : k ≤ 10) : L m.lin.P k f01 + L m.lin.P k f10 = 2 * L m.lin.P k f00 ∧
    (∫ q in Icc a b, m.lin.P q * g11x (q/k)) + 2*(∫ q in Icc a b, m.lin.P q * g10x (q/k)) = 3*(∫ q in Icc a b, m.lin.P q * g00x (q/k)) ∧
    2*(∫ q in Icc a b, m.lin.P q * g01x (q/k)) = (∫ q in Icc a b, m.lin.P q * g00x (q/k)) + ∫ q in Icc a b, m.lin.P q * g11x (q/k) := by
  have ha0 : 0 < a := lt_trans (by norm_num) ha
  obtain ⟨c00, c01, c02, c10, c11, c20⟩ := gx_cont (b := b) hk ha0
  refine ⟨?_, ?_, ?_⟩
  · obtain ⟨m1, hm1⟩ : ∃ m1 : Dm, m1 = { m with sigma8_z := 1, lin := { m.lin with s8 := 1 } } := ⟨_, rfl⟩
    have e : (fun q => m1.plin q) = m.lin.P := by funext q; simp [hm1, Dm.plin, Dm.norm]
    have h1 : Band a b m1.lin.P := by rw [hm1]; exact h
    have hB : Band a b fun q => m1.plin q := by rw [e]; exact h
    have := L_mass h1 hk hB ha0 (by linarith)
    rwa [e] at this
  · rw [← integral_const_mul, ← integral_const_mul, ← integral_add (band_mul h c11).integrable ((band_mul h c10).integrable.const_mul 2)]
    refine setIntegral_congr_fun measurableSet_Icc fun q hq => ?_
    have hq0 : 0 < q := lt_of_lt_of_le ha0 hq.1
    have := g10x_eq (div_pos hq0 hk).ne'
    linear_combination -m.lin.P q * this
  · rw [← integral_const_mul, ← integral_add (band_mul h c00).integrable (band_mul h c11).integrable]
    refine setIntegral_congr_fun measurableSet_Icc fun q hq => ?_
    have hq0 : 0 < q := lt_of_lt_of_le ha0 hq.1
    have := g01x_eq (div_pos hq0 hk).ne'
    linear_combination 2*m.lin.P q * this
end

/-! ### The spectra to second order -/

section
variable {N : Num} {m : Dm} (hm : Pert m) (k : ℝ)
include hm

theorem two_dm {grid : Set ℝ} (hN : Nodes N grid) (hk : k ∈ grid) :
    Two m.lin.s8 (m.lin.P k) (2*m.i1 N k 0 0 + 6*k^2*m.j1 N k 0 0*m.lin.P k) (fun s => (m.at8 s).P_mu0 N k) ∧
    Two m.lin.s8 (2*m.f*m.lin.P k) (2*m.f*(4*(m.i1 N k 0 0 + 3*k^2*m.j1 N k 0 0*m.lin.P k)) + m.f^2*m.c31 N k +
      (m.f^2*(m.i1 N k 0 2 + 2*k^2*m.j1 N k 0 2*m.lin.P k) - (m.f*k)^2*m.v1 N*m.lin.P k)) (fun s => (m.at8 s).P_mu2 N k) ∧
    Two m.lin.s8 (m.f^2*m.lin.P k) (m.f^2*(2*m.i1 N k 1 1 + 4*m.i1 N k 2 2 + 6*k^2*(m.j1 N k 1 1 + 2*m.j1 N k 1 0)*m.lin.P k + m.c13 N k) +
      m.f^2*(m.i1 N k 2 0 + 2*k^2*m.j1 N k 2 0*m.lin.P k) + (m.f^3*(m.i1 N k 1 2 - m.i1 N k 0 3 + 2*k^2*m.j1 N k 0 2*m.lin.P k) - m.f*(m.f*k)^2*m.v1 N*m.lin.P k) +
      1/16*m.f^4*m.c23 N k - m.f*(m.f*k)^2*m.v1 N*m.lin.P k) (fun s => (m.at8 s).P_mu4 N k) ∧
    (m.include_2loop = true → Two m.lin.s8 0 (m.f^3*(m.i1 N k 2 1 - m.i1 N k 3 0 + 2*k^2*m.j1 N k 2 0*m.lin.P k) + 1/8*m.f^4*m.c32 N k - (m.f*k)^2*m.v1 N*(m.f^2*m.lin.P k))
      (fun s => ((m.at8 s).P_mu6 N k).getD 0)) := by
  refine ⟨?_, ?_, ?_, fun hl => ?_⟩
  · refine (two_P00 (N := N) hm k).congr rfl rfl fun s _ => ?_
    simp only [Dm.P_mu0, hN.node _ k hk]
  · refine (((two_P01 (N := N) hm k).add (two_P11mu2 (N := N) hm k)).add (two_P02 (N := N) hm k)).congr (by ring) (by ring) fun s _ => ?_
    simp only [Dm.P_mu2, hN.node _ k hk]
  · refine ((((((two_P11mu4 (N := N) hm k).add (two_P02mu4 (N := N) k)).add (two_P12 (N := N) hm k)).add (two_P22 (N := N) hm k)).add (two_P03 (N := N) hm k)).add
      ((two_P13 (N := N) hm k).add (two_P04 (N := N) hm k))).congr (by ring) (by ring) fun s _ => ?_
    simp only [Dm.P_mu4, hN.node _ k hk]
    cases hl : m.include_2loop
    · have e : (m.at8 s).include_2loop = false := hl
      have e1 : (m.at8 s).P13_mu4 N k = 0 := by simp [Dm.P13_mu4, e]
      have e2 : (m.at8 s).P04_mu4 N k = 0 := by simp [Dm.P04_mu4, e]
      simp only [e, e1, e2, Bool.false_eq_true, if_false]; ring
    · have e : (m.at8 s).include_2loop = true := hl
      simp only [e, if_true]
  · refine ((((two_P12mu6 (N := N) k).add (two_P22mu6 (N := N) hm k)).add (two_P13mu6 (N := N) hm k hl)).add (two_P04mu6 (N := N) hm k)).congr (by ring) (by ring) fun s _ => ?_
    have e : (m.at8 s).include_2loop = true := hl
    simp only [Dm.P_mu6, e, if_true, Option.getD_some, hN.node _ k hk]

end

section
variable {m : Dm} {a b k : ℝ} (h : Band a b m.lin.P) (ha : 1/100000 < a) (hb : b ≤ 10) (hk : 0 < k) (hk' : k ≤ 10) (hbk : b < 60*k)
include h ha hb hk hk' hbk

/-- the spectra of the specification in terms of the integrals of the code -/
theorem spec_Q {f μ : ℝ} (hμ : μ^2 ≤ 1) (t t' : Tracer) : Q13 t t' f μ m.lin.P k =
    3*(t.b + f*μ^2)*m.lin.P k*(k^2*(t'.b*m.j1 Num.exact k 0 0 + f*μ^2*(m.j1 Num.exact k 1 1 + 2*(t'.b*m.j1 Num.exact k 1 0)) +
      f^2*μ^2/3*(m.j1 Num.exact k 0 2 + μ^2*m.j1 Num.exact k 2 0) - f^2*μ^2*(t'.b + f*μ^2)/6*m.v1 Num.exact)) +
    3*(t'.b + f*μ^2)*m.lin.P k*(k^2*(t.b*m.j1 Num.exact k 0 0 + f*μ^2*(m.j1 Num.exact k 1 1 + 2*(t.b*m.j1 Num.exact k 1 0)) +
      f^2*μ^2/3*(m.j1 Num.exact k 0 2 + μ^2*m.j1 Num.exact k 2 0) - f^2*μ^2*(t.b + f*μ^2)/6*m.v1 Num.exact)) := by
  have hb' : b ≤ 100 := by linarith
  rw [Q13, Y1_frame hk, Y1_frame hk, spec_Y3 h ha hk hμ, spec_Y3 h ha hk hμ, unit_v h ha hb',
    unit_j h ha hk hb' hbk (i := 0) (j := 0) rfl (fun r hr => show g00 r = g00x r from if_pos hr),
    unit_j h ha hk hb' hbk (i := 0) (j := 2) rfl (fun r hr => show g02 r = g02x r from if_pos hr),
    unit_j h ha hk hb' hbk (i := 1) (j := 0) rfl (fun r hr => show g10 r = g10x r from if_pos hr),
    unit_j h ha hk hb' hbk (i := 1) (j := 1) rfl (fun r hr => show g11 r = g11x r from if_pos hr),
    unit_j h ha hk hb' hbk (i := 2) (j := 0) rfl (fun r hr => show g20 r = g20x r from if_pos hr)]

/-- mass conservation for the integrals of the code -/
theorem unit_mass' : m.i1 Num.exact k 0 1 + m.i1 Num.exact k 1 0 = 2 * m.i1 Num.exact k 0 0 ∧
    m.j1 Num.exact k 1 1 + 2*m.j1 Num.exact k 1 0 = 3*m.j1 Num.exact k 0 0 ∧ 2*m.j1 Num.exact k 0 1 = m.j1 Num.exact k 0 0 + m.j1 Num.exact k 1 1 := by
  have hb' : b ≤ 100 := by linarith
  obtain ⟨h1, h2, h3⟩ := unit_mass h ha hk hb hk'
  rw [unit_j h ha hk hb' hbk (i := 0) (j := 0) rfl (fun r hr => show g00 r = g00x r from if_pos hr),
    unit_j h ha hk hb' hbk (i := 0) (j := 1) rfl (fun r hr => show g01 r = g01x r from if_pos hr),
    unit_j h ha hk hb' hbk (i := 1) (j := 0) rfl (fun r hr => show g10 r = g10x r from if_pos hr),
    unit_j h ha hk hb' hbk (i := 1) (j := 1) rfl (fun r hr => show g11 r = g11x r from if_pos hr),
    unit_i h ha hk (by linarith) (i := 0) (j := 0) rfl, unit_i h ha hk (by linarith) (i := 0) (j := 1) rfl, unit_i h ha hk (by linarith) (i := 1) (j := 0) rfl]
  exact ⟨h1, by linear_combination 1/(2*Real.pi^2)*h2, by linear_combination 1/(2*Real.pi^2)*h3⟩

omit h ha hb hk hk' hbk in
/-- `Two` in terms of the normalisation of the model -/
theorem Two.lim {A B : ℝ} {F : ℝ → ℝ} (h8 : m.lin.s8 ≠ 0) (h : Two m.lin.s8 A B F) : Tendsto (fun s => (F s - (m.at8 s).norm*A)/(m.at8 s).norm^2) (𝓝[>] 0) (𝓝 B) := by
  have e : ∀ s, (m.at8 s).norm = (s/m.lin.s8)^2 := fun s => rfl
  simp only [e]; exact h.tendsto h8

/-- **Dark matter, with or without two-loop terms.**  One-loop perturbation theory is a polynomial in `μ²`; `P_mu0`, `P_mu2` and `P_mu4` have its coefficients at second order in the
linear spectrum.  `P_mu6`, which needs the two-loop terms, has a different one: of the kernel `f23` in place of `f32`. -/
theorem C106_dark_matter_partial (hm : Pert m) : ∃ c0 c2 c4 c6 c8 : ℝ,
    (∀ μ : ℝ, μ^2 ≤ 1 → SPT.P13 m.f μ m.lin.P k + SPT.P22 m.f μ m.lin.P k = c0 + c2*μ^2 + c4*μ^4 + c6*μ^6 + c8*μ^8) ∧
    Tendsto (fun s => ((m.at8 s).P_mu0 Num.exact k - (m.at8 s).norm * m.lin.P k) / (m.at8 s).norm^2) (𝓝[>] 0) (𝓝 c0) ∧
    Tendsto (fun s => ((m.at8 s).P_mu2 Num.exact k - (m.at8 s).norm * (2*m.f*m.lin.P k)) / (m.at8 s).norm^2) (𝓝[>] 0) (𝓝 c2) ∧
    Tendsto (fun s => ((m.at8 s).P_mu4 Num.exact k - (m.at8 s).norm * (m.f^2*m.lin.P k)) / (m.at8 s).norm^2) (𝓝[>] 0) (𝓝 c4) ∧
    (m.include_2loop = true → Tendsto (fun s => ((m.at8 s).P_mu6 Num.exact k).getD 0 / (m.at8 s).norm^2) (𝓝[>] 0)
      (𝓝 (c6 + m.f^4/8*(coupling (fun q r => f23 ((q + r)/k) ((r - q)/k)) m.lin.P m.lin.P k 100000 - coupling (fun q r => f32 ((q + r)/k) ((r - q)/k)) m.lin.P m.lin.P k 100000)))) := by
  have h8 := hm.s8.ne'
  obtain ⟨t0, t2, t4, t6⟩ := two_dm (N := Num.exact) hm k nodes_exact (Set.mem_univ k)
  obtain ⟨-, -, u31, u13, u23, u32⟩ := unit_c h ha hk hb hk'
  have hI : ∀ {i j w s}, imnKernel i j = some (w, s) → m.i1 Num.exact k i j = L m.lin.P k w := fun hw => unit_i h ha hk (by linarith) hw
  obtain ⟨m1, m2, m3⟩ := unit_mass' h ha hb hk hk' hbk
  refine ⟨_, _, _, m.f^3*(m.i1 Num.exact k 2 1 - m.i1 Num.exact k 3 0 + 2*k^2*m.j1 Num.exact k 2 0*m.lin.P k) + 1/8*m.f^4*m.i1 Num.exact k 3 2 - (m.f*k)^2*m.v1 Num.exact*(m.f^2*m.lin.P k),
    m.f^4/16*m.i1 Num.exact k 3 3, fun μ hμ => ?_, t0.lim h8, t2.lim h8, t4.lim h8, fun hl => ?_⟩
  · obtain ⟨-, e2, e3⟩ := SPT.unbiased m.f μ m.lin.P k
    rw [← e2, ← e3, spec_Q h ha hb hk hk' hbk hμ, spec_Q22 h ha (by linarith) hk hμ _ _ (by linarith), u31, u13, u23]
    rw [← hI (i := 0) (j := 0) rfl, ← hI (i := 0) (j := 1) rfl, ← hI (i := 0) (j := 2) rfl, ← hI (i := 0) (j := 3) rfl, ← hI (i := 1) (j := 0) rfl, ← hI (i := 1) (j := 1) rfl,
      ← hI (i := 1) (j := 2) rfl, ← hI (i := 2) (j := 0) rfl, ← hI (i := 2) (j := 1) rfl, ← hI (i := 2) (j := 2) rfl, ← hI (i := 3) (j := 0) rfl, ← hI (i := 3) (j := 2) rfl,
      ← hI (i := 3) (j := 3) rfl]
    dsimp only
    linear_combination 4*m.f*μ^2*m1 + 6*m.f*μ^2*k^2*m.lin.P k*m2
  · have := (t6 hl).lim h8
    simp only [mul_zero, sub_zero] at this
    have e : m.f^3*(m.i1 Num.exact k 2 1 - m.i1 Num.exact k 3 0 + 2*k^2*m.j1 Num.exact k 2 0*m.lin.P k) + 1/8*m.f^4*m.c32 Num.exact k - (m.f*k)^2*m.v1 Num.exact*(m.f^2*m.lin.P k) =
      m.f^3*(m.i1 Num.exact k 2 1 - m.i1 Num.exact k 3 0 + 2*k^2*m.j1 Num.exact k 2 0*m.lin.P k) + 1/8*m.f^4*m.i1 Num.exact k 3 2 - (m.f*k)^2*m.v1 Num.exact*(m.f^2*m.lin.P k) +
        m.f^4/8*(L m.lin.P k f23 - L m.lin.P k f32) := by
      rw [u32, hI (i := 3) (j := 2) rfl, hl, if_pos rfl]; ring
    rw [e] at this
    exact this

end

/-! ### Tracers -/

theorem two_biased {N : Num} {k : ℝ} (m : Biased) (hm : Pert m.toDm) {grid : Set ℝ} (hN : Nodes N grid) (hk : k ∈ grid) (hPhm : m.use_Phm_model = false) (hv : m.vel_disp_from_sims = false)
    (hc : m.correct_mu2 = false ∧ m.correct_mu4 = false) (hP : m.lin.P k ≠ 0) :
    Two m.lin.s8 (m.ib1*m.ib1_bar*m.lin.P k) (m.ib1*m.ib1_bar*(2*m.i1 N k 0 0 + 6*k^2*m.j1 N k 0 0*m.lin.P k) +
      (m.ib1*m.b2_00_a m.ib1_bar + m.ib1_bar*m.b2_00_a m.ib1)*m.k1 N k 0 0 + (m.ib1*m.bs_bar + m.ib1_bar*m.bs)*m.k1 N k 0 0 true)
      (fun s => (m.at8 s).P_mu0 N k - (m.at8 s).stochasticity N k) ∧
    Two m.lin.s8 ((m.ib1 + m.ib1_bar)*m.f*m.lin.P k) (m.ib1*m.ib1_bar*(2*m.f*(4*(m.i1 N k 0 0 + 3*k^2*m.j1 N k 0 0*m.lin.P k))) +
        m.f*m.Pdv0 N k*(m.ib1*(1 - m.ib1_bar) + m.ib1_bar*(1 - m.ib1)) +
        m.f*((m.b2_01_a m.ib1 + m.b2_01_a m.ib1_bar)*m.k1 N k 1 0 + (m.bs + m.bs_bar)*m.k1 N k 1 0 true) +
        m.f*((m.ib1_bar*m.b2_01_a m.ib1 + m.ib1*m.b2_01_a m.ib1_bar)*m.k1 N k 1 1 + (m.ib1_bar*m.bs + m.ib1*m.bs_bar)*m.k1 N k 1 1 true) +
        m.ib1*m.ib1_bar*m.f^2*(m.l1 N k 0 1 + m.l1 N k 0 3) +
        ((1/2)*(m.ib1 + m.ib1_bar)*(m.f^2*(m.i1 N k 0 2 + 2*k^2*m.j1 N k 0 2*m.lin.P k)) - (m.f*k)^2*m.v1 N*(m.ib1*m.ib1_bar*m.lin.P k) +
          (1/2)*m.f^2*((m.b2_00_c m.ib1 + m.b2_00_c m.ib1_bar)*m.k1 N k 2 0 + (m.bs + m.bs_bar)*m.k1 N k 2 0 true)))
      (fun s => (m.at8 s).P_mu2 N k) ∧
    Two m.lin.s8 (m.f^2*m.lin.P k) ((1/2)*(m.ib1 + m.ib1_bar)*(m.f^2*(2*m.i1 N k 1 1 + 4*m.i1 N k 2 2 + 6*k^2*(m.j1 N k 1 1 + 2*m.j1 N k 1 0)*m.lin.P k + m.c13 N k)) -
        (1/2)*((m.ib1 - 1) + (m.ib1_bar - 1))*(m.f^2*m.Pvv0 N k) + m.f^2*(m.l1 N k 0 2 + m.l1 N k 0 4)*(m.ib1*m.ib1_bar - (1/2)*(m.ib1 + m.ib1_bar)) +
        ((1/2)*(m.ib1 + m.ib1_bar)*(m.f^2*(m.i1 N k 2 0 + 2*k^2*m.j1 N k 2 0*m.lin.P k)) +
          (1/2)*m.f^2*((m.b2_00_b m.ib1 + m.b2_00_b m.ib1_bar)*m.k1 N k 2 0 false 1 + (m.bs + m.bs_bar)*m.k1 N k 2 0 true 1)) +
        (m.f^3*(m.i1 N k 1 2 - m.i1 N k 0 3 + 2*k^2*m.j1 N k 0 2*m.lin.P k) - (1/2)*((m.ib1 - 1) + (m.ib1_bar - 1))*m.f^3*m.i1 N k 0 3 -
          (m.f*k)^2*m.v1 N*((m.ib1 + m.ib1_bar)*m.f*m.lin.P k)) + 1/16*m.f^4*m.c23 N k)
      (fun s => (m.at8 s).P_mu4 N k) ∧
    Two m.lin.s8 0 (m.f^3*(m.i1 N k 2 1 - (1/2)*(m.ib1 + m.ib1_bar)*m.i1 N k 3 0 + 2*k^2*m.j1 N k 2 0*m.lin.P k) + 1/8*m.f^4*m.i1 N k 3 2) (fun s => (m.at8 s).P_mu6 N k) := by
  have h8 := hm.s8.ne'
  obtain ⟨hdd, hdv, hvv⟩ := two_spectra hm k hN hk
  have h00 := two_P00 (N := N) hm k
  have hK (a b : ℕ) (t : Bool) (p : ℕ) := two_K (N := N) (m := m.toDm) k a b t p
  have hI (a b : ℕ) := two_I (N := N) (m := m.toDm) k a b
  have hsq := two_sq (N := N) hm
  have hp := two_plin (m := m.toDm) k
  have hsv : ∀ s, (m.at8 s).sv N = (m.toDm.at8 s).sigmaV N := fun s => by simp [Biased.sv, Biased.at8, hv]
  have hsv' : ∀ s, (m.at8 s).sv_bar N = (m.toDm.at8 s).sigmaV N := fun s => by simp [Biased.sv_bar, Biased.at8, hv]
  have hhm : Two m.lin.s8 (m.ib1 * m.lin.P k) (m.ib1*(2*m.i1 N k 0 0 + 6*k^2*m.j1 N k 0 0*m.lin.P k) + m.b2_00_a m.ib1*m.k1 N k 0 0 + m.bs*m.k1 N k 0 0 true)
      (fun s => (m.at8 s).Phm N k) := by
    refine (((h00.cmul m.ib1).add ((hK 0 0 false 0).cmul (m.b2_00_a m.ib1))).add ((hK 0 0 true 0).cmul m.bs)).congr (by ring) (by ring) fun s _ => ?_
    simp only [Biased.Phm, hN.node _ k hk, Biased.at8, hPhm, Bool.false_eq_true, if_false]; rfl
  have hhm' : Two m.lin.s8 (m.ib1_bar * m.lin.P k)
      (m.ib1_bar*(2*m.i1 N k 0 0 + 6*k^2*m.j1 N k 0 0*m.lin.P k) + m.b2_00_a m.ib1_bar*m.k1 N k 0 0 + m.bs_bar*m.k1 N k 0 0 true) (fun s => (m.at8 s).Phm_bar N k) := by
    refine (((h00.cmul m.ib1_bar).add ((hK 0 0 false 0).cmul (m.b2_00_a m.ib1_bar))).add ((hK 0 0 true 0).cmul m.bs_bar)).congr (by ring) (by ring) fun s _ => ?_
    simp only [Biased.Phm_bar, hN.node _ k hk, Biased.at8, hPhm, Bool.false_eq_true, if_false]; rfl
  have hns := hhm.quot h8 hhm' h00 hP
  have hhh (b2 : ℝ → ℝ) : ∃ B, Two m.lin.s8 (m.ib1*m.ib1_bar * m.lin.P k) B (fun s => (m.at8 s).Phh N k b2) :=
    ⟨_, (((h00.cmul (m.ib1*m.ib1_bar)).add ((hK 0 0 false 0).cmul (m.ib1 * b2 m.ib1_bar + m.ib1_bar * b2 m.ib1))).add
      ((hK 0 0 true 0).cmul (m.bs * b2 m.ib1_bar + m.bs_bar * b2 m.ib1))).congr (by ring) rfl fun s _ => rfl⟩
  have h01 (b2 : ℝ → ℝ) : Two m.lin.s8 ((m.ib1 + m.ib1_bar) * m.f * m.lin.P k) (m.ib1*m.ib1_bar*(2*m.f*(4*(m.i1 N k 0 0 + 3*k^2*m.j1 N k 0 0*m.lin.P k))) +
        m.f*m.Pdv0 N k*(m.ib1*(1 - m.ib1_bar) + m.ib1_bar*(1 - m.ib1)) +
        m.f*((b2 m.ib1 + b2 m.ib1_bar)*m.k1 N k 1 0 + (m.bs + m.bs_bar)*m.k1 N k 1 0 true) +
        m.f*((m.ib1_bar*b2 m.ib1 + m.ib1*b2 m.ib1_bar)*m.k1 N k 1 1 + (m.ib1_bar*m.bs + m.ib1*m.bs_bar)*m.k1 N k 1 1 true)) (fun s => (m.at8 s).P01_ss N k b2) := by
    refine (((((two_P01 (N := N) hm k).cmul (m.ib1*m.ib1_bar)).add (hdv.cmul (-(m.ib1*(1 - m.ib1_bar) + m.ib1_bar*(1 - m.ib1))))).add
      ((((hK 1 0 false 0).cmul (b2 m.ib1 + b2 m.ib1_bar)).add ((hK 1 0 true 0).cmul (m.bs + m.bs_bar))).cmul m.f)).add
      ((((hK 1 1 false 0).cmul (m.ib1_bar*b2 m.ib1 + m.ib1*b2 m.ib1_bar)).add ((hK 1 1 true 0).cmul (m.ib1_bar*m.bs + m.ib1*m.bs_bar))).cmul m.f)).congr (by ring) (by ring) fun s _ => ?_
    have e1 : (m.at8 s).ib1 = m.ib1 := rfl
    have e2 : (m.at8 s).ib1_bar = m.ib1_bar := rfl
    have e3 : (m.at8 s).bs = m.bs := rfl
    have e4 : (m.at8 s).bs_bar = m.bs_bar := rfl
    simp only [Biased.P01_ss, e1, e2, e3, e4]
    simp only [Biased.at8, Dm.at8]; ring
  have h112 : Two m.lin.s8 0 (m.ib1*m.ib1_bar*m.f^2*(m.l1 N k 0 1 + m.l1 N k 0 3)) (fun s => (m.at8 s).P11_ss_mu2 N k) := by
    refine (((two_two (N := N) k (m.vvdd N) rfl 0 1).add (two_two (N := N) k (m.dvdv N) rfl 0 3)).cmul ((m.ib1*m.ib1_bar)*m.f^2)).congr (by ring) rfl fun s _ => rfl
  have h114 : Two m.lin.s8 (m.f^2 * m.lin.P k) ((1/2)*(m.ib1 + m.ib1_bar)*(m.f^2*(2*m.i1 N k 1 1 + 4*m.i1 N k 2 2 + 6*k^2*(m.j1 N k 1 1 + 2*m.j1 N k 1 0)*m.lin.P k + m.c13 N k)) -
        (1/2)*((m.ib1 - 1) + (m.ib1_bar - 1))*(m.f^2*m.Pvv0 N k) + m.f^2*(m.l1 N k 0 2 + m.l1 N k 0 4)*(m.ib1*m.ib1_bar - (1/2)*(m.ib1 + m.ib1_bar)))
      (fun s => (m.at8 s).P11_ss_mu4 N k) := by
    refine ((((two_P11mu4 (N := N) hm k).cmul ((1/2)*(m.ib1 + m.ib1_bar))).add (hvv.cmul (-(1/2)*((m.ib1 - 1) + (m.ib1_bar - 1))))).add
      (((two_two (N := N) k (m.vvdd N) rfl 0 2).add (two_two (N := N) k (m.dvdv N) rfl 0 4)).cmul (m.f^2*(m.ib1*m.ib1_bar - (1/2)*(m.ib1 + m.ib1_bar))))).congr (by ring) (by ring)
      fun s _ => ?_
    have e1 : (m.at8 s).ib1 = m.ib1 := rfl
    have e2 : (m.at8 s).ib1_bar = m.ib1_bar := rfl
    simp only [Biased.P11_ss_mu4, e1, e2]
    simp only [Biased.at8, Dm.at8, Dm.vvdd, Dm.dvdv, Dm.Pvv0, Dm.Pdd0, Dm.Pdv0]; ring
  have h022 : Two m.lin.s8 0 ((1/2)*(m.ib1 + m.ib1_bar)*(m.f^2*(m.i1 N k 0 2 + 2*k^2*m.j1 N k 0 2*m.lin.P k)) - (m.f*k)^2*m.v1 N*(m.ib1*m.ib1_bar*m.lin.P k) +
          (1/2)*m.f^2*((m.b2_00_c m.ib1 + m.b2_00_c m.ib1_bar)*m.k1 N k 2 0 + (m.bs + m.bs_bar)*m.k1 N k 2 0 true)) (fun s => (m.at8 s).P02_ss_mu2 N k) := by
    obtain ⟨B, hB⟩ := hhh m.b2_00_c
    refine ((((two_P02nov (N := N) (m := m.toDm) k).cmul ((1/2)*(m.ib1 + m.ib1_bar))).add (((hsq.add hsq).mul hB).cmul (-(1/2)*(m.f*k)^2))).add
      ((((hK 2 0 false 0).cmul (m.b2_00_c m.ib1 + m.b2_00_c m.ib1_bar)).add ((hK 2 0 true 0).cmul (m.bs + m.bs_bar))).cmul ((1/2)*m.f^2))).congr (by ring) (by ring) fun s _ => ?_
    simp only [Biased.P02_ss_mu2, hsv, hsv']
    have e1 : (m.at8 s).ib1 = m.ib1 := rfl
    have e2 : (m.at8 s).ib1_bar = m.ib1_bar := rfl
    have e3 : (m.at8 s).bs = m.bs := rfl
    have e4 : (m.at8 s).bs_bar = m.bs_bar := rfl
    have e5 : (m.at8 s).f = m.f := rfl
    have e6 : (m.at8 s).b2_00_c = m.b2_00_c := rfl
    have e7 : (m.at8 s).toDm = m.toDm.at8 s := rfl
    rw [e1, e2, e3, e4, e5, e6, e7]; ring
  have h024 : Two m.lin.s8 0 ((1/2)*(m.ib1 + m.ib1_bar)*(m.f^2*(m.i1 N k 2 0 + 2*k^2*m.j1 N k 2 0*m.lin.P k)) +
          (1/2)*m.f^2*((m.b2_00_b m.ib1 + m.b2_00_b m.ib1_bar)*m.k1 N k 2 0 false 1 + (m.bs + m.bs_bar)*m.k1 N k 2 0 true 1)) (fun s => (m.at8 s).P02_ss_mu4 N k) := by
    refine (((two_P02mu4 (N := N) (m := m.toDm) k).cmul ((1/2)*(m.ib1 + m.ib1_bar))).add
      ((((hK 2 0 false 1).cmul (m.b2_00_b m.ib1 + m.b2_00_b m.ib1_bar)).add ((hK 2 0 true 1).cmul (m.bs + m.bs_bar))).cmul ((1/2)*m.f^2))).congr (by ring) (by ring) fun s _ => rfl
  have h12 : Two m.lin.s8 0 (m.f^3*(m.i1 N k 1 2 - m.i1 N k 0 3 + 2*k^2*m.j1 N k 0 2*m.lin.P k) - (1/2)*((m.ib1 - 1) + (m.ib1_bar - 1))*m.f^3*m.i1 N k 0 3 -
          (1/2)*(m.f*k)^2*m.v1 N*((m.ib1 + m.ib1_bar)*m.f*m.lin.P k)) (fun s => (m.at8 s).P12_ss_mu4 N k) := by
    refine (((two_P12nov (N := N) (m := m.toDm) k).sub (((hsq.add hsq).mul (two_P01 (N := N) hm k)).cmul ((1/2)*(m.f*k)^2*(1/2)))).add
      (((hI 0 3).cmul (-(1/2)*((m.ib1 - 1) + (m.ib1_bar - 1))*m.f^3)).add
      (((hsq.add hsq).mul ((h01 m.b2_01_b).sub (two_P01 (N := N) hm k))).cmul (-(1/4)*(m.f*k)^2)))).congr (by ring) (by ring) fun s _ => ?_
    simp only [Biased.P12_ss_mu4, hsv, hsv']
    have e1 : (m.at8 s).ib1 = m.ib1 := rfl
    have e2 : (m.at8 s).ib1_bar = m.ib1_bar := rfl
    have e5 : (m.at8 s).f = m.f := rfl
    have e6 : (m.at8 s).b2_01_b = m.b2_01_b := rfl
    have e7 : (m.at8 s).toDm = m.toDm.at8 s := rfl
    rw [e1, e2, e5, e6, e7]; ring
  have h03 : Two m.lin.s8 0 (-(1/2)*(m.f*k)^2*m.v1 N*((m.ib1 + m.ib1_bar)*m.f*m.lin.P k)) (fun s => (m.at8 s).P03_ss N k) := by
    refine (((hsq.add hsq).mul (h01 m.b2_01_b)).cmul (-(1/4)*(m.f*k)^2)).congr (by ring) (by ring) fun s _ => ?_
    simp only [Biased.P03_ss, hsv, hsv']
    have e5 : (m.at8 s).f = m.f := rfl
    have e6 : (m.at8 s).b2_01_b = m.b2_01_b := rfl
    rw [e5, e6]; ring
  have h13 : Two m.lin.s8 0 0 (fun s => (m.at8 s).P13_ss_mu4 N k) := by
    refine (((hsq.add hsq).mul h112).cmul ((1/2)*(-(m.f*k)^2))).congr (by ring) (by ring) fun s _ => ?_
    simp only [Biased.P13_ss_mu4, hsv, hsv']
    have e5 : (m.at8 s).f = m.f := rfl
    rw [e5]; ring
  have h22 : Two m.lin.s8 0 (1/16*m.f^4*m.c23 N k) (fun s => (m.at8 s).P22_ss_mu4 N k) := by
    have hsk := two_sigk (N := N) (m := m.toDm) k
    obtain ⟨B, hB⟩ := hhh m.b2_00_d
    refine ((((two_P22nov (N := N) (m := m.toDm) k).add (((hdd.mul hsk).mul hsk).cmul ((1/2)*(m.f*k)^4*(m.ib1*m.ib1_bar)))).add
      (((hsq.add hsq).mul (two_P02nov (N := N) (m := m.toDm) k)).cmul (-(1/4)*(k*m.f)^2*((1/2)*(m.ib1 + m.ib1_bar))))).add
      ((((hsq.mul hsq).add (hsq.mul hsq)).mul hB).cmul ((1/8)*(k*m.f)^4))).congr (by ring) (by ring) fun s _ => ?_
    simp only [Biased.P22_ss_mu4, hsv, hsv']
    have e1 : (m.at8 s).ib1 = m.ib1 := rfl
    have e2 : (m.at8 s).ib1_bar = m.ib1_bar := rfl
    have e5 : (m.at8 s).f = m.f := rfl
    have e6 : (m.at8 s).b2_00_d = m.b2_00_d := rfl
    have e7 : (m.at8 s).toDm = m.toDm.at8 s := rfl
    rw [e1, e2, e5, e6, e7]; ring
  have h04 : Two m.lin.s8 0 0 (fun s => (m.at8 s).P04_ss_mu4 N k) := by
    obtain ⟨B, hB⟩ := hhh m.b2_00_d
    refine ((((hsq.add hsq).mul (two_P02nov (N := N) (m := m.toDm) k)).cmul (-(1/8)*(m.ib1 + m.ib1_bar)*(m.f*k)^2)).add
      ((hB.mul (((hsq.mul hsq).cmul 3).add (two_kurt (N := N) (m := m.toDm)))).cmul ((1/12)*(m.f*k)^4))).congr (by ring) (by ring) fun s _ => ?_
    simp only [Biased.P04_ss_mu4, hsv, hsv']
    have e1 : (m.at8 s).ib1 = m.ib1 := rfl
    have e2 : (m.at8 s).ib1_bar = m.ib1_bar := rfl
    have e5 : (m.at8 s).f = m.f := rfl
    have e6 : (m.at8 s).b2_00_d = m.b2_00_d := rfl
    have e7 : (m.at8 s).toDm = m.toDm.at8 s := rfl
    rw [e1, e2, e5, e6, e7]; ring
  refine ⟨?_, ?_, ?_, ?_⟩
  · refine hns.congr (by field_simp) (by field_simp; ring) fun s _ => ?_
    simp only [Biased.P_mu0, hN.node _ k hk, Biased.P00_ss]
    have e3 : (m.at8 s).P00ns N k = (m.at8 s).Phm N k / (m.toDm.at8 s).P00_mu0 N k * ((m.at8 s).Phm_bar N k / (m.toDm.at8 s).P00_mu0 N k) * (m.toDm.at8 s).P00_mu0 N k := rfl
    rw [e3, add_sub_cancel_right]
  · refine (((h01 m.b2_01_a).add h112).add h022).congr (by ring) (by ring) fun s _ => ?_
    have e1 : (m.at8 s).correct_mu2 = false := hc.1
    simp only [Biased.P_mu2, hN.node _ k hk, e1, Bool.false_eq_true, if_false]; rfl
  · refine ((((((h114.add h024).add h12).add h03).add h22).add h13).add h04).congr (by ring) (by ring) fun s _ => ?_
    have e2 : (m.at8 s).correct_mu4 = false := hc.2
    simp only [Biased.P_mu4, hN.node _ k hk, e2, Bool.false_eq_true, if_false]
  · refine (((((hI 2 1).sub ((hI 3 0).cmul ((1/2)*(m.ib1 + m.ib1_bar)))).add (((two_J (N := N) (m := m.toDm) k 2 0).cmul (2*k^2)).mul hp)).cmul (m.f^3)).add
      ((hI 3 2).cmul (1/8*m.f^4))).congr (by ring) (by ring) fun s _ => ?_
    simp only [Biased.P_mu6, hN.node _ k hk]; rfl

/-- The tracers of a model: the linear bias, one function for the second-order biases, and the tidal bias -/
noncomputable def Biased.tracer (m : Biased) : Tracer := ⟨m.ib1, m.b2_00_a m.ib1, m.bs⟩
@[inherit_doc Biased.tracer] noncomputable def Biased.tracer_bar (m : Biased) : Tracer := ⟨m.ib1_bar, m.b2_00_a m.ib1_bar, m.bs_bar⟩

/-- **Biased tracers.**  Without stochasticity, and with one second-order bias in all terms, the coefficients of the powers of `μ` are those of one-loop perturbation theory for tracers with
linear, second-order and tidal bias; that of `μ⁶` lacks the dispersion of the velocities times the linear spectrum, `-f⁴ k² σ² P`. -/
theorem C106_biased_partial {a b k : ℝ} (m : Biased) (h : Band a b m.lin.P) (ha : 1/100000 < a) (hb : b ≤ 10) (hk : 1/100000 ≤ k) (hk' : k ≤ 10) (hbk : b < 60*k) (hm : Pert m.toDm)
    (hPhm : m.use_Phm_model = false) (hv : m.vel_disp_from_sims = false) (hc : m.correct_mu2 = false ∧ m.correct_mu4 = false) (hP : m.lin.P k ≠ 0)
    (h2 : m.b2_00_b = m.b2_00_a ∧ m.b2_00_c = m.b2_00_a ∧ m.b2_01_a = m.b2_00_a) : ∃ c0 c2 c4 c6 c8 : ℝ,
    (∀ μ : ℝ, μ^2 ≤ 1 → Q13 m.tracer m.tracer_bar m.f μ m.lin.P k + Q22 m.tracer m.tracer_bar m.f μ m.lin.P k = c0 + c2*μ^2 + c4*μ^4 + c6*μ^6 + c8*μ^8) ∧
    Tendsto (fun s => ((m.at8 s).P_mu0 Num.exact k - (m.at8 s).stochasticity Num.exact k - (m.at8 s).norm * (m.ib1*m.ib1_bar*m.lin.P k)) / (m.at8 s).norm^2) (𝓝[>] 0) (𝓝 c0) ∧
    Tendsto (fun s => ((m.at8 s).P_mu2 Num.exact k - (m.at8 s).norm * ((m.ib1 + m.ib1_bar)*m.f*m.lin.P k)) / (m.at8 s).norm^2) (𝓝[>] 0) (𝓝 c2) ∧
    Tendsto (fun s => ((m.at8 s).P_mu4 Num.exact k - (m.at8 s).norm * (m.f^2*m.lin.P k)) / (m.at8 s).norm^2) (𝓝[>] 0) (𝓝 c4) ∧
    Tendsto (fun s => (m.at8 s).P_mu6 Num.exact k / (m.at8 s).norm^2) (𝓝[>] 0) (𝓝 (c6 + m.f^4*k^2*(1/(6*Real.pi^2)*∫ q in Ioi 0, m.lin.P q)*m.lin.P k)) := by
  have h8 := hm.s8.ne'
  have hk0 : 0 < k := lt_of_lt_of_le (by norm_num) hk
  have ha0 : 0 < a := lt_trans (by norm_num) ha
  obtain ⟨t0, t2, t4, t6⟩ := two_biased (N := Num.exact) (k := k) m hm nodes_exact (Set.mem_univ k) hPhm hv hc hP
  rw [h2.2.2, h2.2.1] at t2
  rw [h2.1] at t4
  obtain ⟨a31, a13, u31, u13, u23, u32⟩ := unit_c (m := m.toDm) h ha hk0 hb hk'
  obtain ⟨-, sdv, svv⟩ := unit_spectra (m := m.toDm) hk0 hk hk'
  have hI : ∀ {i j w s}, imnKernel i j = some (w, s) → m.i1 Num.exact k i j = L m.lin.P k w := fun hw => unit_i h ha hk0 (by linarith) hw
  have hK : ∀ {i j t p w s}, kmnKernel i j t p = some (w, s) → m.k1 Num.exact k i j t p = L m.lin.P k w := fun hw => unit_k h ha hk0 (by linarith) hw
  obtain ⟨m1, m2, m3⟩ := unit_mass' h ha hb hk0 hk' hbk
  have t6' := t6.lim h8
  simp only [mul_zero, sub_zero] at t6'
  obtain ⟨c6, hc6⟩ : ∃ c6, c6 = m.f^3*(m.i1 Num.exact k 2 1 - (1/2)*(m.ib1 + m.ib1_bar)*m.i1 Num.exact k 3 0 + 2*k^2*m.j1 Num.exact k 2 0*m.lin.P k) + 1/8*m.f^4*m.i1 Num.exact k 3 2 -
    m.f^4*k^2*m.v1 Num.exact*m.lin.P k := ⟨_, rfl⟩
  have hv1 : m.v1 Num.exact = 1/(6*Real.pi^2)*∫ q in Ioi 0, m.lin.P q := by
    have e := band_integral h (g := fun _ => 1) (s := Ioi 0) measurableSet_Ioi fun q hq => ha0.trans_le hq.1
    simp only [mul_one] at e
    rw [unit_v h ha (by linarith), e]
  refine ⟨_, _, _, c6, m.f^4/16*m.i1 Num.exact k 3 3, fun μ hμ => ?_, t0.lim h8, t2.lim h8, t4.lim h8, ?_⟩
  · rw [spec_Q h ha hb hk0 hk' hbk hμ, spec_Q22 h ha (by linarith) hk0 hμ _ _ (by linarith), a31, a13, u13, u23, sdv, svv, hc6]
    rw [← hI (i := 0) (j := 0) rfl, ← hI (i := 0) (j := 1) rfl, ← hI (i := 0) (j := 2) rfl, ← hI (i := 0) (j := 3) rfl, ← hI (i := 1) (j := 0) rfl, ← hI (i := 1) (j := 1) rfl,
      ← hI (i := 1) (j := 2) rfl, ← hI (i := 2) (j := 0) rfl, ← hI (i := 2) (j := 1) rfl, ← hI (i := 2) (j := 2) rfl, ← hI (i := 3) (j := 0) rfl, ← hI (i := 3) (j := 2) rfl,
      ← hI (i := 3) (j := 3) rfl, ← hK (i := 0) (j := 0) (t := false) (p := 0) rfl, ← hK (i := 0) (j := 0) (t := true) (p := 0) rfl, ← hK (i := 1) (j := 0) (t := false) (p := 0) rfl,
      ← hK (i := 1) (j := 0) (t := true) (p := 0) rfl, ← hK (i := 1) (j := 1) (t := false) (p := 0) rfl, ← hK (i := 1) (j := 1) (t := true) (p := 0) rfl,
      ← hK (i := 2) (j := 0) (t := false) (p := 0) rfl, ← hK (i := 2) (j := 0) (t := true) (p := 0) rfl, ← hK (i := 2) (j := 0) (t := false) (p := 1) rfl,
      ← hK (i := 2) (j := 0) (t := true) (p := 1) rfl]
    simp only [Biased.tracer, Biased.tracer_bar]
    linear_combination 4*m.f*μ^2*m.ib1*m.ib1_bar*m1 + 6*m.ib1*m.ib1_bar*m.f*μ^2*k^2*m.lin.P k*m2 - 3*k^2*m.lin.P k*m.f*μ^2*(m.ib1 + m.ib1_bar - 2*m.ib1*m.ib1_bar)*m3
  · have e : m.f^3*(m.i1 Num.exact k 2 1 - (1/2)*(m.ib1 + m.ib1_bar)*m.i1 Num.exact k 3 0 + 2*k^2*m.j1 Num.exact k 2 0*m.lin.P k) + 1/8*m.f^4*m.i1 Num.exact k 3 2 =
      c6 + m.f^4*k^2*(1/(6*Real.pi^2)*∫ q in Ioi 0, m.lin.P q)*m.lin.P k := by rw [hc6, ← hv1]; ring
    rw [e] at t6'
    exact t6'

/-! ### What is missing at `μ⁶` -/

/-- the coefficients are determined by the polynomial -/
theorem coef_unique {c0 c2 c4 c6 c8 d0 d2 d4 d6 d8 : ℝ} (h : ∀ μ : ℝ, μ^2 ≤ 1 → c0 + c2*μ^2 + c4*μ^4 + c6*μ^6 + c8*μ^8 = d0 + d2*μ^2 + d4*μ^4 + d6*μ^6 + d8*μ^8) :
    c0 = d0 ∧ c2 = d2 ∧ c4 = d4 ∧ c6 = d6 ∧ c8 = d8 := by
  have h0 := h 0 (by norm_num)
  have h1 := h (1/4) (by norm_num)
  have h2 := h (1/2) (by norm_num)
  have h3 := h (3/4) (by norm_num)
  have h4 := h 1 (by norm_num)
  norm_num at h0 h1 h2 h3 h4
  refine ⟨h0, ?_, ?_, ?_, ?_⟩ <;> linarith

/-- two-loop matter with power between 1 and 7/5 -/
noncomputable def midDm : Dm := { boxDm with lin := ⟨boxP 1 (7/5), 1⟩ }

/-- the hypotheses of `C106_dark_matter_partial` -/
theorem midDm_hyp : Band 1 (7/5) midDm.lin.P ∧ (7/5:ℝ) ≤ 10 ∧ (7/5:ℝ) < 60*1 ∧ Pert midDm ∧ midDm.include_2loop = true :=
  ⟨box_band, by norm_num, by norm_num, ⟨⟨rfl, rfl, rfl, rfl, rfl⟩, ⟨rfl, rfl, rfl, rfl, rfl⟩, ⟨rfl, rfl, rfl, rfl⟩, one_pos⟩, rfl⟩

/-- **The two-loop dark-matter `P_mu6` is not that of perturbation theory** at second order in the linear spectrum. -/
theorem C106_mu6_counterexample : ∃ (m : Dm) (l : ℝ), Pert m ∧ m.include_2loop = true ∧ Tendsto (fun s => ((m.at8 s).P_mu6 Num.exact 1).getD 0 / (m.at8 s).norm^2) (𝓝[>] 0) (𝓝 l) ∧
    ∀ c0 c2 c4 c6 c8 : ℝ, (∀ μ : ℝ, μ^2 ≤ 1 → SPT.P13 m.f μ m.lin.P 1 + SPT.P22 m.f μ m.lin.P 1 = c0 + c2*μ^2 + c4*μ^4 + c6*μ^6 + c8*μ^8) → l ≠ c6 := by
  obtain ⟨h1, h2, h3, h4, h5⟩ := midDm_hyp
  obtain ⟨c0, c2, c4, c6, c8, hp, -, -, -, ht⟩ := C106_dark_matter_partial h1 (by norm_num) h2 one_pos (by norm_num) h3 h4
  refine ⟨midDm, _, h4, h5, ht h5, fun d0 d2 d4 d6 d8 hd e => ?_⟩
  obtain ⟨-, -, -, e6, -⟩ := coef_unique fun μ hμ => (hp μ hμ).symm.trans (hd μ hμ)
  rw [← e6] at e
  have hs := coupling_sub (box_integrable (w := fun q r => f23 ((q + r)/1) ((r - q)/1)) cont23 100000) (box_integrable (w := fun q r => f32 ((q + r)/1) ((r - q)/1)) cont32 100000)
  have hpos := box_pos inside1 (w := fun q r => f23 ((q + r)/1) ((r - q)/1) - f32 ((q + r)/1) ((r - q)/1)) (cont23.sub cont32) (fun p hp => f23_gt hp) (Q := 100000) (by norm_num)
  rw [hs] at hpos
  have hf : midDm.f = 1 := rfl
  have hl : midDm.lin.P = boxP 1 (7/5) := rfl
  rw [hf, hl] at e
  linarith

/-- **The `P_mu6` of tracers is never that of perturbation theory** when there is growth and power at the wavenumber and on average. -/
theorem C106_biased_mu6_counterexample {a b k : ℝ} (m : Biased) (h : Band a b m.lin.P) (ha : 1/100000 < a) (hb : b ≤ 10) (hk : 1/100000 ≤ k) (hk' : k ≤ 10) (hbk : b < 60*k) (hm : Pert m.toDm)
    (hPhm : m.use_Phm_model = false) (hv : m.vel_disp_from_sims = false) (hc : m.correct_mu2 = false ∧ m.correct_mu4 = false) (hP : m.lin.P k ≠ 0)
    (h2 : m.b2_00_b = m.b2_00_a ∧ m.b2_00_c = m.b2_00_a ∧ m.b2_01_a = m.b2_00_a) (hf : m.f ≠ 0) (hi : 0 < ∫ q in Ioi 0, m.lin.P q) {c0 c2 c4 c6 c8 l : ℝ}
    (hp : ∀ μ : ℝ, μ^2 ≤ 1 → Q13 m.tracer m.tracer_bar m.f μ m.lin.P k + Q22 m.tracer m.tracer_bar m.f μ m.lin.P k = c0 + c2*μ^2 + c4*μ^4 + c6*μ^6 + c8*μ^8)
    (hl : Tendsto (fun s => (m.at8 s).P_mu6 Num.exact k / (m.at8 s).norm^2) (𝓝[>] 0) (𝓝 l)) : c6 < l := by
  obtain ⟨d0, d2, d4, d6, d8, hd, -, -, -, ht⟩ := C106_biased_partial m h ha hb hk hk' hbk hm hPhm hv hc hP h2
  obtain ⟨-, -, -, e6, -⟩ := coef_unique fun μ hμ => (hd μ hμ).symm.trans (hp μ hμ)
  rw [tendsto_nhds_unique hl ht, e6]
  have hk0 : 0 < k := lt_of_lt_of_le (by norm_num) hk
  have h0 : 0 < m.lin.P k := lt_of_le_of_ne (h.nonneg k) hP.symm
  have := Real.pi_pos
  have : 0 < m.f^4 := by positivity
  have : 0 < m.f^4*k^2*(1/(6*Real.pi^2)*∫ q in Ioi 0, m.lin.P q)*m.lin.P k := by positivity
  linarith

/-- tracers in a universe with power between 1 and 7/5 -/
noncomputable def midBiased : Biased := { boxBiased 2 true with toDm := midDm }

/-- the hypotheses of `C106_biased_partial` and `C106_biased_mu6_counterexample` -/
example : Band 1 (7/5) midBiased.lin.P ∧ Pert midBiased.toDm ∧ midBiased.use_Phm_model = false ∧ midBiased.vel_disp_from_sims = false ∧
    (midBiased.correct_mu2 = false ∧ midBiased.correct_mu4 = false) ∧ midBiased.lin.P 1 ≠ 0 ∧
    (midBiased.b2_00_b = midBiased.b2_00_a ∧ midBiased.b2_00_c = midBiased.b2_00_a ∧ midBiased.b2_01_a = midBiased.b2_00_a) ∧ midBiased.f ≠ 0 ∧
    midBiased.tracer = ⟨2, 0, -2/7*(2 - 1)⟩ ∧ 0 < ∫ q in Ioi 0, midBiased.lin.P q := by
  refine ⟨midDm_hyp.1, midDm_hyp.2.2.2.1, rfl, rfl, ⟨rfl, rfl⟩, ?_, ⟨rfl, rfl, rfl⟩, one_ne_zero, ?_, ?_⟩
  · show boxP 1 (7/5) 1 ≠ 0
    norm_num [boxP]
  · simp [Biased.tracer, midBiased, boxBiased, Biased.ib1, Biased.bs]
  · have e := band_integral (box_band (a := 1) (b := 7/5)) (g := fun _ => 1) (s := Ioi 0) measurableSet_Ioi fun q hq => lt_of_lt_of_le one_pos hq.1
    simp only [mul_one] at e
    show 0 < ∫ q in Ioi 0, boxP 1 (7/5) q
    rw [e, setIntegral_congr_fun (f := boxP 1 (7/5)) (g := fun _ => (1:ℝ)) measurableSet_Icc fun q hq => if_pos hq]
    simp; norm_num

end Verif.PT
