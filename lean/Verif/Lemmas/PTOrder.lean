/- Lemmas for C106: the terms of the spectra to second order in the linear spectrum. -/
import Verif.Props.PTKaiser

namespace Verif.PT

open Filter Topology

variable {N : Num}

/-- For small `s`, `F(s) = A n + B n² + o(n²)`, `n = (s/s8)²`. -/
def Two (s8 A B : ℝ) (F : ℝ → ℝ) : Prop := ∃ G : ℝ → ℝ, Tendsto G (𝓝[>] 0) (𝓝 B) ∧ ∀ᶠ s in 𝓝[>] (0:ℝ), F s = (s/s8)^2*A + ((s/s8)^2)^2 * G s

section
variable {s8 A B C D : ℝ} {F F' H : ℝ → ℝ}

theorem Two.add (h : Two s8 A B F) (h' : Two s8 C D F') : Two s8 (A + C) (B + D) (fun s => F s + F' s) := by
  obtain ⟨G, hG, e⟩ := h; obtain ⟨G', hG', e'⟩ := h'
  refine ⟨fun s => G s + G' s, hG.add hG', ?_⟩
  filter_upwards [e, e'] with s h1 h2
  rw [h1, h2]; ring
theorem Two.cmul (c : ℝ) (h : Two s8 A B F) : Two s8 (c*A) (c*B) (fun s => c * F s) := by
  obtain ⟨G, hG, e⟩ := h
  refine ⟨fun s => c * G s, hG.const_mul c, ?_⟩
  filter_upwards [e] with s h1
  rw [h1]; ring
theorem Two.sub (h : Two s8 A B F) (h' : Two s8 C D F') : Two s8 (A - C) (B - D) (fun s => F s - F' s) := by
  obtain ⟨G, hG, e⟩ := h; obtain ⟨G', hG', e'⟩ := h'
  refine ⟨fun s => G s - G' s, hG.sub hG', ?_⟩
  filter_upwards [e, e'] with s h1 h2
  rw [h1, h2]; ring
theorem Two.zero (s8 : ℝ) : Two s8 0 0 (fun _ => 0) := ⟨fun _ => 0, tendsto_const_nhds, Eventually.of_forall fun s => by ring⟩
theorem Two.norm (s8 c : ℝ) : Two s8 c 0 (fun s => (s/s8)^2 * c) := ⟨fun _ => 0, tendsto_const_nhds, Eventually.of_forall fun s => by ring⟩
theorem Two.pow2 (s8 c : ℝ) : Two s8 0 c (fun s => ((s/s8)^2)^2 * c) := ⟨fun _ => c, tendsto_const_nhds, Eventually.of_forall fun s => by ring⟩
theorem Two.mul (h : Two s8 A B F) (h' : Two s8 C D F') : Two s8 0 (A*C) (fun s => F s * F' s) := by
  obtain ⟨G, hG, e⟩ := h; obtain ⟨G', hG', e'⟩ := h'
  refine ⟨fun s => A*C + (s/s8)^2*(A*G' s + G s*C) + (s/s8)^2*((s/s8)^2*(G s*G' s)), ?_, ?_⟩
  · have hs := small_tendsto s8
    have := (tendsto_const_nhds (x := A*C)).add (hs.mul ((hG'.const_mul A).add (hG.mul_const C))) |>.add (hs.mul (hs.mul (hG.mul hG')))
    simpa using this
  · filter_upwards [e, e'] with s h1 h2
    rw [h1, h2]; ring
theorem Two.congr (h : Two s8 A B F) (hA : A = C) (hB : B = D) (e : ∀ s > 0, F s = F' s) : Two s8 C D F' := by
  subst hA hB
  obtain ⟨G, hG, e1⟩ := h
  refine ⟨G, hG, ?_⟩
  filter_upwards [e1, self_mem_nhdsWithin] with s h1 h2
  rw [← e s h2, h1]
theorem Two.quot {A' B' : ℝ} (h8 : s8 ≠ 0) (h : Two s8 A B F) (h' : Two s8 A' B' F') (hH : Two s8 C D H) (hC : C ≠ 0) :
    Two s8 (A*A'/C) ((A*B' + B*A')/C - A*A'*D/C^2) (fun s => (F s / H s) * (F' s / H s) * H s) := by
  obtain ⟨G, hG, e⟩ := h; obtain ⟨G', hG', e'⟩ := h'; obtain ⟨E, hE, e3⟩ := hH
  have hs := small_tendsto s8
  have hden : Tendsto (fun s => C + (s/s8)^2 * E s) (𝓝[>] 0) (𝓝 C) := by
    have := (tendsto_const_nhds (x := C)).add (hs.mul hE)
    simpa using this
  refine ⟨fun s => ((A*G' s + G s*A' + (s/s8)^2*(G s*G' s))*C - A*A'*E s)/(C*(C + (s/s8)^2*E s)), ?_, ?_⟩
  · have := ((((hG'.const_mul A).add (hG.mul_const A')).add (hs.mul (hG.mul hG'))).mul_const C |>.sub (hE.const_mul (A*A'))).div (hden.const_mul C) (mul_ne_zero hC hC)
    have e0 : (A*B'+B*A')/C - A*A'*D/C^2 = ((A*B'+B*A'+0*(B*B'))*C - A*A'*D)/(C*C) := by field_simp; ring
    rw [e0]; exact this
  · filter_upwards [e, e', e3, small_ne h8, hden.eventually_ne hC] with s h1 h2 h3 h4 h5
    rw [h1, h2, h3]
    generalize (s/s8)^2 = n at *
    generalize G s = g at *; generalize G' s = g' at *; generalize E s = x at *
    have e1 : n*A + n^2*g = n*(A + n*g) := by ring
    have e2 : n*A' + n^2*g' = n*(A' + n*g') := by ring
    have e4 : n*C + n^2*x = n*(C + n*x) := by ring
    rw [e1, e2, e4]
    field_simp
    ring

/-- what it means -/
theorem Two.tendsto (h8 : s8 ≠ 0) (h : Two s8 A B F) : Tendsto (fun s => (F s - (s/s8)^2*A)/((s/s8)^2)^2) (𝓝[>] 0) (𝓝 B) := by
  obtain ⟨G, hG, e⟩ := h
  refine hG.congr' ?_
  filter_upwards [e, small_ne h8] with s h1 h2
  rw [h1]
  generalize (s/s8)^2 = n at *
  field_simp; ring
end

/-! ### Integrals of the linear spectrum -/

namespace Dm
variable (N : Num) (m : Dm) (k : ℝ)
noncomputable section
/-- the integrals for the linear spectrum of the present -/
def j1 (a b : ℕ) : ℝ := N.ispl (fun k => (jmn N m.lin.P k a b).getD 0) k
@[inherit_doc j1] def i1 (a b : ℕ) : ℝ := N.ispl (fun k => (imn N m.lin.P k a b).getD 0) k
@[inherit_doc j1] def k1 (a b : ℕ) (tidal : Bool := false) (part : ℕ := 0) : ℝ := N.ispl (fun k => (kmn N m.lin.P k a b tidal part).getD 0) k
@[inherit_doc j1] def l1 (a b : ℕ) : ℝ := N.ispl (fun k => ((oneKernel a b).map fun f => oneCompute N f m.lin.P m.lin.P k).getD 0) k
/-- the velocity dispersion for it -/
def v1 : ℝ := (Real.sqrt (velocityDispersion N m.lin.P))^2
/-- the parts of the two-loop integrals of second order, or the one-loop integrals -/
def c31 : ℝ := if m.include_2loop then m.l1 N k 0 1 + m.l1 N k 0 3 else m.i1 N k 3 1
@[inherit_doc c31] def c13 : ℝ := if m.include_2loop then m.l1 N k 0 2 + m.l1 N k 0 4 else m.i1 N k 1 3
@[inherit_doc c31] def c23 : ℝ := if m.include_2loop then m.l1 N k 2 3 else m.i1 N k 2 3
@[inherit_doc c31] def c32 : ℝ := if m.include_2loop then m.l1 N k 3 2 else m.i1 N k 3 2
end
end Dm

variable {m : Dm} (hm : Pert m) (k : ℝ)

theorem two_plin : Two m.lin.s8 (m.lin.P k) 0 (fun s => (m.at8 s).plin k) := Two.norm _ _
theorem two_J (a b : ℕ) : Two m.lin.s8 (m.j1 N k a b) 0 (fun s => (m.at8 s).J N k a b) := Two.norm _ _
theorem two_I (a b : ℕ) : Two m.lin.s8 0 (m.i1 N k a b) (fun s => (m.at8 s).I N k a b) := Two.pow2 _ _
theorem two_K (a b : ℕ) (t : Bool) (p : ℕ) : Two m.lin.s8 0 (m.k1 N k a b t p) (fun s => (m.at8 s).K N k a b t p) := Two.pow2 _ _
theorem two_kurt : Two m.lin.s8 0 (velocityKurtosis N m.lin.P) (fun s => (m.at8 s).kurtosis N) := Two.pow2 _ _
theorem two_sigk : Two m.lin.s8 (N.ispl (fun k => velocityDispersionK N m.lin.P k (1/2)) k) 0 (fun s => (m.at8 s).sigmasq_k N k) := Two.norm _ _
theorem two_two (o : OneLoop) (ho : o.PL = m.lin.P) (a b : ℕ) : Two m.lin.s8 0 (m.l1 N k a b) (fun s => (m.at8 s).two N k o a b) := by
  have n1 := Two.norm m.lin.s8 1
  refine (((Two.pow2 m.lin.s8 (N.ispl (fun k => (o.linear N k a b).getD 0) k)).add (n1.mul (Two.pow2 m.lin.s8 (N.ispl (fun k => (o.cross N k a b).getD 0) k)))).add
    (n1.mul (n1.mul (Two.pow2 m.lin.s8 (N.ispl (fun k => (o.oneLoop N k a b).getD 0) k))))).congr (by ring) ?_ (fun s _ => ?_)
  · simp only [Dm.l1, OneLoop.linear, ho]; ring
  · simp only [Dm.two, Dm.norm, Dm.at8]; ring

include hm

theorem two_sq : Two m.lin.s8 (m.v1 N) 0 (fun s => (m.at8 s).sigmaV N ^ 2) := by
  obtain ⟨hs, _⟩ := hm.small
  refine (Two.norm m.lin.s8 (m.v1 N)).congr rfl rfl (fun s _ => ?_)
  simp only [Dm.sigmaV, Dm.at8, hs, Option.getD_none, Dm.sigma_lin, Dm.norm, Dm.v1]
  rw [mul_pow, Real.sq_sqrt (sq_nonneg (s / m.lin.s8))]
theorem two_sigsq (x : ℝ) (hx : x = 0) : Two m.lin.s8 (m.v1 N) 0 (fun s => (m.at8 s).sigsq N x) :=
  (two_sq hm).congr rfl rfl fun s _ => by simp only [Dm.sigsq, hx, zero_mul, zero_div]; ring

theorem two_P00 : Two m.lin.s8 (m.lin.P k) (2*m.i1 N k 0 0 + 6*k^2*m.j1 N k 0 0*m.lin.P k) (fun s => (m.at8 s).P00_mu0 N k) := by
  refine (((two_plin k).add ((two_I (N := N) k 0 0).cmul 2)).add (((two_J (N := N) k 0 0).cmul (6*k^2)).mul (two_plin k))).congr (by ring) (by ring) (fun s _ => ?_)
  simp only [Dm.P00_mu0, Dm.at8, hm.loaded.1, hm.models.1, Bool.false_eq_true, if_false]
theorem two_P01 : Two m.lin.s8 (2*m.f*m.lin.P k) (2*m.f*(4*(m.i1 N k 0 0 + 3*k^2*m.j1 N k 0 0*m.lin.P k))) (fun s => (m.at8 s).P01_mu2 N k) := by
  refine (((two_plin k).add (((two_I (N := N) k 0 0).add (((two_J (N := N) k 0 0).cmul (3*k^2)).mul (two_plin k))).cmul 4)).cmul (2*m.f)).congr (by ring) (by ring) (fun s _ => ?_)
  simp only [Dm.P01_mu2, Dm.at8, hm.loaded.2.1, hm.models.2.1, Bool.false_eq_true, if_false]
omit hm in
theorem two_P02nov : Two m.lin.s8 0 (m.f^2*(m.i1 N k 0 2 + 2*k^2*m.j1 N k 0 2*m.lin.P k)) (fun s => (m.at8 s).P02_mu2_nov N k) :=
  (((two_I (N := N) k 0 2).add (((two_J (N := N) k 0 2).cmul (2*k^2)).mul (two_plin k))).cmul (m.f^2)).congr (by ring) (by ring) (fun s _ => rfl)
theorem two_P02 : Two m.lin.s8 0 (m.f^2*(m.i1 N k 0 2 + 2*k^2*m.j1 N k 0 2*m.lin.P k) - (m.f*k)^2*m.v1 N*m.lin.P k) (fun s => (m.at8 s).P02_mu2 N k) := by
  have hs := two_sigsq (N := N) hm m.sigma_bv2 hm.small.2.2.1
  have h := two_P02nov (N := N) (m := m) k
  cases hl : m.include_2loop
  · refine (((hs.cmul (-(m.f*k)^2)).mul (two_plin k)).add h).congr (by ring) (by ring) (fun s _ => ?_)
    simp [Dm.P02_mu2, Dm.P02_mu2_vel, Dm.at8, hl]
  · refine (((hs.cmul (-(m.f*k)^2)).mul (two_P00 (N := N) hm k)).add h).congr (by ring) (by ring) (fun s _ => ?_)
    simp [Dm.P02_mu2, Dm.P02_mu2_vel, Dm.at8, hl]
omit hm in
theorem two_P02mu4 : Two m.lin.s8 0 (m.f^2*(m.i1 N k 2 0 + 2*k^2*m.j1 N k 2 0*m.lin.P k)) (fun s => (m.at8 s).P02_mu4 N k) :=
  (((two_I (N := N) k 2 0).add (((two_J (N := N) k 2 0).cmul (2*k^2)).mul (two_plin k))).cmul (m.f^2)).congr (by ring) (by ring) (fun s _ => rfl)
theorem two_P03 : Two m.lin.s8 0 (-m.f*(m.f*k)^2*m.v1 N*m.lin.P k) (fun s => (m.at8 s).P03_mu4 N k) := by
  have hs := two_sigsq (N := N) hm m.sigma_v2 hm.small.2.1
  cases hl : m.include_2loop
  · refine ((hs.cmul (-m.f*(m.f*k)^2)).mul (two_plin k)).congr rfl rfl (fun s _ => ?_)
    simp [Dm.P03_mu4, Dm.at8, hl]
  · refine ((hs.cmul (-(1/2)*(m.f*k)^2)).mul (two_P01 (N := N) hm k)).congr rfl (by ring) (fun s _ => ?_)
    simp [Dm.P03_mu4, Dm.at8, hl]
theorem two_P04 : Two m.lin.s8 0 0 (fun s => (m.at8 s).P04_mu4 N k) := by
  have hs := two_sigsq (N := N) hm m.sigma_bv4 hm.small.2.2.2
  cases hl : m.include_2loop
  · refine (Two.zero m.lin.s8).congr rfl rfl (fun s _ => ?_)
    simp [Dm.P04_mu4, Dm.at8, hl]
  · refine ((((two_P00 (N := N) hm k).mul (two_kurt (N := N))).cmul (1/12*(m.f*k)^4)).add
      (((hs.mul (two_P02nov (N := N) k)).cmul (-(1/2)*(m.f*k)^2)).add (((hs.mul hs).mul (two_P00 (N := N) hm k)).cmul ((1/4)*(m.f*k)^4)))).congr (by ring) (by ring)
      (fun s _ => ?_)
    simp only [Dm.P04_mu4, Dm.at8, hl, if_true]; ring
theorem two_P04mu6 : Two m.lin.s8 0 0 (fun s => (m.at8 s).P04_mu6 N k) := by
  have hs := two_sigsq (N := N) hm m.sigma_bv4 hm.small.2.2.2
  cases hl : m.include_2loop
  · refine (Two.zero m.lin.s8).congr rfl rfl (fun s _ => ?_)
    simp [Dm.P04_mu6, Dm.at8, hl]
  · refine ((hs.cmul (-(1/2)*(m.f*k)^2)).mul (two_P02mu4 (N := N) k)).congr rfl (by ring) (fun s _ => ?_)
    simp [Dm.P04_mu6, Dm.at8, hl]
theorem two_P11mu2 : Two m.lin.s8 0 (m.f^2*m.c31 N k) (fun s => (m.at8 s).P11_mu2 N k) := by
  cases hl : m.include_2loop
  · refine ((two_I (N := N) k 3 1).cmul (m.f^2)).congr (by ring) (by simp [Dm.c31, hl]) (fun s _ => ?_)
    simp [Dm.P11_mu2, Dm.at8, hl, hm.loaded.2.2.1]
  · refine (((two_two (N := N) k (m.vvdd N) rfl 0 1).add (two_two (N := N) k (m.dvdv N) rfl 0 3)).cmul (m.f^2)).congr (by ring) (by simp [Dm.c31, hl]) (fun s _ => ?_)
    simp only [Dm.P11_mu2, Dm.at8, hl, hm.loaded.2.2.1, if_true]; rfl
theorem two_P11mu4 : Two m.lin.s8 (m.f^2*m.lin.P k) (m.f^2*(2*m.i1 N k 1 1 + 4*m.i1 N k 2 2 + 6*k^2*(m.j1 N k 1 1 + 2*m.j1 N k 1 0)*m.lin.P k + m.c13 N k))
    (fun s => (m.at8 s).P11_mu4 N k) := by
  have hC : Two m.lin.s8 0 (m.c13 N k) (fun s => if m.include_2loop then (m.at8 s).two N k ((m.at8 s).vvdd N) 0 2 + (m.at8 s).two N k ((m.at8 s).dvdv N) 0 4 else (m.at8 s).I N k 1 3) := by
    cases hl : m.include_2loop
    · refine (two_I (N := N) k 1 3).congr rfl (by simp [Dm.c13, hl]) fun s _ => by simp
    · refine ((two_two (N := N) k (m.vvdd N) rfl 0 2).add (two_two (N := N) k (m.dvdv N) rfl 0 4)).congr (by ring) (by simp [Dm.c13, hl]) (fun s _ => ?_)
      simp only [if_true]; rfl
  have hp := two_plin (m := m) k
  have h := (((((two_I (N := N) (m := m) k 1 1).cmul 2).add ((two_I (N := N) k 2 2).cmul 4)).add ((((two_J (N := N) k 1 1).add ((two_J (N := N) k 1 0).cmul 2)).cmul (6*k^2)).mul hp)))
  refine (((hp.add h).add hC).cmul (m.f^2)).congr (by ring) (by ring) (fun s _ => ?_)
  simp only [Dm.P11_mu4, Dm.P11_mu4_scalar, Dm.at8, hm.loaded.2.2.2.1, hm.models.2.2.1, Bool.false_eq_true, if_false]; ring
omit hm in
theorem two_P12nov : Two m.lin.s8 0 (m.f^3*(m.i1 N k 1 2 - m.i1 N k 0 3 + 2*k^2*m.j1 N k 0 2*m.lin.P k)) (fun s => (m.at8 s).P12_mu4_nov N k) :=
  ((((two_I (N := N) k 1 2).sub (two_I (N := N) k 0 3)).add (((two_J (N := N) k 0 2).cmul (2*k^2)).mul (two_plin k))).cmul (m.f^3)).congr (by ring) (by ring) (fun s _ => rfl)
theorem two_P12 : Two m.lin.s8 0 (m.f^3*(m.i1 N k 1 2 - m.i1 N k 0 3 + 2*k^2*m.j1 N k 0 2*m.lin.P k) - m.f*(m.f*k)^2*m.v1 N*m.lin.P k) (fun s => (m.at8 s).P12_mu4 N k) := by
  have hs := two_sigsq (N := N) hm m.sigma_bv2 hm.small.2.2.1
  have h := two_P12nov (N := N) (m := m) k
  cases hl : m.include_2loop
  · refine (((hs.cmul (-m.f*(m.f*k)^2)).mul (two_plin k)).add h).congr (by ring) (by ring) (fun s _ => ?_)
    simp [Dm.P12_mu4, Dm.at8, hl]
  · refine (((hs.cmul (-(1/2)*(m.f*k)^2)).mul (two_P01 (N := N) hm k)).add h).congr (by ring) (by ring) (fun s _ => ?_)
    simp [Dm.P12_mu4, Dm.at8, hl]
omit hm in
theorem two_P12mu6 : Two m.lin.s8 0 (m.f^3*(m.i1 N k 2 1 - m.i1 N k 3 0 + 2*k^2*m.j1 N k 2 0*m.lin.P k)) (fun s => (m.at8 s).P12_mu6 N k) :=
  ((((two_I (N := N) k 2 1).sub (two_I (N := N) k 3 0)).add (((two_J (N := N) k 2 0).cmul (2*k^2)).mul (two_plin k))).cmul (m.f^3)).congr (by ring) (by ring) (fun s _ => rfl)
theorem two_P13 : Two m.lin.s8 0 0 (fun s => (m.at8 s).P13_mu4 N k) := by
  have hs := two_sigsq (N := N) hm m.sigma_bv2 hm.small.2.2.1
  cases hl : m.include_2loop
  · refine (Two.zero m.lin.s8).congr rfl rfl (fun s _ => ?_)
    simp [Dm.P13_mu4, Dm.at8, hl]
  · refine ((hs.cmul (-(m.f*k)^2)).mul (two_P11mu2 (N := N) hm k)).congr rfl (by ring) (fun s _ => ?_)
    simp [Dm.P13_mu4, Dm.at8, hl]
theorem two_P13mu6 (hl : m.include_2loop = true) : Two m.lin.s8 0 (-(m.f*k)^2*m.v1 N*(m.f^2*m.lin.P k)) (fun s => ((m.at8 s).P13_mu6 N k).getD 0) := by
  have hs := two_sigsq (N := N) hm m.sigma_v2 hm.small.2.1
  refine ((hs.cmul (-(m.f*k)^2)).mul (two_P11mu4 (N := N) hm k)).congr rfl rfl (fun s _ => ?_)
  simp [Dm.P13_mu6, Dm.at8, hl]
omit hm in
theorem two_P22nov : Two m.lin.s8 0 (1/16*m.f^4*m.c23 N k) (fun s => (m.at8 s).P22_mu4_nov N k) := by
  cases hl : m.include_2loop
  · refine ((two_I (N := N) k 2 3).cmul (1/16*m.f^4)).congr (by ring) (by simp [Dm.c23, hl]) (fun s _ => ?_)
    simp [Dm.P22_mu4_nov, Dm.at8, hl]
  · refine ((two_two (N := N) k (m.vvvv N) rfl 2 3).cmul (1/16*m.f^4)).congr (by ring) (by simp [Dm.c23, hl]) (fun s _ => ?_)
    simp only [Dm.P22_mu4_nov, Dm.at8, hl, if_true]; rfl
theorem two_P22 : Two m.lin.s8 0 (1/16*m.f^4*m.c23 N k) (fun s => (m.at8 s).P22_mu4 N k) := by
  have hs := two_sigsq (N := N) hm m.sigma_bv2 hm.small.2.2.1
  have hJ := two_J (N := N) (m := m) k 0 2
  have hk := two_sigk (N := N) (m := m) k
  have h0 := two_P00 (N := N) hm k
  cases hl : m.include_2loop
  · refine (two_P22nov (N := N) k).congr rfl rfl (fun s _ => ?_)
    simp [Dm.P22_mu4, Dm.at8, hl]
  · refine ((two_P22nov (N := N) k).add (((((hJ.mul hJ).mul (two_plin k)).cmul ((m.f*k)^4)).add ((hs.mul (two_P02nov (N := N) k)).cmul (-(1/2)*(m.f*k)^2))).add
      ((((hs.mul hs).mul h0).cmul ((1/4)*(m.f*k)^4)).add (((hk.mul hk).mul h0).cmul ((1/2)*(m.f*k)^4))))).congr (by ring) (by ring) (fun s _ => ?_)
    simp only [Dm.P22_mu4, Dm.at8, hl, if_true]; ring
theorem two_P22mu6 : Two m.lin.s8 0 (1/8*m.f^4*m.c32 N k) (fun s => (m.at8 s).P22_mu6 N k) := by
  have hs := two_sigsq (N := N) hm m.sigma_bv2 hm.small.2.2.1
  have hJ := two_J (N := N) (m := m) k 0 2
  have hJ' := two_J (N := N) (m := m) k 2 0
  cases hl : m.include_2loop
  · refine ((two_I (N := N) k 3 2).cmul (1/8*m.f^4)).congr (by ring) (by simp [Dm.c32, hl]) (fun s _ => ?_)
    simp [Dm.P22_mu6, Dm.P22_mu6_nov, Dm.at8, hl]
  · refine (((two_two (N := N) k (m.vvvv N) rfl 3 2).cmul (1/8*m.f^4)).add (((hs.mul (two_P02mu4 (N := N) k)).cmul (-(1/2)*(m.f*k)^2)).add
      (((hJ.mul hJ').mul (two_plin k)).cmul (2*(m.f*k)^4)))).congr (by ring) (by simp [Dm.c32, hl]) (fun s _ => ?_)
    simp only [Dm.P22_mu6, Dm.P22_mu6_nov, Dm.at8, hl, if_true, Dm.vvvv, Dm.Pvv0]; ring

theorem two_spectra {grid : Set ℝ} (hN : Nodes N grid) (hk : k ∈ grid) : Two m.lin.s8 (m.lin.P k) (m.Pdd0 N k) (fun s => (m.at8 s).Pdd N k) ∧
    Two m.lin.s8 (-m.f*m.lin.P k) (-m.f*m.Pdv0 N k) (fun s => (m.at8 s).Pdv N k) ∧ Two m.lin.s8 (m.f^2*m.lin.P k) (m.f^2*m.Pvv0 N k) (fun s => (m.at8 s).Pvv N k) := by
  have h (c : ℝ) : Two m.lin.s8 (m.lin.P k) c (fun s => (m.at8 s).norm * (m.lin.P k + (m.at8 s).norm * c)) :=
    ((Two.norm m.lin.s8 (m.lin.P k)).add (Two.pow2 m.lin.s8 c)).congr (by ring) (by ring) (fun s _ => by simp only [Dm.norm, Dm.at8]; ring)
  refine ⟨(h (m.Pdd0 N k)).congr rfl rfl fun s _ => ?_, ((h (m.Pdv0 N k)).cmul (-m.f)).congr rfl rfl fun s _ => ?_, ((h (m.Pvv0 N k)).cmul (m.f^2)).congr rfl rfl fun s _ => ?_⟩
  · simp only [Dm.Pdd, hN.node _ k hk]; rfl
  · simp only [Dm.Pdv, hN.node _ k hk, Dm.at8, hm.loaded.2.2.2.2, hm.models.2.2.2.1, Bool.false_eq_true, if_false, Dm.norm, Dm.Pdv0]; ring
  · simp only [Dm.Pvv, hN.node _ k hk, Dm.at8, hm.models.2.2.2.2, Bool.false_eq_true, if_false, Dm.norm, Dm.Pvv0]; ring

end Verif.PT
