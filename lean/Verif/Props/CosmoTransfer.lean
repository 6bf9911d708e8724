/-
C107: the fits of the transfer function.
-/
import Verif.Props.Cosmo
import Mathlib.Analysis.Complex.ExponentialBounds

namespace Verif.Cosmo

open Filter Topology

/-- physical parameters -/
structure Physical (e : Run) : Prop where
  h : 0 < e.h
  Om : 0 < e.Om
  Ob : 0 ≤ e.Ob
  Tcmb : 0 < e.Tcmb
  alpha : 0 < alphaGamma e

/-- the argument `q_eff` of the no-wiggle fit -/
noncomputable def qeff (e : Run) (k : ℝ) : ℝ :=
  let omh2 := e.Om*e.h^2
  let k_eq := 746/10000*omh2/(e.Tcmb/(27/10))^2
  let s := e.h * (445/10) * Real.log ((983/100)/omh2)/Real.sqrt (1 + 10*(e.Ob*e.h^2).rpow (3/4))
  (k*e.h)/((1341/100)*k_eq)*omh2/(omh2*(alphaGamma e + (1 - alphaGamma e)/(1 + (43/100*(k*e.h*s/e.h))^4)))

theorem noWiggle_eq (e : Run) (k : ℝ) : noWiggle e k =
    Real.log (2*Real.exp 1 + 18/10*qeff e k)/(Real.log (2*Real.exp 1 + 18/10*qeff e k) + (142/10 + 731/(1 + 625/10*qeff e k))*(qeff e k)^2) := rfl

theorem gamma_pos {a x : ℝ} (ha : 0 < a) : 0 < a + (1 - a)/(1 + x^4) := by
  have hx : 0 ≤ x^4 := by positivity
  have : a + (1 - a)/(1 + x^4) = (a*x^4 + 1)/(1 + x^4) := by field_simp; ring
  rw [this]; positivity

theorem qeff_nonneg {e : Run} (h : Physical e) {k : ℝ} (hk : 0 ≤ k) : 0 ≤ qeff e k := by
  have h1 := h.h
  have h2 := h.Om
  have h3 := h.Tcmb
  unfold qeff
  have := gamma_pos (x := 43/100*(k*e.h*(e.h * (445/10) * Real.log ((983/100)/(e.Om*e.h^2))/Real.sqrt (1 + 10*(e.Ob*e.h^2).rpow (3/4)))/e.h)) h.alpha
  simp only
  positivity

theorem qeff_continuous {e : Run} (h : Physical e) : Continuous (qeff e) := by
  have h1 := h.h
  have h2 := h.Om
  unfold qeff
  simp only
  refine Continuous.div (by fun_prop) ?_ ?_
  · refine Continuous.mul continuous_const (Continuous.add continuous_const (Continuous.div continuous_const (by fun_prop) ?_))
    intro k; positivity
  · intro k
    have := gamma_pos (x := 43/100*(k*e.h*(e.h * (445/10) * Real.log ((983/100)/(e.Om*e.h^2))/Real.sqrt (1 + 10*(e.Ob*e.h^2).rpow (3/4)))/e.h)) h.alpha
    positivity

theorem log_pos_aux {q : ℝ} (hq : 0 ≤ q) : 0 < Real.log (2*Real.exp 1 + 18/10*q) := by
  apply Real.log_pos
  have := Real.add_one_le_exp (1:ℝ)
  linarith

/-- **C107** (no wiggles): the no-wiggle fit is between zero and one, one at `k = 0`, and continuous -/
theorem C107_noWiggle {e : Run} (h : Physical e) : (∀ k, 0 ≤ k → 0 < noWiggle e k ∧ noWiggle e k ≤ 1) ∧ noWiggle e 0 = 1 ∧ ContinuousOn (noWiggle e) (Set.Ici 0) := by
  have hpos : ∀ k, 0 ≤ k → 0 ≤ (142/10 + 731/(1 + 625/10*qeff e k))*(qeff e k)^2 := by
    intro k hk
    have := qeff_nonneg h hk
    positivity
  refine ⟨fun k hk => ?_, ?_, ?_⟩
  · have hq := qeff_nonneg h hk
    have hl := log_pos_aux hq
    have hd := hpos k hk
    rw [noWiggle_eq]
    exact ⟨by positivity, (div_le_one (by positivity)).2 (by linarith)⟩
  · rw [noWiggle_eq]
    have hq : qeff e 0 = 0 := by unfold qeff; simp
    rw [hq]
    have hl := log_pos_aux le_rfl
    simp only [mul_zero, add_zero, ne_eq, OfNat.ofNat_ne_zero, not_false_eq_true, zero_pow] at hl ⊢
    exact div_self hl.ne'
  · have hq := qeff_continuous h
    have hlog : ContinuousOn (fun k => Real.log (2*Real.exp 1 + 18/10*qeff e k)) (Set.Ici 0) := by
      refine ContinuousOn.log (by fun_prop) ?_
      intro k hk
      have := qeff_nonneg h hk
      positivity
    have : noWiggle e = fun k => Real.log (2*Real.exp 1 + 18/10*qeff e k)/(Real.log (2*Real.exp 1 + 18/10*qeff e k) + (142/10 + 731/(1 + 625/10*qeff e k))*(qeff e k)^2) := rfl
    rw [this]
    refine hlog.div (hlog.add (ContinuousOn.mul (ContinuousOn.add continuousOn_const (ContinuousOn.div continuousOn_const (by fun_prop) ?_)) (by fun_prop))) ?_
    · intro k hk
      have := qeff_nonneg h hk
      positivity
    · intro k hk
      have := log_pos_aux (qeff_nonneg h hk)
      have := hpos k hk
      positivity

/-- the first factor of the BBKS fit -/
theorem log_div_bounds {x : ℝ} (hx : 0 < x) : 0 < Real.log (1 + x)/x ∧ Real.log (1 + x)/x ≤ 1 := by
  have h1 : 0 < Real.log (1 + x) := Real.log_pos (by linarith)
  refine ⟨by positivity, (div_le_one hx).2 ?_⟩
  have := Real.log_le_sub_one_of_pos (show 0 < 1 + x by linarith)
  linarith

/-- the argument `q` of the BBKS fit -/
noncomputable def qbbks (e : Run) (k : ℝ) : ℝ := k/(e.Om*e.h) * Real.exp (e.Ob + Real.sqrt (2*e.h)*e.Ob/e.Om)

theorem bbks_eq (e : Run) (k : ℝ) : bbks e k = Real.log (1 + 234/100*qbbks e k)/(234/100*qbbks e k) *
    (1 + 389/100*qbbks e k + (161/10*qbbks e k)^2 + (547/100*qbbks e k)^3 + (671/100*qbbks e k)^4).rpow (-(1/4)) := rfl

/-- **C107** (BBKS): the BBKS fit is between zero and one for `k > 0`, tends to one for `k → 0`, and is continuous -/
theorem C107_bbks {e : Run} (hh : 0 < e.h) (hO : 0 < e.Om) :
    (∀ k, 0 < k → 0 < bbks e k ∧ bbks e k ≤ 1) ∧ Tendsto (bbks e) (𝓝[>] 0) (𝓝 1) ∧ ContinuousOn (bbks e) (Set.Ioi 0) := by
  have hqpos : ∀ k, 0 < k → 0 < qbbks e k := by
    intro k hk; unfold qbbks; positivity
  have hqc : Continuous (qbbks e) := by unfold qbbks; fun_prop
  have hfun : bbks e = fun k => Real.log (1 + 234/100*qbbks e k)/(234/100*qbbks e k) *
    (1 + 389/100*qbbks e k + (161/10*qbbks e k)^2 + (547/100*qbbks e k)^3 + (671/100*qbbks e k)^4)^(-(1/4):ℝ) := rfl
  refine ⟨fun k hk => ?_, ?_, ?_⟩
  · have hq := hqpos k hk
    have h1 := log_div_bounds (x := 234/100*qbbks e k) (by positivity)
    rw [hfun]
    simp only
    have h2 : (1:ℝ) ≤ 1 + 389/100*qbbks e k + (161/10*qbbks e k)^2 + (547/100*qbbks e k)^3 + (671/100*qbbks e k)^4 := by
      have : 0 ≤ 389/100*qbbks e k + (161/10*qbbks e k)^2 + (547/100*qbbks e k)^3 + (671/100*qbbks e k)^4 := by positivity
      linarith
    have h3 : (1 + 389/100*qbbks e k + (161/10*qbbks e k)^2 + (547/100*qbbks e k)^3 + (671/100*qbbks e k)^4)^(-(1/4):ℝ) ≤ 1 :=
      Real.rpow_le_one_of_one_le_of_nonpos h2 (by norm_num)
    have h4 : 0 < (1 + 389/100*qbbks e k + (161/10*qbbks e k)^2 + (547/100*qbbks e k)^3 + (671/100*qbbks e k)^4)^(-(1/4):ℝ) := Real.rpow_pos_of_pos (by linarith) _
    exact ⟨mul_pos h1.1 h4, mul_le_one₀ h1.2 h4.le h3⟩
  · have hq0 : Tendsto (fun k => 234/100*qbbks e k) (𝓝[>] 0) (𝓝[≠] 0) := by
      refine tendsto_nhdsWithin_iff.2 ⟨?_, ?_⟩
      · have : Tendsto (fun k => 234/100*qbbks e k) (𝓝 0) (𝓝 (234/100*qbbks e 0)) := (continuous_const.mul hqc).tendsto 0
        have e0 : 234/100*qbbks e 0 = 0 := by unfold qbbks; simp
        rw [e0] at this
        exact this.mono_left nhdsWithin_le_nhds
      · filter_upwards [self_mem_nhdsWithin] with k hk
        have := hqpos k hk
        simp only [Set.mem_compl_iff, Set.mem_singleton_iff]
        positivity
    have hlog : Tendsto (fun x : ℝ => Real.log (1 + x)/x) (𝓝[≠] 0) (𝓝 1) := by
      have hd : HasDerivAt (fun x : ℝ => Real.log (1 + x)) 1 0 := by
        have := ((hasDerivAt_id (0:ℝ)).const_add 1).log (by norm_num)
        simpa using this
      have := hasDerivAt_iff_tendsto_slope.1 hd
      refine this.congr fun x => ?_
      simp [slope_def_field]
    have h2 : Tendsto (fun k => (1 + 389/100*qbbks e k + (161/10*qbbks e k)^2 + (547/100*qbbks e k)^3 + (671/100*qbbks e k)^4)^(-(1/4):ℝ)) (𝓝[>] 0) (𝓝 1) := by
      have hc : ContinuousAt (fun k => (1 + 389/100*qbbks e k + (161/10*qbbks e k)^2 + (547/100*qbbks e k)^3 + (671/100*qbbks e k)^4)^(-(1/4):ℝ)) 0 := by
        refine ContinuousAt.rpow_const (by fun_prop) (Or.inl ?_)
        unfold qbbks; simp
      have := hc.tendsto
      have e0 : qbbks e 0 = 0 := by unfold qbbks; simp
      rw [e0] at this
      norm_num at this
      exact this.mono_left nhdsWithin_le_nhds
    have := (hlog.comp hq0).mul h2
    rw [one_mul] at this
    exact this
  · rw [hfun]
    refine ContinuousOn.mul (ContinuousOn.div (ContinuousOn.log (by fun_prop) ?_) (by fun_prop) ?_) (ContinuousOn.rpow_const (by fun_prop) ?_)
    · intro k hk
      have := hqpos k hk
      positivity
    · intro k hk
      have := hqpos k hk
      positivity
    · intro k hk
      have := hqpos k hk
      left; positivity

/-- **C107** (CLASS): where the table of CLASS ends and the no-wiggle fit takes over, the transfer function does not jump, if the spline is continuous and goes through the two ends of the table -/
theorem C107_spline (W : World) {e : Run} (h : Physical e) {t : Table} {s : Spl} (hs : build e t = some s) (h0 : 0 < s.k0) (h1 : s.k0 ≤ s.k1)
    (hc : ContinuousOn (W.spline t) (Set.Icc s.k0 s.k1)) (ha : W.spline t s.k0 = s.T0) (hb : W.spline t s.k1 = s.T1) :
    ContinuousOn (splineTransfer W s e) (Set.Ioi 0) ∧ ∀ a ∈ t.head?, ∀ b ∈ t.getLast?, splineTransfer W s e a.1 = a.2 ∧ (a.1 < b.1 → splineTransfer W s e b.1 = b.2) := by
  unfold build at hs
  split at hs
  case h_2 => cases hs
  next a b h2 h3 =>
  cases hs
  simp only at h0 h1 hc ha hb
  obtain ⟨hp, _, hcn⟩ := C107_noWiggle h
  have hb0 : 0 < b.1 := lt_of_lt_of_le h0 h1
  have na := (hp a.1 h0.le).1
  have nb := (hp b.1 hb0.le).1
  have ea : a.2*noWiggle e a.1/noWiggle e a.1 = a.2 := by field_simp
  have eb : b.2*noWiggle e b.1/noWiggle e b.1 = b.2 := by field_simp
  constructor
  · have hlow : ContinuousOn (fun k => a.2*noWiggle e k/noWiggle e a.1) (Set.Ioi 0) := ((continuousOn_const.mul hcn).div_const _).mono Set.Ioi_subset_Ici_self
    have hhigh : ContinuousOn (fun k => b.2*noWiggle e k/noWiggle e b.1) (Set.Ioi 0) := ((continuousOn_const.mul hcn).div_const _).mono Set.Ioi_subset_Ici_self
    -- the three pieces agree where they meet
    have h12 : Set.EqOn (splineTransfer W { tab := t, k0 := a.1, T0 := a.2, T0nw := noWiggle e a.1, k1 := b.1, T1 := b.2, T1nw := noWiggle e b.1 } e)
        (fun k => if k ≤ a.1 then a.2*noWiggle e k/noWiggle e a.1 else if b.1 ≤ k then b.2*noWiggle e k/noWiggle e b.1 else W.spline t k) (Set.Ioi 0) := by
      intro k hk
      unfold splineTransfer
      rw [if_neg (not_le.2 hk)]
    refine ContinuousOn.congr ?_ h12
    refine ContinuousOn.if (fun k hk => ?_) (hlow.mono Set.inter_subset_left) ?_
    · have : k = a.1 := by
        have := frontier_le_subset_eq continuous_id continuous_const hk.2
        simpa using this
      rw [this, ea]
      split
      · next hba =>
        have : a.1 = b.1 := le_antisymm h1 hba
        rw [← this] at hb eb
        rw [← this, eb, ← hb, ← ha]
      · exact ha.symm
    · refine ContinuousOn.if (fun k hk => ?_) (hhigh.mono fun k hk => hk.1.1) ?_
      · have : b.1 = k := by
          have := frontier_le_subset_eq continuous_const continuous_id hk.2
          exact this
        rw [← this, eb, hb]
      · refine hc.mono ?_
        intro k hk
        have k1 : a.1 ≤ k := by
          have := closure_mono (s := {k | ¬ k ≤ a.1}) (t := Set.Ici a.1) (fun k hk => (not_le.1 hk).le) hk.1.2
          rwa [(isClosed_Ici (a := a.1)).closure_eq] at this
        have k2 : k ≤ b.1 := by
          have := closure_mono (s := {k | ¬ b.1 ≤ k}) (t := Set.Iic b.1) (fun k hk => (not_le.1 hk).le) hk.2
          rwa [(isClosed_Iic (a := b.1)).closure_eq] at this
        exact ⟨k1, k2⟩
  · intro a' ha' b' hb'
    rw [h2] at ha'
    rw [h3] at hb'
    cases ha'
    cases hb'
    refine ⟨?_, fun hab => ?_⟩
    · unfold splineTransfer
      rw [if_neg (not_le.2 h0), if_pos (le_refl _)]
      exact ea
    · unfold splineTransfer
      rw [if_neg (not_le.2 hb0), if_neg (not_le.2 hab), if_pos (le_refl _)]
      exact eb

/-- **C107** (concrete case): the parameters of all universes with at most a quarter of the matter in baryons, and a matter density near that observed, are `Physical` -/
theorem C107_physical {e : Run} (h : 0 < e.h) (Om : 0 < e.Om) (Ob : 0 ≤ e.Ob) (hT : 0 < e.Tcmb) (hb : e.Ob ≤ e.Om/4) (h1 : e.Om*e.h^2 ≤ 1) (h2 : 10/223 ≤ e.Om*e.h^2) : Physical e := by
  refine ⟨h, Om, Ob, hT, ?_⟩
  unfold alphaGamma
  simp only
  have hf : e.Ob*e.h^2/(e.Om*e.h^2) = e.Ob/e.Om := by field_simp
  rw [hf]
  have hf1 : e.Ob/e.Om ≤ 1/4 := by rw [div_le_iff₀ Om]; linarith
  have hf0 : 0 ≤ e.Ob/e.Om := by positivity
  have hl1 : Real.log (431*(e.Om*e.h^2)) ≤ 9*Real.log 2 := by
    have : (9:ℝ)*Real.log 2 = Real.log (2^9) := by rw [Real.log_pow]; norm_num
    rw [this]
    exact Real.log_le_log (by positivity) (by norm_num; linarith)
  have hl2 : 0 ≤ Real.log (223/10*(e.Om*e.h^2)) := Real.log_nonneg (by linarith)
  have hl3 := Real.log_two_lt_d9
  have : 328/1000*Real.log (431*(e.Om*e.h^2))*(e.Ob/e.Om) ≤ 328/1000*(9*(0.6931471808))*(1/4) := by
    have h5 : 0 ≤ Real.log (431*(e.Om*e.h^2)) := Real.log_nonneg (by linarith)
    have h6 : Real.log (431*(e.Om*e.h^2)) ≤ 9*0.6931471808 := by linarith
    have h7 : Real.log (431*(e.Om*e.h^2))*(e.Ob/e.Om) ≤ (9*0.6931471808)*(1/4) := mul_le_mul h6 hf1 hf0 (by norm_num)
    linarith
  have h8 : 0 ≤ 38/100*Real.log (223/10*(e.Om*e.h^2))*(e.Ob/e.Om)^2 := by positivity
  norm_num at this
  linarith

/-! ### the full fit of Eisenstein and Hu -/

theorem tdiv {l : Filter ℝ} {f g : ℝ → ℝ} {a : ℝ} (hf : Tendsto f l (𝓝 a)) (hg : Tendsto g l (𝓝 1)) : Tendsto (fun k => f k/g k) l (𝓝 a) := by
  have := hf.div hg one_ne_zero
  rwa [div_one] at this

/-- the full fit with its parameters as arguments -/
theorem eh_limit {h ke r bc ac bn bb ab ks f : ℝ} (hh : 0 < h) (hke : 0 < ke) (hr : 0 < r) (hbn : 0 < bn) (hbb : 0 < bb) :
    Tendsto (fun k : ℝ =>
      f*(Real.sin (k*h*(r*(1 + (bn/(k*h*r))^3).rpow (-(1/3))))/(k*h*(r*(1 + (bn/(k*h*r))^3).rpow (-(1/3))))*
        (Real.log (Real.exp 1 + 18/10*(k*h/(1341/100)/ke))/(Real.log (Real.exp 1 + 18/10*(k*h/(1341/100)/ke)) + (142/10 + 386/(1 + 699/10*(k*h/(1341/100)/ke).rpow (108/100)))*(k*h/(1341/100)/ke)^2)/
          (1 + (k*h*r/(52/10))^2) + ab/(1 + (bb/(k*h*r))^3)*Real.exp (-((k*h/ks).rpow (14/10))))) +
      (1 - f)*(1/(1 + (k*h*r/(54/10))^4)*Real.log (Real.exp 1 + 18/10*bc*(k*h/(1341/100)/ke))/
          (Real.log (Real.exp 1 + 18/10*bc*(k*h/(1341/100)/ke)) + (142/10 + 386/(1 + 699/10*(k*h/(1341/100)/ke).rpow (108/100)))*(k*h/(1341/100)/ke)^2) +
        (1 - 1/(1 + (k*h*r/(54/10))^4))*Real.log (Real.exp 1 + 18/10*bc*(k*h/(1341/100)/ke))/
          (Real.log (Real.exp 1 + 18/10*bc*(k*h/(1341/100)/ke)) + (142/10/ac + 386/(1 + 699/10*(k*h/(1341/100)/ke).rpow (108/100)))*(k*h/(1341/100)/ke)^2)))
      (𝓝[>] 0) (𝓝 1) := by
  have hid : Tendsto (fun k : ℝ => k) (𝓝[>] 0) (𝓝 0) := tendsto_id.mono_left nhdsWithin_le_nhds
  have hkh : Tendsto (fun k : ℝ => k*h) (𝓝[>] 0) (𝓝 0) := by simpa using hid.mul_const h
  have hq : Tendsto (fun k : ℝ => k*h/(1341/100)/ke) (𝓝[>] 0) (𝓝 0) := by simpa using (hkh.div_const (1341/100)).div_const ke
  have hxx : Tendsto (fun k : ℝ => k*h*r) (𝓝[>] 0) (𝓝 0) := by simpa using hkh.mul_const r
  have hxx' : Tendsto (fun k : ℝ => k*h*r) (𝓝[>] 0) (𝓝[>] 0) := by
    refine tendsto_nhdsWithin_iff.2 ⟨hxx, ?_⟩
    filter_upwards [self_mem_nhdsWithin] with k hk
    have hk : 0 < k := hk
    simp only [Set.mem_Ioi]; positivity
  -- powers
  have hp : Tendsto (fun k : ℝ => (k*h/(1341/100)/ke).rpow (108/100)) (𝓝[>] 0) (𝓝 0) := by
    have := hq.rpow_const (p := 108/100) (Or.inr (by norm_num))
    rwa [Real.zero_rpow (by norm_num)] at this
  have hks : Tendsto (fun k : ℝ => Real.exp (-((k*h/ks).rpow (14/10)))) (𝓝[>] 0) (𝓝 1) := by
    have h1 : Tendsto (fun k : ℝ => k*h/ks) (𝓝[>] 0) (𝓝 0) := by simpa using hkh.div_const ks
    have := h1.rpow_const (p := 14/10) (Or.inr (by norm_num))
    rw [Real.zero_rpow (by norm_num)] at this
    have h2 := (Real.continuous_exp.tendsto _).comp this.neg
    rw [neg_zero, Real.exp_zero] at h2
    exact h2
  -- logarithms
  have hlog : ∀ b : ℝ, Tendsto (fun k : ℝ => Real.log (Real.exp 1 + 18/10*b*(k*h/(1341/100)/ke))) (𝓝[>] 0) (𝓝 1) := by
    intro b
    have h1 : Tendsto (fun k : ℝ => Real.exp 1 + 18/10*b*(k*h/(1341/100)/ke)) (𝓝[>] 0) (𝓝 (Real.exp 1)) := by
      simpa using (hq.const_mul (18/10*b)).const_add (Real.exp 1)
    have := h1.log (Real.exp_pos 1).ne'
    rwa [Real.log_exp] at this
  have hlog1 : Tendsto (fun k : ℝ => Real.log (Real.exp 1 + 18/10*(k*h/(1341/100)/ke))) (𝓝[>] 0) (𝓝 1) := by simpa using hlog 1
  have hC : ∀ c : ℝ, Tendsto (fun k : ℝ => (c + 386/(1 + 699/10*(k*h/(1341/100)/ke).rpow (108/100)))*(k*h/(1341/100)/ke)^2) (𝓝[>] 0) (𝓝 0) := by
    intro c
    have h1 : Tendsto (fun k : ℝ => 1 + 699/10*(k*h/(1341/100)/ke).rpow (108/100)) (𝓝[>] 0) (𝓝 1) := by simpa using (hp.const_mul (699/10)).const_add 1
    have h2 := ((tdiv (tendsto_const_nhds (x := (386:ℝ))) h1).const_add c).mul (hq.pow 2)
    simpa using h2
  have hratio : ∀ b c : ℝ, Tendsto (fun k : ℝ => Real.log (Real.exp 1 + 18/10*b*(k*h/(1341/100)/ke))/
      (Real.log (Real.exp 1 + 18/10*b*(k*h/(1341/100)/ke)) + (c + 386/(1 + 699/10*(k*h/(1341/100)/ke).rpow (108/100)))*(k*h/(1341/100)/ke)^2)) (𝓝[>] 0) (𝓝 1) := by
    intro b c
    exact tdiv (hlog b) (by simpa using (hlog b).add (hC c))
  -- the denominators
  have hf4 : Tendsto (fun k : ℝ => 1/(1 + (k*h*r/(54/10))^4)) (𝓝[>] 0) (𝓝 1) := by
    have : Tendsto (fun k : ℝ => 1 + (k*h*r/(54/10))^4) (𝓝[>] 0) (𝓝 1) := by simpa using ((hxx.div_const (54/10)).pow 4).const_add 1
    exact tdiv tendsto_const_nhds this
  have hf2 : Tendsto (fun k : ℝ => 1 + (k*h*r/(52/10))^2) (𝓝[>] 0) (𝓝 1) := by simpa using ((hxx.div_const (52/10)).pow 2).const_add 1
  have hinf : ∀ b : ℝ, 0 < b → Tendsto (fun k : ℝ => 1 + (b/(k*h*r))^3) (𝓝[>] 0) atTop := by
    intro b hb
    have h1 : Tendsto (fun k : ℝ => b/(k*h*r)) (𝓝[>] 0) atTop := by
      have := (tendsto_inv_nhdsGT_zero.comp hxx').const_mul_atTop hb
      exact this
    exact tendsto_atTop_add_const_left _ 1 ((tendsto_pow_atTop (by norm_num : (3:ℕ) ≠ 0)).comp h1)
  have hab : Tendsto (fun k : ℝ => ab/(1 + (bb/(k*h*r))^3)) (𝓝[>] 0) (𝓝 0) := (hinf bb hbb).const_div_atTop ab
  have hst : Tendsto (fun k : ℝ => (1 + (bn/(k*h*r))^3).rpow (-(1/3))) (𝓝[>] 0) (𝓝 0) := (tendsto_rpow_neg_atTop (by norm_num : (0:ℝ) < 1/3)).comp (hinf bn hbn)
  have hxt : Tendsto (fun k : ℝ => k*h*(r*(1 + (bn/(k*h*r))^3).rpow (-(1/3)))) (𝓝[>] 0) (𝓝[≠] 0) := by
    refine tendsto_nhdsWithin_iff.2 ⟨by simpa using hkh.mul (hst.const_mul r), ?_⟩
    filter_upwards [self_mem_nhdsWithin] with k hk
    have hk : 0 < k := hk
    have : 0 < (1 + (bn/(k*h*r))^3).rpow (-(1/3)) := Real.rpow_pos_of_pos (by positivity) _
    simp only [Set.mem_compl_iff, Set.mem_singleton_iff]
    positivity
  have hsin : Tendsto (fun x : ℝ => Real.sin x/x) (𝓝[≠] 0) (𝓝 1) := by
    have hd := Real.hasDerivAt_sin 0
    rw [Real.cos_zero] at hd
    have := hasDerivAt_iff_tendsto_slope.1 hd
    refine this.congr fun x => ?_
    simp [slope_def_field]
  have hTb := (hsin.comp hxt).mul (((by simpa using hratio 1 (142/10) : Tendsto (fun k : ℝ => Real.log (Real.exp 1 + 18/10*(k*h/(1341/100)/ke))/
      (Real.log (Real.exp 1 + 18/10*(k*h/(1341/100)/ke)) + (142/10 + 386/(1 + 699/10*(k*h/(1341/100)/ke).rpow (108/100)))*(k*h/(1341/100)/ke)^2)) (𝓝[>] 0) (𝓝 1)) |> fun H => tdiv H hf2).add (hab.mul hks))
  have hTc := (hf4.mul (hratio bc (142/10))).add ((hf4.const_sub 1).mul (hratio bc (142/10/ac)))
  have := (hTb.const_mul f).add (hTc.const_mul (1 - f))
  have e1 : f*(1*(1 + 0*1)) + (1 - f)*(1*1 + (1 - 1)*1) = 1 := by ring
  rw [e1] at this
  refine this.congr fun k => ?_
  simp only [Function.comp, Pi.div_apply, mul_div_assoc]

/-- **C107** (Eisenstein and Hu): the full fit tends to one for `k → 0`, if there are baryons -/
theorem C107_eisensteinHu {e : Run} (hh : 0 < e.h) (hO : 0 < e.Om) (hT : 0 < e.Tcmb) (hb : 0 < e.Ob) (hbO : e.Ob ≤ e.Om) : Tendsto (eisensteinHu e) (𝓝[>] 0) (𝓝 1) := by
  have h1 : 0 < e.Om*e.h^2 := by positivity
  have h2 : 0 < e.Ob*e.h^2 := by positivity
  have h3 : 0 < e.Tcmb/(27/10) := by positivity
  unfold eisensteinHu
  extract_lets
  rename_i h2' omh2 obh2 theta f_baryon z_eq k_eq b1 b2 z_drag R_drag R_eq hor k_silk a1 a2 alpha_c c1 c2 beta_c y G alpha_b beta_node beta_b
  have hke : 0 < k_eq := by positivity
  have hR : 0 < R_eq := by positivity
  have hz : 0 < z_drag := by
    have p1 : 0 < omh2.rpow (-(419/1000)) := Real.rpow_pos_of_pos h1 _
    have p2 : 0 < omh2.rpow (674/1000) := Real.rpow_pos_of_pos h1 _
    have p3 : 0 < omh2.rpow (251/1000) := Real.rpow_pos_of_pos h1 _
    have p4 : 0 < omh2.rpow (828/1000) := Real.rpow_pos_of_pos h1 _
    have p5 : 0 < obh2.rpow b2 := Real.rpow_pos_of_pos h2 _
    positivity
  have hRd : 0 < R_drag := by positivity
  have hhor : 0 < hor := by
    have hlog : 0 < Real.log ((Real.sqrt (1 + R_drag) + Real.sqrt (R_drag + R_eq))/(1 + Real.sqrt R_eq)) := by
      apply Real.log_pos
      rw [one_lt_div (by positivity)]
      have g1 : 1 < Real.sqrt (1 + R_drag) := by rw [Real.lt_sqrt (by norm_num)]; linarith
      have g2 : Real.sqrt R_eq < Real.sqrt (R_drag + R_eq) := Real.sqrt_lt_sqrt hR.le (by linarith)
      linarith
    positivity
  have hbn : 0 < beta_node := by
    have : 0 < omh2.rpow (435/1000) := Real.rpow_pos_of_pos h1 _
    positivity
  have hf : f_baryon ≤ 1 := by
    change e.Ob*e.h^2/(e.Om*e.h^2) ≤ 1
    rw [div_le_one h1]
    nlinarith [pow_pos hh 2]
  have hf0 : 0 < f_baryon := by positivity
  have hbb : 0 < beta_b := by
    have : 0 ≤ (3 - 2*f_baryon)*Real.sqrt ((172/10*omh2)^2 + 1) := mul_nonneg (by linarith) (Real.sqrt_nonneg _)
    change 0 < 1/2 + f_baryon + (3 - 2*f_baryon)*Real.sqrt ((172/10*omh2)^2 + 1)
    linarith
  exact eh_limit (h := e.h) (ke := k_eq) (r := hor) (bc := beta_c) (ac := alpha_c) (bn := beta_node) (bb := beta_b) (ab := alpha_b) (ks := k_silk) (f := f_baryon) hh hke hhor hbn hbb

/-! ### consequences for the normalisation -/

open Spec in
/-- **C101** (normalisation): for the fits without wiggles and of BBKS, no assumption on the spectrum is needed -/
theorem C101_normalised_fits (W : World) {σ : Cos} (h : Reach W (fun _ op => ∀ s, op ≠ .normalize s) σ) {e : Run} (he : σ.eng = some e) (hp : Physical e)
    (hf : σ.fit = .EH_NoWiggle ∨ σ.fit = .BBKS) {z : ℝ} (hz : sigma8z e σ z ≠ 0) :
    ∃ P, linearPS W σ z = some P ∧ |variance P 8 - (sigma8z e σ z)^2| ≤ 1/10^17*(sigma8z e σ z)^2 := by
  obtain ⟨e', T, g1, g2, g3, g4⟩ := reach_good (fun σ s h => h s rfl) h
  rw [he] at g1; cases g1
  have key : ContinuousOn T (Set.Icc (1/100000) 100) ∧ ∀ k ∈ Set.Icc (1/100000:ℝ) 100, T k ≠ 0 := by
    have hT := g3
    unfold transfer at hT
    rw [g2] at hT
    have hk0 : ∀ k ∈ Set.Icc (1/100000:ℝ) 100, 0 < k := fun k hk => lt_of_lt_of_le (by norm_num) hk.1
    rcases hf with hf | hf <;> rw [hf] at hT <;> cases hT
    · obtain ⟨a, _, c⟩ := C107_noWiggle hp
      exact ⟨c.mono fun k hk => (hk0 k hk).le, fun k hk => (a k (hk0 k hk).le).1.ne'⟩
    · obtain ⟨a, _, c⟩ := C107_bbks hp.h hp.Om
      exact ⟨c.mono fun k hk => hk0 k hk, fun k hk => (a k (hk0 k hk)).1.ne'⟩
  obtain ⟨P, hP, hpos⟩ := linear_pos W h he g3 key.1 key.2 hz
  exact ⟨P, hP, C101_normalised W h z he hP hpos⟩

open Spec in
/-- **C101** (finding, concrete case): with `sigma8` set to two where CLASS has one, the no-wiggle spectrum asked to have `sigma8_z = 1` has a variance of a quarter -/
theorem C101_normed_nw_ex : ∃ P, normedNoWiggle exW 1 exCos = some P ∧ |variance P 8 - 1/4| ≤ 1/10^17 := by
  have hp : Physical (exRun (fromDict exCos.pars)) := C107_physical (by norm_num [exRun]) (by norm_num [exRun]) (by norm_num [exRun]) (by norm_num [exRun]) (by norm_num [exRun]) (by norm_num [exRun])
    (by norm_num [exRun])
  obtain ⟨τ, hτ, he, hs, hf⟩ : ∃ τ, clone exW (some .EH_NoWiggle) exCos = some τ ∧ τ.eng = some (exRun (fromDict exCos.pars)) ∧ τ.sigma8 = 1 ∧ τ.fit = .EH_NoWiggle := ⟨_, rfl, rfl, rfl, rfl⟩
  have hr : Reach exW (fun _ op => ∀ s, op ≠ .normalize s) τ := .step exCos (.clone (some .EH_NoWiggle)) τ ex_reach (by simp) hτ
  have h0 : sigma8z (exRun (fromDict exCos.pars)) τ 0 = 1 := by rw [sigma8z_zero (by simp [exRun]) (by simp [exRun]), hs]
  obtain ⟨P, hP, hv⟩ := C101_normalised_fits exW hr he hp (Or.inl hf) (z := 0) (by rw [h0]; norm_num)
  rw [h0] at hv
  refine ⟨fun k => (1/exCos.sigma8)^2*P k, by unfold normedNoWiggle; rw [hτ]; simp [hP], ?_⟩
  rw [variance_mul]
  have : exCos.sigma8 = 2 := rfl
  rw [this]
  have hv := abs_le.1 hv
  norm_num at hv ⊢
  exact abs_le.2 ⟨by linarith [hv.1], by linarith [hv.2]⟩

end Verif.Cosmo
