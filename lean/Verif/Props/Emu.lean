/-
C137: the nonlinear power spectrum of the emulator.
-/
import Verif.Lemmas.Emu
import Mathlib.Analysis.SpecialFunctions.Pow.Continuity
import Mathlib.MeasureTheory.Integral.IntervalIntegral.FundThmCalculus

namespace Verif.Emu

open Set

noncomputable section

/-! ### Which cosmologies are accepted -/

/-- the box, without the upper limits of the equation of state and of σ₈ that the emulator computes for itself -/
theorem verify_iff (c : Cosmo) (z : ℝ) (cmbh : Bool) : verify c c.h (some z) cmbh = true ↔ Box c.ob c.om c.ns c.h c.w c.s8 z cmbh := by
  unfold verify Box
  constructor
  · intro h
    dsimp only at h
    split_ifs at h with h1 h2 h3 h4 h5 h6 h7
    have h6' : ¬ (z < 0 ∨ 1 < z) := h6
    push Not at h1 h2 h3 h4 h5 h6'
    refine ⟨h1, h2, h3, h4, h5, h6', fun hc => ?_⟩
    simp only [hc, Bool.not_false, Bool.true_and, decide_eq_true_eq] at h7
    push Not at h7
    exact h7
  · rintro ⟨h1, h2, h3, h4, h5, h6, h7⟩
    have h6' : ¬ (lt (some z) (some 0) ∨ lt (some 1) (some z)) := by
      show ¬ (z < 0 ∨ 1 < z)
      push Not; exact h6
    dsimp only
    rw [if_neg (by push Not; exact h1), if_neg (by push Not; exact h2), if_neg (by push Not; exact h3), if_neg (by push Not; exact h4), if_neg (by push Not; exact h5),
      if_neg h6']
    cases cmbh
    · have := h7 rfl
      rw [if_neg]
      simp only [Bool.not_false, Bool.true_and, decide_eq_true_eq]
      push Not
      exact this
    · simp

theorem verify_nan (c : Cosmo) (z : ℝ) (hz : 0 ≤ z ∧ z ≤ 1) (cmbh : Bool) : verify c c.h none cmbh = verify c c.h (some z) cmbh := by
  unfold verify
  have h1 : ¬ (lt none (some 0) ∨ lt (some 1) none) := by simp [lt]
  have h2 : ¬ (lt (some z) (some 0) ∨ lt (some 1) (some z)) := by
    show ¬ (z < 0 ∨ 1 < z)
    push Not; exact hz
  simp only [if_neg h1, if_neg h2]

/-- a world with the tables that are shipped -/
def World.Shipped (W : World) : Prop := (∃ x w K mean, W.T = shipped x w K mean) ∧ ∃ x w K mean, W.T' = shippedNoh x w K mean

theorem dys : dy 5404319552844595 53 ≤ dy 5494391545392005 53 ∧ dy (-6305039478318695) 53 < dy (-6305039478318694) 53 ∧ dy 8106479329266892 53 < dy 8106479329266893 53 := by
  unfold dy; norm_num

/-- the vectors of parameters inside of the limits of the emulators -/
theorem inside6 (a b : Fin 6 → ℝ) (v : Fin 6 → ℝ) : (¬ ∃ i, v i < a i ∨ b i < v i) ↔ ∀ i, a i ≤ v i ∧ v i ≤ b i := by
  push Not; rfl

theorem inside5 (a b : Fin 5 → ℝ) (v : Fin 5 → ℝ) : (¬ ∃ i, v i < a i ∨ b i < v i) ↔ ∀ i, a i ≤ v i ∧ v i ≤ b i := by
  push Not; rfl

/-- for a cosmology of the box, the emulator only looks at the two upper limits -/
theorem within {c : Cosmo} {z : ℝ} (h : Box c.ob c.om c.ns c.h c.w c.s8 z false) {x w K mean} :
    (∃ i, ![c.ob * c.h ^ 2, c.om * c.h ^ 2, c.ns, 100 * c.h, c.w, c.s8] i < (shipped x w K mean).xmin i ∨
      (shipped x w K mean).top i < ![c.ob * c.h ^ 2, c.om * c.h ^ 2, c.ns, 100 * c.h, c.w, c.s8] i) ↔ dy (-6305039478318695) 53 < c.w ∨ dy 8106479329266892 53 < c.s8 := by
  obtain ⟨h1, h2, h3, h4, h5, _, h7⟩ := h
  have h7 := h7 rfl
  have d := dys
  constructor
  · intro h
    by_contra hn
    push Not at hn
    have := (inside6 (shipped x w K mean).xmin (shipped x w K mean).top ![c.ob * c.h ^ 2, c.om * c.h ^ 2, c.ns, 100 * c.h, c.w, c.s8]).2 (fun i => by
      fin_cases i
      · exact h2
      · exact h1
      · exact h3
      · exact h7
      · exact ⟨h5.1, hn.1⟩
      · exact ⟨d.1.trans h4.1, hn.2⟩)
    exact this h
  · intro h
    rcases h with h | h
    · exact ⟨4, Or.inr h⟩
    · exact ⟨5, Or.inr h⟩

theorem withinNoh {c : Cosmo} {z : ℝ} (h : Box c.ob c.om c.ns c.h c.w c.s8 z true) {x w K mean} :
    (∃ i, ![c.ob * c.h ^ 2, c.om * c.h ^ 2, c.ns, c.w, c.s8] i < (shippedNoh x w K mean).xmin i ∨
      (shippedNoh x w K mean).top i < ![c.ob * c.h ^ 2, c.om * c.h ^ 2, c.ns, c.w, c.s8] i) ↔ dy (-6305039478318695) 53 < c.w ∨ dy 8106479329266892 53 < c.s8 := by
  obtain ⟨h1, h2, h3, h4, h5, _, _⟩ := h
  have d := dys
  constructor
  · intro h
    by_contra hn
    push Not at hn
    have := (inside5 (shippedNoh x w K mean).xmin (shippedNoh x w K mean).top ![c.ob * c.h ^ 2, c.om * c.h ^ 2, c.ns, c.w, c.s8]).2 (fun i => by
      fin_cases i
      · exact h2
      · exact h1
      · exact h3
      · exact ⟨h5.1, hn.1⟩
      · exact ⟨d.1.trans h4.1, hn.2⟩)
    exact this h
  · intro h
    rcases h with h | h
    · exact ⟨3, Or.inr h⟩
    · exact ⟨4, Or.inr h⟩

theorem create_raise {W : World} {c : Cosmo} {z : Num} {cmbh : Bool} (h : verify c c.h z cmbh = false) : create W c z cmbh = .raise := by
  unfold create
  simp [h]

theorem emu_in {T : Table} {xs : Fin T.p → ℝ} {z : Num} (h : ¬ ∃ i, xs i < T.xmin i ∨ T.top i < xs i) (hz : ¬ (lt z (some 0) ∨ lt (some 4) z)) (o : ℤ) :
    emu T xs z o = .ok fun i => (T.ksim i, z.map fun z => convert o (T.ksim i) (atZ T (standard T xs) z i)) := by
  unfold emu
  rw [if_neg h, if_neg hz]

theorem emu_out {T : Table} {xs : Fin T.p → ℝ} {z : Num} (h : ∃ i, xs i < T.xmin i ∨ T.top i < xs i) (o : ℤ) : emu T xs z o = .exit := by
  unfold emu
  rw [if_pos h]

/-! ### The search for the Hubble parameter ends -/

theorem bisect_ends (f : ℝ → ℝ) : ∀ (n fuel : ℕ) (lo hi y mid : ℝ), n < fuel → lo ≤ hi → hi - lo ≤ 2 ^ n * 1e-3 → ∃ h, bisect f fuel lo hi y mid = some h
  | 0, fuel+1, lo, hi, y, mid, _, hl, hw => by
    rw [bisect, if_neg]
    · exact ⟨_, rfl⟩
    · rw [not_lt, abs_of_nonneg (by linarith)]; simpa using hw
  | n+1, fuel+1, lo, hi, y, mid, hf, hl, hw => by
    rw [bisect]
    split_ifs with h
    · dsimp only
      split_ifs with h'
      · exact bisect_ends f n fuel lo ((hi + lo) / 2) y _ (by omega) (by linarith) (by rw [pow_succ] at hw; linarith)
      · exact bisect_ends f n fuel ((hi + lo) / 2) hi _ _ (by omega) (by linarith) (by rw [pow_succ] at hw; linarith)
    · exact ⟨_, rfl⟩
  | _, 0, _, _, _, _, h, _, _ => by omega

theorem h0_ends (quad : (ℝ → ℝ) → ℝ → ℝ → ℝ) (wb wm w : ℝ) : ∃ h, h0FromCMB quad wb wm w = some h := by
  unfold h0FromCMB solvehh
  exact bisect_ends _ 10 20 _ _ _ _ (by norm_num) (by norm_num) (by norm_num)

/-- C137: what happens to a cosmology, with the tables that are shipped and a redshift that is not nan.  Outside of the documented box there is an exception, inside an object, except if the
equation of state or σ₈ is above the upper limit that the emulator computes from its tables, which is less than the documented one: then the process ends. -/
theorem C137_accept_partial {W : World} (hW : W.Shipped) (c : Cosmo) (z : ℝ) (cmbh : Bool) :
    (create W c (some z) cmbh = .raise ↔ ¬ Box c.ob c.om c.ns c.h c.w c.s8 z cmbh) ∧
      (Box c.ob c.om c.ns c.h c.w c.s8 z cmbh → (dy (-6305039478318695) 53 < c.w ∨ dy 8106479329266892 53 < c.s8) → create W c (some z) cmbh = .exit) ∧
      (Box c.ob c.om c.ns c.h c.w c.s8 z cmbh → c.w ≤ dy (-6305039478318695) 53 → c.s8 ≤ dy 8106479329266892 53 → ∃ s, create W c (some z) cmbh = .ok s) := by
  obtain ⟨T, T', hp, hp', quad, mem⟩ := W
  obtain ⟨⟨x, w, K, mean, e⟩, x', w', K', mean', e'⟩ := hW
  dsimp only at e e'
  subst e e'
  have bad : Box c.ob c.om c.ns c.h c.w c.s8 z cmbh → (dy (-6305039478318695) 53 < c.w ∨ dy 8106479329266892 53 < c.s8) →
      create ⟨_, _, hp, hp', quad, mem⟩ c (some z) cmbh = .exit := by
    intro hb h
    have hv := (verify_iff c z cmbh).2 hb
    unfold create
    dsimp only
    rw [hv]
    cases cmbh
    · simp only [Bool.not_true, Bool.false_eq_true, if_false]
      rw [emu_out (T := shipped x w K mean) (xs := fun i => ![c.ob * c.h ^ 2, c.om * c.h ^ 2, c.ns, 100 * c.h, c.w, c.s8] (Fin.cast hp i)) ((within hb).2 h)]
      rfl
    · simp only [Bool.not_true, Bool.false_eq_true, if_false, if_true]
      rw [emu_out (T := shippedNoh x' w' K' mean') (xs := fun i => ![c.ob * c.h ^ 2, c.om * c.h ^ 2, c.ns, c.w, c.s8] (Fin.cast hp' i)) ((withinNoh hb).2 h)]
      rfl
  have good : Box c.ob c.om c.ns c.h c.w c.s8 z cmbh → c.w ≤ dy (-6305039478318695) 53 → c.s8 ≤ dy 8106479329266892 53 →
      ∃ s, create ⟨_, _, hp, hp', quad, mem⟩ c (some z) cmbh = .ok s := by
    intro hb h1 h2
    have hn : ¬ (dy (-6305039478318695) 53 < c.w ∨ dy 8106479329266892 53 < c.s8) := by push Not; exact ⟨h1, h2⟩
    have hz : ¬ (lt (some z) (some 0) ∨ lt (some 4) (some z)) := by
      have := hb.2.2.2.2.2.1
      simp only [lt]; push Not; exact ⟨this.1, by linarith [this.2]⟩
    have hv := (verify_iff c z cmbh).2 hb
    unfold create
    dsimp only
    rw [hv]
    cases cmbh
    · simp only [Bool.not_true, Bool.false_eq_true, if_false]
      rw [emu_in (T := shipped x w K mean) (xs := fun i => ![c.ob * c.h ^ 2, c.om * c.h ^ 2, c.ns, 100 * c.h, c.w, c.s8] (Fin.cast hp i)) (mt (within hb).1 hn) hz]
      exact ⟨_, rfl⟩
    · simp only [Bool.not_true, Bool.false_eq_true, if_false, if_true]
      rw [emu_in (T := shippedNoh x' w' K' mean') (xs := fun i => ![c.ob * c.h ^ 2, c.om * c.h ^ 2, c.ns, c.w, c.s8] (Fin.cast hp' i)) (mt (withinNoh hb).1 hn) hz]
      obtain ⟨h, hh⟩ := h0_ends quad (c.ob * c.h ^ 2) (c.om * c.h ^ 2) c.w
      exact ⟨_, by simp only [Out.andThen, hh]; rfl⟩
  refine ⟨⟨fun h hb => ?_, fun h => create_raise ?_⟩, bad, good⟩
  · by_cases hs : dy (-6305039478318695) 53 < c.w ∨ dy 8106479329266892 53 < c.s8
    · rw [bad hb hs] at h; cases h
    · push Not at hs
      obtain ⟨s, hs⟩ := good hb hs.1 hs.2
      rw [hs] at h; cases h
  · rw [← Bool.not_eq_true]
    exact mt (verify_iff c z cmbh).1 h

/-- a cosmology with equation of state -0.7 -/
def edge : Cosmo := ⟨0.0225 / 0.49, 0.13 / 0.49, 0.96, 0.7, dy (-6305039478318694) 53, 0.8⟩

/-- C137, what is missing: the equation of state -0.7 (and likewise σ₈ = 0.9) is inside of the documented box, but it ends the Python process: the emulator's own limit is -1.3 + 0.6, which in doubles is
less than -0.7 (and 0.6 + 0.3 less than 0.9). -/
theorem C137_exit_counterexample {W : World} (hW : W.Shipped) :
    Box edge.ob edge.om edge.ns edge.h edge.w edge.s8 0 false ∧ create W edge (some 0) false = .exit ∧
      Nearest (-5854679515581645 / 2 ^ 52 + 5404319552844595 / 2 ^ 53) (-6305039478318695) 53 ∧ Nearest (5404319552844595 / 2 ^ 53 + 5404319552844595 / 2 ^ 54) 8106479329266892 53 := by
  have hb : Box edge.ob edge.om edge.ns edge.h edge.w edge.s8 0 false := by
    unfold Box edge dy; norm_num
  refine ⟨hb, (C137_accept_partial hW edge 0 false).2.1 hb (Or.inl dys.2.1), ?_, ?_⟩
  · unfold Nearest
    refine ⟨by norm_num, by norm_num, Or.inl (by norm_num [abs_lt])⟩
  · unfold Nearest
    refine ⟨by norm_num, by norm_num, Or.inr ⟨by norm_num, by decide⟩⟩

end

end Verif.Emu
