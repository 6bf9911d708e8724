/-
C129: a table with two rows.
-/
import Verif.Props.SimFitState
import Verif.Props.SimFitUnits
import Mathlib.Tactic.IntervalCases

namespace Verif.SimFit

noncomputable section

open Classical

/-- Two rows; `w` is `x` the other way round, `z` is `y` the other way round. -/
def exFrame : Frame := ⟨2, fun c =>
  if c = "x" then some ![0, 1] else if c = "w" then some ![1, 0] else if c = "y" then some ![0, 2] else if c = "z" then some ![2, 0]
  else if c = "y_err" then some ![1, 1] else if c = "z_err" then some ![1, 1] else none⟩

def exPar (θ : ℝ) (ue : Bool) (dep ind : String) : Params := ⟨ue, exFrame, [ind], dep, "BasicSolver", expSquared, [θ]⟩

theorem avg_two (a b : ℝ) : avg ![a, b] = (a + b) / 2 := by
  unfold avg
  simp

theorem spread_two {a b : ℝ} (h : a ≠ b) : spread ![a, b] = |b - a| / 2 := by
  unfold spread
  rw [if_neg (fun hh => h (by simpa using hh 0 1)), avg_two]
  have : (∑ i : Fin 2, ((![a, b] : Fin 2 → ℝ) i - (a + b) / 2) ^ 2) / ((2 : ℕ) : ℝ) = ((b - a) / 2) ^ 2 := by
    simp [Fin.sum_univ_two]
    ring
  rw [this, Real.sqrt_sq_eq_abs, abs_div]
  simp

theorem sq_eq_one_iff_of_side {e : ℝ} (h : e ^ 2 = 1) : e = 1 ∨ e = -1 := by
  have : (e - 1) * (e + 1) = 0 := by linear_combination h
  rcases mul_eq_zero.1 this with h | h
  · left; linarith
  · right; linarith

/-- The process with two points. -/
theorem two_points {k : (Fin 1 → ℝ) → (Fin 1 → ℝ) → ℝ} {θ : ℝ} (hk : k = expSquared 1 fun _ => θ) {x : Fin 2 → Fin 1 → ℝ} {e : ℝ} (he : e ^ 2 = 1)
    (h0 : x 0 = fun _ => -e) (h1 : x 1 = fun _ => e) {σ y : Fin 2 → ℝ} {u c : ℝ} (hσ : ∀ i, σ i = c) (hc : c ≠ 0) (hy0 : y 0 = -u) (hy1 : y 1 = u) (hθ : 0 < θ)
    {f : (Fin 1 → ℝ) → ℝ} (hf : IsMean k x σ y f) :
    f (fun _ => 1) = e * u * (1 - Real.exp (-2 / θ)) / (1 - Real.exp (-2 / θ) + c ^ 2) := by
  obtain ⟨α, ha, hfa⟩ := hf
  obtain ⟨q, hq⟩ : ∃ q, q = Real.exp (-2 / θ) := ⟨_, rfl⟩
  have hkv : ∀ s t : ℝ, k (fun _ => s) (fun _ => t) = Real.exp (-(1 / 2) * ((s - t) ^ 2 / θ)) := by
    intro s t
    rw [hk]
    unfold expSquared
    simp
  have hee : k (fun _ => e) (fun _ => e) = 1 := by rw [hkv]; simp
  have hmm : k (fun _ => -e) (fun _ => -e) = 1 := by rw [hkv]; simp
  have hem : k (fun _ => e) (fun _ => -e) = q := by
    rw [hkv, hq]
    congr 1
    have : (e - -e) ^ 2 = 4 := by ring_nf; rw [he]; norm_num
    rw [this]
    ring
  have hme : k (fun _ => -e) (fun _ => e) = q := by
    rw [hkv, hq]
    congr 1
    have : (-e - e) ^ 2 = 4 := by ring_nf; rw [he]; norm_num
    rw [this]
    ring
  have hq0 : 0 < q := by rw [hq]; exact Real.exp_pos _
  have hq1 : q < 1 := by
    rw [hq, Real.exp_lt_one_iff]
    exact div_neg_of_neg_of_pos (by norm_num) hθ
  have hc2 : 0 < c ^ 2 := by positivity
  have a0 := ha 0
  have a1 := ha 1
  rw [Fin.sum_univ_two, h0, h1, hmm, hme, hσ, hy0] at a0
  rw [Fin.sum_univ_two, h0, h1, hem, hee, hσ, hy1] at a1
  have hsum : α 0 = -α 1 := by
    have : (1 + q + c ^ 2) * (α 0 + α 1) = 0 := by linear_combination a0 + a1
    rcases mul_eq_zero.1 this with h | h
    · linarith
    · linarith
  have hdiff : (1 - q + c ^ 2) * α 1 = u := by
    rw [hsum] at a1
    linear_combination a1
  have hden : 1 - q + c ^ 2 ≠ 0 := by
    have : 0 < 1 - q + c ^ 2 := by linarith
    exact this.ne'
  rw [← hq, eq_div_iff hden]
  have he' : e = 1 ∨ e = -1 := sq_eq_one_iff_of_side he
  rcases he' with rfl | rfl
  · rw [hfa, Fin.sum_univ_two, h0, h1, hem, hee, hsum]
    linear_combination (1 - q) * hdiff
  · have e1 : (fun _ : Fin 1 => (1 : ℝ)) = fun _ => -(-1 : ℝ) := by funext; ring
    rw [hfa, Fin.sum_univ_two, h0, h1, e1, hmm, hme, hsum]
    linear_combination (-(1 - q)) * hdiff

theorem ex_init {θ : ℝ} {ue : Bool} {dep ind : String} (hi : exFrame.col ind ≠ none) (hd : exFrame.col dep ≠ none) (he : exFrame.col (dep ++ "_err") ≠ none) :
    init (exPar θ ue dep ind) = .ok ⟨exPar θ ue dep ind, {}⟩ := by
  unfold init exPar
  rw [if_neg (by simpa using hi), if_neg hd, if_neg (fun h => he h.2), if_neg (by simp)]

theorem some_ne {α : Type} {o : Option α} {v : α} (h : o = some v) : o ≠ none := by rw [h]; exact Option.some_ne_none v

/-- The value of a call -/
theorem ex_call {θ : ℝ} (hθ : 0 < θ) {ue : Bool} {dep ind : String} {e u : ℝ} (he : e = 1 ∨ e = -1) (hu : u = 1 ∨ u = -1)
    (hind : exFrame.col ind = some ![(1 - e) / 2, (1 + e) / 2]) (hdep : exFrame.col dep = some ![1 - u, 1 + u]) (herr : exFrame.col (dep ++ "_err") = some ![1, 1]) :
    (Fit.call [] [(ind, .scalar 1)] ⟨exPar θ ue dep ind, {}⟩).1 =
      .ok (.number (1 + e * u * (1 - Real.exp (-2 / θ)) / (1 - Real.exp (-2 / θ) + (if ue then 1 else tiny) ^ 2))) := by
  have hask : asked (exPar θ ue dep ind).indep [] [(ind, .scalar 1)] = .ok [[1]] := by
    have := C129_points_scalar (indep := [ind]) (kw := [(ind, .scalar 1)]) (v := fun _ => 1) (by simp) (by simp)
    exact this
  obtain ⟨l, hl, -⟩ := C129_defined (p := exPar θ ue dep ind) rfl (by simp [exPar, hθ]) (by simp [exPar]) (by simp [exPar, exFrame])
    (ex_init (some_ne hind) (some_ne hdep) (some_ne herr)) (by
      intro _ e' he' i
      have h1 : e' = ![1, 1] := Option.some.inj (he'.symm.trans herr)
      rw [h1]
      have : ∀ i : Fin 2, (![1, 1] : Fin 2 → ℝ) i ≠ 0 := by intro i; fin_cases i <;> simp
      exact this i) hask (by simp)
  obtain ⟨X, y, σ, k, f, hX0, hyv, hσ, hσ', hk, hf, hll⟩ : ∃ (X : Fin 2 → Fin 1 → ℝ) (y σ : Fin 2 → ℝ) (k : (Fin 1 → ℝ) → (Fin 1 → ℝ) → ℝ) (f : (Fin 1 → ℝ) → ℝ),
      (fun i => X i 0) = ![(1 - e) / 2, (1 + e) / 2] ∧ y = ![1 - u, 1 + u] ∧ (ue = true → ∀ i, σ i = (![1, 1] : Fin 2 → ℝ) i / spread y) ∧
      (ue = false → ∀ i, σ i = tiny) ∧ k = (expSquared 1 fun a => [θ].getD a 0) ∧
      IsMean k (fun i a => std (fun i => X i a) (X i a)) σ (fun i => std y (y i)) f ∧
      l = [avg y + spread y * f fun a => std (fun i => X i a) ([(1 : ℝ)].getD a 0)] := by
    obtain ⟨X, y, σ, k, f, pts, hX, hy, hσ, hσ', hk, hf, ha, hll⟩ := C129_value hl
    rw [hask] at ha
    cases ha
    refine ⟨X, y, σ, k, f, ?_, ?_, ?_, ?_, ?_, hf, hll⟩
    · exact Option.some.inj ((hX (0 : Fin 1)).symm.trans hind)
    · exact Option.some.inj (hy.symm.trans hdep)
    · intro hue
      obtain ⟨e', h1, h2⟩ := hσ hue
      have h3 : e' = ![1, 1] := Option.some.inj (h1.symm.trans herr)
      rw [h3] at h2
      exact h2
    · exact hσ'
    · rcases hk with ⟨_, hk⟩ | ⟨h, _⟩
      · exact hk
      · simp [exPar] at h
  have hu2 : |u| = 1 := by rcases hu with rfl | rfl <;> norm_num
  have he2 : |e| = 1 := by rcases he with rfl | rfl <;> norm_num
  have hu0 : u ≠ 0 := by rcases hu with rfl | rfl <;> norm_num
  have he0 : e ≠ 0 := by rcases he with rfl | rfl <;> norm_num
  have hesq : e ^ 2 = 1 := by rcases he with rfl | rfl <;> norm_num
  have havg : avg y = 1 := by rw [hyv]; exact (avg_two _ _).trans (by ring)
  have hspr : spread y = 1 := by
    rw [hyv]
    refine (spread_two (fun h => hu0 (by linarith))).trans ?_
    rw [show 1 + u - (1 - u) = 2 * u by ring, abs_mul, hu2]
    norm_num
  have hXavg : avg (fun i => X i 0) = 1 / 2 := by rw [hX0]; exact (avg_two _ _).trans (by ring)
  have hXspr : spread (fun i => X i 0) = 1 / 2 := by
    rw [hX0]
    refine (spread_two (fun h => he0 (by linarith))).trans ?_
    rw [show (1 + e) / 2 - (1 - e) / 2 = e by ring, he2]
  have hσc : ∀ i, σ i = if ue then 1 else tiny := by
    intro i
    cases hue : ue with
    | true =>
      rw [hσ hue, hspr, if_pos rfl, div_one]
      have : ∀ i : Fin 2, (![1, 1] : Fin 2 → ℝ) i = 1 := by intro i; fin_cases i <;> rfl
      exact this i
    | false =>
      rw [hσ' hue i]
      rfl
  have hkk : k = expSquared 1 fun _ => θ := by
    rw [hk]
    congr 1
    funext a
    fin_cases a
    rfl
  have hx0 : X 0 0 = (1 - e) / 2 := by simpa using congrFun hX0 0
  have hx1 : X 1 0 = (1 + e) / 2 := by simpa using congrFun hX0 1
  have hval := two_points (k := k) (θ := θ) hkk (x := fun i a => std (fun i => X i a) (X i a)) hesq
    (by
      funext a
      fin_cases a
      show std (fun i => X i 0) (X 0 0) = -e
      unfold std
      rw [hXavg, hXspr, hx0]
      ring)
    (by
      funext a
      fin_cases a
      show std (fun i => X i 0) (X 1 0) = e
      unfold std
      rw [hXavg, hXspr, hx1]
      ring)
    (σ := σ) (y := fun i => std y (y i)) (u := u) hσc (by unfold tiny; split_ifs <;> norm_num)
    (by
      show std y (y 0) = -u
      unfold std
      rw [havg, hspr, hyv]
      simp)
    (by
      show std y (y 1) = u
      unfold std
      rw [havg, hspr, hyv]
      simp) hθ hf
  refine (C129_number hl).1 _ ?_
  rw [hll]
  congr 1
  have ht : (fun a : Fin 1 => std (fun i => X i a) ([(1 : ℝ)].getD a 0)) = fun _ => 1 := by
    funext a
    fin_cases a
    show std (fun i => X i 0) 1 = 1
    unfold std
    rw [hXavg, hXspr]
    norm_num
  rw [havg, hspr, one_mul, ht, hval]

/-! ### The assignments that are not noticed, in this table -/

theorem ex_x : exFrame.col "x" = some ![(1 - 1) / 2, (1 + 1) / 2] := by
  show some _ = some _
  congr 1
  funext i
  revert i
  show ∀ i : Fin 2, (![0, 1] : Fin 2 → ℝ) i = (![(1 - 1) / 2, (1 + 1) / 2] : Fin 2 → ℝ) i
  intro i
  fin_cases i <;> norm_num

theorem ex_w : exFrame.col "w" = some ![(1 - -1) / 2, (1 + -1) / 2] := by
  show some _ = some _
  congr 1
  funext i
  revert i
  show ∀ i : Fin 2, (![1, 0] : Fin 2 → ℝ) i = (![(1 - -1) / 2, (1 + -1) / 2] : Fin 2 → ℝ) i
  intro i
  fin_cases i <;> norm_num

theorem ex_y : exFrame.col "y" = some ![1 - 1, 1 + 1] := by
  show some _ = some _
  congr 1
  funext i
  revert i
  show ∀ i : Fin 2, (![0, 2] : Fin 2 → ℝ) i = (![1 - 1, 1 + 1] : Fin 2 → ℝ) i
  intro i
  fin_cases i <;> norm_num

theorem ex_z : exFrame.col "z" = some ![1 - -1, 1 + -1] := by
  show some _ = some _
  congr 1
  funext i
  revert i
  show ∀ i : Fin 2, (![2, 0] : Fin 2 → ℝ) i = (![1 - -1, 1 + -1] : Fin 2 → ℝ) i
  intro i
  fin_cases i <;> norm_num

theorem ex_yerr : exFrame.col ("y" ++ "_err") = some ![1, 1] := rfl

theorem ex_zerr : exFrame.col ("z" ++ "_err") = some ![1, 1] := rfl

/-- `1 - exp(-2/θ)` is between 0 and 1 -/
theorem ex_gap {θ : ℝ} (hθ : 0 < θ) : 0 < 1 - Real.exp (-2 / θ) := by
  have : Real.exp (-2 / θ) < 1 := by
    rw [Real.exp_lt_one_iff]
    exact div_neg_of_neg_of_pos (by norm_num) hθ
  linarith

/-- C129 (against expectation): a table, a call, then an assignment, and the result is not that of a new object with the parameters the object now has: for the
hyperparameters, the use of errors, the dependent column, the independent column. -/
theorem C129_stale_counterexample (eqv : Same) (hne : eqv.theta [2] [1] = false) :
    ∃ s₀ : Fit, init (exPar 1 true "y" "x") = .ok s₀ ∧ (∃ r, (Fit.call [] [("x", .scalar 1)] s₀).1 = .ok r) ∧
      ∀ op ∈ [Op.theta [2], .useErrors false, .dep "z", .indep ["w"]], ∃ ind, (step eqv (step eqv s₀ (.call [] [("x", .scalar 1)])) op).par.indep = [ind] ∧
        ∃ s', init (step eqv (step eqv s₀ (.call [] [("x", .scalar 1)])) op).par = .ok s' ∧
          (Fit.call [] [(ind, .scalar 1)] (step eqv (step eqv s₀ (.call [] [("x", .scalar 1)])) op)).1 ≠ (Fit.call [] [(ind, .scalar 1)] s').1 := by
  have h0 := ex_call (θ := 1) one_pos (ue := true) (Or.inl rfl) (Or.inl rfl) ex_x ex_y ex_yerr
  obtain ⟨s₀, hs₀⟩ : ∃ s₀ : Fit, s₀ = ⟨exPar 1 true "y" "x", {}⟩ := ⟨_, rfl⟩
  rw [← hs₀] at h0
  have hinit : init (exPar 1 true "y" "x") = .ok s₀ := by rw [hs₀]; exact ex_init (some_ne ex_x) (some_ne ex_y) (some_ne ex_yerr)
  refine ⟨s₀, hinit, ⟨_, h0⟩, ?_⟩
  have hpar : (step eqv s₀ (.call [] [("x", .scalar 1)])).par = exPar 1 true "y" "x" := by
    have := (C129_assigned eqv s₀).2.2.2.2 [] [("x", .scalar 1)]
    rw [this, hs₀]
  have hagain : (Fit.call [] [("x", .scalar 1)] (step eqv s₀ (.call [] [("x", .scalar 1)]))).1 = (Fit.call [] [("x", .scalar 1)] s₀).1 := by
    have hinv : Inv s₀ := by rw [hs₀]; exact inv_empty _
    have hg := good_call [] [("x", .scalar 1)] s₀ hinv
    rw [hg.1]
    show (Fit.call [] [("x", .scalar 1)] (Fit.call [] [("x", .scalar 1)] s₀).2).1 = _
    rw [(good_call [] [("x", .scalar 1)] _ hg.2.1).1, hg.2.2]
  obtain ⟨hth, hdp, hue⟩ := C129_not_noticed_counterexample eqv h0 [] [("x", .scalar 1)]
  obtain ⟨q, hq⟩ : ∃ q, q = Real.exp (-2 / 1) := ⟨_, rfl⟩
  have hg1 : 0 < 1 - q := by rw [hq]; exact ex_gap one_pos
  rw [← hq] at h0
  have hv0 : (Fit.call [] [("x", .scalar 1)] s₀).1 = .ok (.number (1 + (1 - q) / (1 - q + 1))) := by
    rw [h0]
    norm_num
  have pos : 0 < (1 - q) / (1 - q + 1) := div_pos hg1 (by linarith)
  intro op hop
  simp only [List.mem_cons, List.not_mem_nil, or_false] at hop
  rcases hop with rfl | rfl | rfl | rfl
  · -- hyperparameters
    have hp : (step eqv (step eqv s₀ (.call [] [("x", .scalar 1)])) (.theta [2])).par = exPar 2 true "y" "x" := by
      rw [(C129_assigned eqv _).1 [2] (by rw [hpar]; exact hne), hpar]
      rfl
    refine ⟨"x", by rw [hp]; rfl, ⟨exPar 2 true "y" "x", {}⟩, by rw [hp]; exact ex_init (some_ne ex_x) (some_ne ex_y) (some_ne ex_yerr), ?_⟩
    rw [hth, hagain, hv0, ex_call (θ := 2) two_pos (ue := true) (Or.inl rfl) (Or.inl rfl) ex_x ex_y ex_yerr]
    obtain ⟨w, hw⟩ : ∃ w, w = Real.exp (-2 / 2) := ⟨_, rfl⟩
    have hg2 : 0 < 1 - w := by rw [hw]; exact ex_gap two_pos
    have hqw : q < w := by
      rw [hq, hw]
      exact Real.exp_lt_exp.2 (by norm_num)
    rw [← hw]
    intro h
    have h' := Out.number.inj (Except.ok.inj h)
    simp only [if_true, one_mul, one_pow] at h'
    have h1 : 1 - q + 1 ≠ 0 := by linarith
    have h2 : 1 - w + 1 ≠ 0 := by linarith
    field_simp at h'
    linarith
  · -- errors
    have hp : (step eqv (step eqv s₀ (.call [] [("x", .scalar 1)])) (.useErrors false)).par = exPar 1 false "y" "x" := by
      rw [(C129_assigned eqv _).2.2.2.1 false, hpar]
      rfl
    refine ⟨"x", by rw [hp]; rfl, ⟨exPar 1 false "y" "x", {}⟩, by rw [hp]; exact ex_init (some_ne ex_x) (some_ne ex_y) (some_ne ex_yerr), ?_⟩
    rw [hue, hagain, hv0, ex_call (θ := 1) one_pos (ue := false) (Or.inl rfl) (Or.inl rfl) ex_x ex_y ex_yerr, ← hq]
    intro h
    have h' := Out.number.inj (Except.ok.inj h)
    simp only [Bool.false_eq_true, if_false, one_mul] at h'
    have ht : tiny ^ 2 < 1 := by unfold tiny; norm_num
    have ht0 : 0 ≤ tiny ^ 2 := sq_nonneg _
    have h1 : 0 < 1 - q + 1 := by linarith
    have h2 : 0 < 1 - q + tiny ^ 2 := by linarith
    rw [add_right_inj, div_eq_div_iff h1.ne' h2.ne'] at h'
    have := mul_left_cancel₀ hg1.ne' h'
    linarith
  · -- dependent column
    have hp : (step eqv (step eqv s₀ (.call [] [("x", .scalar 1)])) (.dep "z")).par = exPar 1 true "z" "x" := by
      obtain ⟨s, hs⟩ : ∃ s, s = step eqv s₀ (.call [] [("x", .scalar 1)]) := ⟨_, rfl⟩
      rw [← hs] at hpar ⊢
      have h1 : s.par.data.col "z" ≠ none := by
        rw [hpar]
        exact some_ne (show (exPar 1 true "y" "x").data.col "z" = _ from ex_z)
      have h2 : s.par.data.col ("z" ++ "_err") ≠ none := by
        rw [hpar]
        exact some_ne (show (exPar 1 true "y" "x").data.col ("z" ++ "_err") = _ from ex_zerr)
      simp only [step, setDep]
      rw [if_neg h1, if_neg (fun h => h2 h.2), hpar]
      rfl
    refine ⟨"x", by rw [hp]; rfl, ⟨exPar 1 true "z" "x", {}⟩, by rw [hp]; exact ex_init (some_ne ex_x) (some_ne ex_z) (some_ne ex_zerr), ?_⟩
    rw [hdp, hagain, hv0, ex_call (θ := 1) one_pos (ue := true) (Or.inl rfl) (Or.inr rfl) ex_x ex_z ex_zerr, ← hq]
    intro h
    have h' := Out.number.inj (Except.ok.inj h)
    simp only [if_true, one_mul, one_pow, neg_mul, neg_div] at h'
    linarith
  · -- independent column
    have hcol : ∀ c ∈ ["w"], (step eqv s₀ (.call [] [("x", .scalar 1)])).par.data.col c ≠ none := by
      intro c hc
      rw [List.mem_singleton.1 hc, hpar]
      exact some_ne (show (exPar 1 true "y" "x").data.col "w" = _ from ex_w)
    have hp : (step eqv (step eqv s₀ (.call [] [("x", .scalar 1)])) (.indep ["w"])).par = exPar 1 true "y" "w" := by
      obtain ⟨s, hs⟩ : ∃ s, s = step eqv s₀ (.call [] [("x", .scalar 1)]) := ⟨_, rfl⟩
      rw [← hs] at hcol hpar ⊢
      simp only [step, setIndep]
      rw [if_neg (by push Not; exact hcol), hpar]
      rfl
    refine ⟨"w", by rw [hp]; rfl, ⟨exPar 1 true "y" "w", {}⟩, by rw [hp]; exact ex_init (some_ne ex_w) (some_ne ex_y) (some_ne ex_yerr), ?_⟩
    have hask : ∀ c : String, asked [c] [] [(c, .scalar 1)] = .ok [[1]] := fun c =>
      C129_points_scalar (indep := [c]) (kw := [(c, .scalar 1)]) (v := fun _ => 1) (by simp) (by simp)
    rw [C129_renamed_counterexample eqv h0 hcol (args := []) (kw := [("x", .scalar 1)]) (by rw [hpar, hask]; exact (hask "x").symm), hagain, hv0,
      ex_call (θ := 1) one_pos (ue := true) (Or.inr rfl) (Or.inl rfl) ex_w ex_y ex_yerr, ← hq]
    intro h
    have h' := Out.number.inj (Except.ok.inj h)
    simp only [if_true, mul_one, one_pow, neg_mul, one_mul, neg_div] at h'
    linarith

/-- The hypotheses of the theorems are met: a call that succeeds, and its value. -/
example : (Fit.call [] [("x", .scalar 1)] ⟨exPar 1 true "y" "x", {}⟩).1 =
    .ok (.number (1 + 1 * 1 * (1 - Real.exp (-2 / 1)) / (1 - Real.exp (-2 / 1) + 1 ^ 2))) :=
  ex_call one_pos (ue := true) (Or.inl rfl) (Or.inl rfl) ex_x ex_y ex_yerr

/-- and an array of points -/
example : asked ["a", "b"] [] [("a", .array [1, 2, 3]), ("b", .scalar 5)] = .ok [[1, 5], [2, 5], [3, 5]] := by
  have := C129_points_array (indep := ["a", "b"]) (kw := [("a", .array [1, 2, 3]), ("b", .scalar 5)]) (n := 3)
    (v := fun p i => if p = "a" then ([1, 2, 3] : List ℝ).getD i 0 else 5) (by simp) ⟨("a", .array [1, 2, 3]), by simp, _, rfl⟩ (by simp) (by
      intro p hp
      simp only [List.mem_cons, List.not_mem_nil, or_false] at hp
      rcases hp with rfl | rfl
      · right
        refine ⟨_, rfl, ?_⟩
        intro i hi
        interval_cases i <;> rfl
      · left
        exact ⟨5, rfl, by simp⟩)
  rw [this]
  rfl

end

end Verif.SimFit
