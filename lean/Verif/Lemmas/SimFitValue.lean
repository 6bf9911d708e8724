/-
Lemmas for C129: the value of a call in closed form.
-/
import Verif.Lemmas.SimFit
import Verif.Spec.SimFit
import Mathlib.Tactic.FieldSimp
import Mathlib.Tactic.Linarith

namespace Verif.SimFit

noncomputable section

open Classical

/-- the columns of the independent variables -/
def colX (p : Params) (i : Fin p.data.n) (a : Fin p.indep.length) : ℝ := ((p.data.col (p.indep.get a)).getD fun _ => 0) i

/-- a column -/
def colOf (p : Params) (name : String) : Fin p.data.n → ℝ := (p.data.col name).getD fun _ => 0

/-- there are rows, and all columns are there -/
structure Readable (p : Params) : Prop where
  rows : p.data.n ≠ 0
  indep : ∀ c ∈ p.indep, p.data.col c ≠ none
  dep : p.data.col p.dep ≠ none
  err : p.useErrors = true → p.data.col (p.dep ++ "_err") ≠ none

/-- the standardised columns -/
def scaledX (p : Params) (i : Fin p.data.n) (a : Fin p.indep.length) : ℝ := (colX p i a - mean fun i => colX p i a) / scale fun i => colX p i a

def scaledY (p : Params) (i : Fin p.data.n) : ℝ := (colOf p p.dep i - mean (colOf p p.dep)) / scale (colOf p p.dep)

def scaledErr (p : Params) (i : Fin p.data.n) : ℝ := if p.useErrors then colOf p (p.dep ++ "_err") i / scale (colOf p p.dep) else tiny

/-- the kernel of the parameters -/
def kernOf (p : Params) : (Fin p.indep.length → ℝ) → (Fin p.indep.length → ℝ) → ℝ :=
  if p.theta.length = p.indep.length then p.kernel p.indep.length fun a => p.theta.getD a 0
  else fun x y => p.theta.getD 0 0 * p.kernel p.indep.length (fun a => p.theta.getD (a + 1) 0) x y

/-- the process of the parameters -/
def gpOf (p : Params) : GP := ⟨p.data.n, p.indep.length, kernOf p, scaledX p, scaledErr p⟩

theorem readX_ok (p : Params) : (∃ x, readX p = .ok x) ↔ ∀ c ∈ p.indep, p.data.col c ≠ none := by
  unfold readX Frame.rows
  split_ifs with h
  · obtain ⟨c, hc, h⟩ := h
    simp only [reduceCtorEq, exists_false, false_iff]
    intro h'
    exact h' c hc h
  · push Not at h
    simpa using h

theorem readX_eq {p : Params} (h : ∀ c ∈ p.indep, p.data.col c ≠ none) : readX p = .ok ⟨p.data.n, p.indep.length, colX p⟩ := by
  unfold readX Frame.rows
  rw [if_neg (by push Not; exact h)]
  rfl

theorem readCol_eq {p : Params} {name : String} (h : p.data.col name ≠ none) : readCol p name = .ok ⟨p.data.n, colOf p name⟩ := by
  unfold readCol Frame.vec colOf
  cases hc : p.data.col name with
  | none => exact absurd hc h
  | some v => rfl

theorem readCol_ok {p : Params} {name : String} {v : Vec} (h : readCol p name = .ok v) : p.data.col name ≠ none := by
  unfold readCol Frame.vec at h
  intro hc
  rw [hc] at h
  cases h

theorem bind_ok {α β : Type} {x : Except Err α} {f : α → Except Err β} {y : β} (h : (x >>= f) = .ok y) : ∃ a, x = .ok a ∧ f a = .ok y := by
  cases x with
  | error e => cases h
  | ok a => exact ⟨a, rfl, h⟩

theorem pXScaler_eq {p : Params} (h : Readable p) : pXScaler p = .ok (fitRows ⟨p.data.n, p.indep.length, colX p⟩) := by
  unfold pXScaler
  rw [readX_eq h.indep]
  exact if_neg h.rows

theorem pXScaled_eq {p : Params} (h : Readable p) : pXScaled p = .ok ⟨p.data.n, p.indep.length, scaledX p⟩ := by
  unfold pXScaled
  rw [pXScaler_eq h, readX_eq h.indep]
  show scaleRows (fitRows ⟨p.data.n, p.indep.length, colX p⟩) ⟨p.data.n, p.indep.length, colX p⟩ = _
  have hd : (fitRows ⟨p.data.n, p.indep.length, colX p⟩).d = (⟨p.data.n, p.indep.length, colX p⟩ : Rows).d := rfl
  unfold scaleRows
  rw [dif_pos hd]
  rfl

theorem pYScaler_eq {p : Params} (h : Readable p) : pYScaler p = .ok ⟨mean (colOf p p.dep), scale (colOf p p.dep)⟩ := by
  unfold pYScaler pY
  rw [readCol_eq h.dep]
  exact if_neg h.rows

theorem pYScaled_eq {p : Params} (h : Readable p) : pYScaled p = .ok ⟨p.data.n, scaledY p⟩ := by
  unfold pYScaled
  rw [pYScaler_eq h]
  unfold pY
  rw [readCol_eq h.dep]
  rfl

theorem pGP_eq {p : Params} (h : Readable p) : pGP p =
    if p.theta.length = p.indep.length ∨ p.theta.length = p.indep.length + 1 then (if (gpOf p).cov.PosDef then .ok (gpOf p) else .error .linAlg) else .error .valueError := by
  unfold pGP pNdim pXshape
  rw [readX_eq h.indep, pXScaled_eq h]
  have hk : makeKernel p.kernel p.theta p.theta.length p.indep.length p.indep.length =
      if p.theta.length = p.indep.length ∨ p.theta.length = p.indep.length + 1 then .ok (kernOf p) else .error .valueError := by
    unfold makeKernel kernOf
    by_cases h1 : p.theta.length = p.indep.length
    · rw [if_pos h1, if_pos (Or.inl h1), if_pos h1]
    · rw [if_neg h1, if_neg h1]
      by_cases h2 : p.theta.length = p.indep.length + 1
      · rw [if_pos h2, if_pos (Or.inr h2)]
      · rw [if_neg h2, if_neg (by tauto)]
  cases hu : p.useErrors with
  | true =>
    have he : pYerrScaled p = .ok ⟨p.data.n, fun i => colOf p (p.dep ++ "_err") i / scale (colOf p p.dep)⟩ := by
      unfold pYerrScaled pYerr
      rw [readCol_eq (h.err hu), pYScaler_eq h]
      rfl
    rw [he]
    show (makeKernel p.kernel p.theta p.theta.length p.indep.length p.indep.length >>= fun k => computeWith k (scaledX p)
      ⟨p.data.n, fun i => colOf p (p.dep ++ "_err") i / scale (colOf p p.dep)⟩) = _
    rw [hk]
    by_cases hd : p.theta.length = p.indep.length ∨ p.theta.length = p.indep.length + 1
    · rw [if_pos hd, if_pos hd]
      show computeWith (kernOf p) (scaledX p) _ = _
      unfold computeWith
      rw [dif_pos rfl]
      have hg : gpOf p = ⟨p.data.n, p.indep.length, kernOf p, scaledX p, fun i => colOf p (p.dep ++ "_err") i / scale (colOf p p.dep)⟩ := by
        unfold gpOf
        congr 1
        funext i
        simp [scaledErr, hu]
      rw [hg]
      rfl
    · rw [if_neg hd, if_neg hd]
      rfl
  | false =>
    show (makeKernel p.kernel p.theta p.theta.length p.indep.length p.indep.length >>= fun k => compute k (scaledX p) fun _ => tiny) = _
    rw [hk]
    by_cases hd : p.theta.length = p.indep.length ∨ p.theta.length = p.indep.length + 1
    · rw [if_pos hd, if_pos hd]
      show compute (kernOf p) (scaledX p) _ = _
      have hg : gpOf p = ⟨p.data.n, p.indep.length, kernOf p, scaledX p, fun _ => tiny⟩ := by
        unfold gpOf
        congr 1
        funext i
        simp [scaledErr, hu]
      rw [hg]
      rfl
    · rw [if_neg hd, if_neg hd]
      rfl

theorem points_length {vs : List Arg} {t : List ℝ} (h : t ∈ points vs) : t.length = vs.length := by
  unfold points at h
  split at h
  · simp only [List.mem_singleton] at h
    subst h
    simp
  · simp only [List.mem_map] at h
    obtain ⟨i, _, rfl⟩ := h
    simp

theorem mapM_length {α β : Type} {f : α → Except Err β} : ∀ {l : List α} {r : List β}, l.mapM f = .ok r → r.length = l.length
  | [], r, h => by simp only [List.mapM_nil] at h; cases h; rfl
  | a :: l, r, h => by
    rw [List.mapM_cons] at h
    obtain ⟨b, _, h⟩ := bind_ok h
    obtain ⟨bs, h2, h⟩ := bind_ok h
    cases h
    simp [mapM_length h2]

theorem asked_length {indep : List String} {args : List Arg} {kw : List (String × Arg)} {pts : List (List ℝ)} (h : asked indep args kw = .ok pts) :
    ∀ t ∈ pts, t.length = indep.length := by
  unfold asked at h
  obtain ⟨_, _, h⟩ := bind_ok h
  obtain ⟨_, _, h⟩ := bind_ok h
  obtain ⟨vs, h1, h⟩ := bind_ok h
  cases h
  intro t ht
  rw [points_length ht, mapM_length h1]

/-- the value at a point -/
def valueAt (p : Params) (t : List ℝ) : ℝ :=
  (gpOf p).predict (scaledY p) (fun a => (t.getD a 0 - mean fun i => colX p i a) / scale fun i => colX p i a) * scale (colOf p p.dep) + mean (colOf p p.dep)

theorem pEvaluate_eq {p : Params} (h : Readable p) (hd : p.theta.length = p.indep.length ∨ p.theta.length = p.indep.length + 1) (hp : (gpOf p).cov.PosDef)
    {args : List Arg} {kw : List (String × Arg)} {pts : List (List ℝ)} (ha : asked p.indep args kw = .ok pts) (hne : pts ≠ []) :
    pEvaluate args kw p = .ok (pts.map (valueAt p)) := by
  unfold pEvaluate
  rw [ha, pXScaler_eq h, pYScaler_eq h, pGP_eq h, if_pos hd, if_pos hp, pYScaled_eq h]
  show (scalePoints (fitRows ⟨p.data.n, p.indep.length, colX p⟩) pts >>= fun t => predictAll (gpOf p) ⟨p.data.n, scaledY p⟩ t >>= fun r => _) = _
  unfold scalePoints
  rw [if_neg]
  · show (predictAll (gpOf p) ⟨p.data.n, scaledY p⟩ (List.map _ pts) >>= fun r => _) = _
    unfold predictAll
    rw [dif_pos ⟨rfl, rfl⟩]
    show Except.ok _ = _
    congr 1
    rw [List.map_map, List.map_map]
    rfl
  · rintro (h1 | ⟨t, ht, h1⟩)
    · exact hne h1
    · exact h1 (asked_length ha t ht)

theorem pEvaluate_ok {p : Params} {args : List Arg} {kw : List (String × Arg)} {l : List ℝ} (h : pEvaluate args kw p = .ok l) :
    Readable p ∧ (p.theta.length = p.indep.length ∨ p.theta.length = p.indep.length + 1) ∧ (gpOf p).cov.PosDef ∧
    ∃ pts, asked p.indep args kw = .ok pts ∧ pts ≠ [] ∧ l = pts.map (valueAt p) := by
  have h0 := h
  unfold pEvaluate at h
  obtain ⟨pts, h1, h⟩ := bind_ok h
  obtain ⟨s, h2, h⟩ := bind_ok h
  obtain ⟨t, h3, h⟩ := bind_ok h
  obtain ⟨sy, h4, h⟩ := bind_ok h
  obtain ⟨g, h5, h⟩ := bind_ok h
  have hr : Readable p := by
    refine ⟨?_, ?_, ?_, ?_⟩
    · obtain ⟨x, hx, h2⟩ := bind_ok h2
      rw [readX_eq ((readX_ok p).1 ⟨x, hx⟩)] at hx
      cases hx
      intro hn
      unfold nonempty at h2
      rw [if_pos hn] at h2
      cases h2
    · obtain ⟨x, hx, _⟩ := bind_ok h2
      exact (readX_ok p).1 ⟨x, hx⟩
    · obtain ⟨y, hy, _⟩ := bind_ok h4
      exact readCol_ok hy
    · intro hu
      unfold pGP at h5
      obtain ⟨_, _, h5⟩ := bind_ok h5
      obtain ⟨_, _, h5⟩ := bind_ok h5
      obtain ⟨q, hq, h5⟩ := bind_ok h5
      cases hq
      simp only [hu, if_true] at h5
      obtain ⟨e, he, _⟩ := bind_ok h5
      obtain ⟨e', he', _⟩ := bind_ok he
      exact readCol_ok he'
  rw [pGP_eq hr] at h5
  have hd : p.theta.length = p.indep.length ∨ p.theta.length = p.indep.length + 1 := by
    by_contra hn
    rw [if_neg hn] at h5
    cases h5
  rw [if_pos hd] at h5
  have hp : (gpOf p).cov.PosDef := by
    by_contra hn
    rw [if_neg hn] at h5
    cases h5
  have hne : pts ≠ [] := by
    rintro rfl
    unfold scalePoints at h3
    rw [if_pos (Or.inl rfl)] at h3
    cases h3
  refine ⟨hr, hd, hp, pts, h1, hne, ?_⟩
  rw [pEvaluate_eq hr hd hp h1 hne] at h0
  exact (Except.ok.inj h0).symm

/-! ### Standardisation -/

theorem mean_avg {n : ℕ} (v : Fin n → ℝ) : mean v = avg v := rfl

theorem avg_const {n : ℕ} {v : Fin n → ℝ} (h : ∀ i j, v i = v j) (i : Fin n) : avg v = v i := by
  unfold avg
  rw [Finset.sum_congr rfl fun j _ => h j i]
  simp only [Finset.sum_const, Finset.card_univ, Fintype.card_fin, nsmul_eq_mul]
  have : (n : ℝ) ≠ 0 := by
    have := i.pos
    positivity
  field_simp

theorem var_zero {n : ℕ} (v : Fin n → ℝ) : (∑ i, (v i - avg v) ^ 2) / n = 0 ↔ ∀ i j, v i = v j := by
  rcases Nat.eq_zero_or_pos n with rfl | hn
  · simp
  · have hn' : (n : ℝ) ≠ 0 := by positivity
    rw [div_eq_zero_iff, or_iff_left hn', Finset.sum_eq_zero_iff_of_nonneg fun _ _ => sq_nonneg _]
    constructor
    · intro h i j
      have h1 : v i - avg v = 0 := by simpa using h i (Finset.mem_univ i)
      have h2 : v j - avg v = 0 := by simpa using h j (Finset.mem_univ j)
      linarith
    · intro h i _
      rw [avg_const h i]
      ring

theorem scale_spread {n : ℕ} (v : Fin n → ℝ) : scale v = spread v := by
  unfold scale spread
  rw [mean_avg]
  have hv : 0 ≤ (∑ i, (v i - avg v) ^ 2) / (n : ℝ) := div_nonneg (Finset.sum_nonneg fun _ _ => sq_nonneg _) (by positivity)
  by_cases h : ∀ i j, v i = v j
  · rw [if_pos h, if_pos]
    rw [Real.sqrt_eq_zero hv]
    exact (var_zero v).2 h
  · rw [if_neg h, if_neg]
    rw [Real.sqrt_eq_zero hv]
    exact fun h' => h ((var_zero v).1 h')

theorem spread_pos {n : ℕ} (v : Fin n → ℝ) : 0 < spread v := by
  unfold spread
  split_ifs with h
  · exact one_pos
  · refine Real.sqrt_pos.2 (lt_of_le_of_ne (div_nonneg (Finset.sum_nonneg fun _ _ => sq_nonneg _) (by positivity)) fun h' => ?_)
    exact h ((var_zero v).1 h'.symm)

end

end Verif.SimFit
