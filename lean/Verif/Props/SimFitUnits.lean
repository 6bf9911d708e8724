/-
C129: units of the columns, and the order of the rows.
-/
import Verif.Props.SimFit
import Verif.Lemmas.SimFitNumbers

namespace Verif.SimFit

noncomputable section

open Classical

/-- A table in which the numbers of one column are changed. -/
def Frame.mapCol (f : Frame) (name : String) (g : ℝ → ℝ) : Frame := ⟨f.n, fun c => if c = name then (f.col c).map fun v i => g (v i) else f.col c⟩

/-- A table with its rows in another order. -/
def Frame.permute (f : Frame) (e : Equiv.Perm (Fin f.n)) : Frame := ⟨f.n, fun c => (f.col c).map fun v i => v (e i)⟩

/-! ### Standardisation -/

theorem avg_affine {n : ℕ} (hn : n ≠ 0) (a b : ℝ) (v : Fin n → ℝ) : avg (fun i => a * v i + b) = a * avg v + b := by
  unfold avg
  have : (n : ℝ) ≠ 0 := by exact_mod_cast hn
  rw [Finset.sum_add_distrib, ← Finset.mul_sum]
  simp only [Finset.sum_const, Finset.card_univ, Fintype.card_fin, nsmul_eq_mul]
  field_simp

theorem spread_affine {n : ℕ} (hn : n ≠ 0) {a : ℝ} (ha : a ≠ 0) (b : ℝ) {v : Fin n → ℝ} (hv : ∃ i j, v i ≠ v j) : spread (fun i => a * v i + b) = |a| * spread v := by
  obtain ⟨i, j, hij⟩ := hv
  unfold spread
  rw [if_neg (fun h => hij (mul_left_cancel₀ ha (by have := h i j; linarith))), if_neg (fun h => hij (h i j)), avg_affine hn]
  have : (∑ i, (a * v i + b - (a * avg v + b)) ^ 2) / (n : ℝ) = a ^ 2 * ((∑ i, (v i - avg v) ^ 2) / n) := by
    rw [mul_div_assoc', Finset.mul_sum]
    congr 1
    exact Finset.sum_congr rfl fun i _ => by ring
  rw [this, Real.sqrt_mul (sq_nonneg a), Real.sqrt_sq_eq_abs]

theorem std_affine {n : ℕ} (hn : n ≠ 0) {a : ℝ} (ha : a ≠ 0) (b : ℝ) {v : Fin n → ℝ} (hv : ∃ i j, v i ≠ v j) (x : ℝ) :
    std (fun i => a * v i + b) (a * x + b) = a / |a| * std v x := by
  unfold std
  rw [avg_affine hn, spread_affine hn ha b hv]
  have h1 := (spread_pos v).ne'
  have h2 := abs_ne_zero.2 ha
  field_simp
  ring

theorem avg_perm {n : ℕ} (e : Equiv.Perm (Fin n)) (v : Fin n → ℝ) : avg (fun i => v (e i)) = avg v := by
  unfold avg
  rw [Equiv.sum_comp e v]

theorem spread_perm {n : ℕ} (e : Equiv.Perm (Fin n)) (v : Fin n → ℝ) : spread (fun i => v (e i)) = spread v := by
  unfold spread
  rw [avg_perm, Equiv.sum_comp e fun i => (v i - avg v) ^ 2]
  by_cases h : ∀ i j, v i = v j
  · rw [if_pos h, if_pos fun i j => h _ _]
  · rw [if_neg h, if_neg fun h' => h fun i j => by
      have := h' (e.symm i) (e.symm j)
      simpa using this]

theorem std_perm {n : ℕ} (e : Equiv.Perm (Fin n)) (v : Fin n → ℝ) (x : ℝ) : std (fun i => v (e i)) x = std v x := by
  unfold std
  rw [avg_perm, spread_perm]

/-! ### The mean of the process is determined -/

theorem predictN_isMean {n d : ℕ} {k : (Fin d → ℝ) → (Fin d → ℝ) → ℝ} {x : Fin n → Fin d → ℝ} {σ : Fin n → ℝ} (hp : (covN k x σ).PosDef) (y : Fin n → ℝ) :
    IsMean k x σ y (predictN k x σ y) := predict_isMean (g := ⟨n, d, k, x, σ⟩) hp y

theorem predictN_unique {n d : ℕ} {k : (Fin d → ℝ) → (Fin d → ℝ) → ℝ} {x : Fin n → Fin d → ℝ} {σ y : Fin n → ℝ} (hp : (covN k x σ).PosDef) {f : (Fin d → ℝ) → ℝ}
    (hf : IsMean k x σ y f) : f = predictN k x σ y := by
  obtain ⟨α, h1, h2⟩ := hf
  have hu : IsUnit (covN k x σ).det := (Matrix.isUnit_iff_isUnit_det _).1 hp.isUnit
  have h3 : (covN k x σ).mulVec α = y := by
    funext i
    rw [← h1 i]
    simp only [Matrix.mulVec, dotProduct, covN, GP.cov, add_mul, Finset.sum_add_distrib]
    congr 1
    simp
  have h4 : α = (covN k x σ)⁻¹.mulVec y := by rw [← h3, Matrix.mulVec_mulVec, Matrix.nonsing_inv_mul _ hu, Matrix.one_mulVec]
  funext t
  rw [h2 t, h4]
  rfl

theorem predictN_smul {n d : ℕ} (k : (Fin d → ℝ) → (Fin d → ℝ) → ℝ) (x : Fin n → Fin d → ℝ) (σ : Fin n → ℝ) (c : ℝ) (y : Fin n → ℝ) (t : Fin d → ℝ) :
    predictN k x σ (fun i => c * y i) t = c * predictN k x σ y t := by
  unfold predictN GP.predict
  have : (fun i => c * y i) = c • y := rfl
  rw [this, Matrix.mulVec_smul, Finset.mul_sum]
  exact Finset.sum_congr rfl fun i _ => by simp only [Pi.smul_apply, smul_eq_mul]; ring

theorem ne_err (d : String) : d ≠ d ++ "_err" := by
  intro h
  have := congrArg String.length h
  simp [String.length_append] at this

/-! ### Units -/

/-- C129: in other units of the dependent variable, with another zero (`a ≠ 0`, errors times `|a|`) the result is the result in these units. -/
theorem C129_units_dependent {p : Params} (hdi : p.dep ∉ p.indep) (hei : p.dep ++ "_err" ∉ p.indep) {a : ℝ} (ha : a ≠ 0) (b : ℝ)
    (hc : ∀ y, p.data.col p.dep = some y → ∃ i j, y i ≠ y j) {args : List Arg} {kw : List (String × Arg)} {l : List ℝ}
    (h : (Fit.evaluate args kw ⟨p, {}⟩).1 = .ok l) :
    (Fit.evaluate args kw ⟨{ p with data := (p.data.mapCol p.dep fun x => a * x + b).mapCol (p.dep ++ "_err") fun x => |a| * x }, {}⟩).1 =
      .ok (l.map fun r => a * r + b) := by
  rw [(good_evaluate args kw _ (inv_empty p)).1] at h
  change pEvaluate args kw p = _ at h
  rw [(good_evaluate args kw _ (inv_empty _)).1]
  obtain ⟨X, y, σ, pts, hD, hd, hp, hpts, hne, hl⟩ := of_eval h
  have hy := hc y hD.dep
  have ha' : |a| ≠ 0 := abs_ne_zero.2 ha
  have hD' : Desc p p.data.n ((p.data.mapCol p.dep fun x => a * x + b).mapCol (p.dep ++ "_err") fun x => |a| * x).col X (fun i => a * y i + b) σ := by
    refine ⟨hD.rows, fun c => ?_, ?_, fun hu => ?_, hD.noErr⟩
    · have h1 : p.indep.get c ≠ p.dep ++ "_err" := fun h => hei (h ▸ List.get_mem _ _)
      have h2 : p.indep.get c ≠ p.dep := fun h => hdi (h ▸ List.get_mem _ _)
      simp only [Frame.mapCol, if_neg h1, if_neg h2]
      exact hD.indep c
    · simp only [Frame.mapCol, if_neg (ne_err p.dep), if_true]
      rw [hD.dep]
      rfl
    · obtain ⟨e, he, hs⟩ := hD.err hu
      refine ⟨fun i => |a| * e i, ?_, ?_⟩
      · simp only [Frame.mapCol, if_neg (ne_err p.dep).symm, if_true]
        rw [he]
        rfl
      · rw [hs]
        funext i
        rw [spread_affine hD.rows ha b hy]
        have := (spread_pos y).ne'
        field_simp
  have := eval_of hD' hd hp hpts hne
  refine Eq.trans this ?_
  rw [hl, List.map_map]
  congr 1
  refine List.map_congr_left fun t _ => ?_
  show valueOf (kernOf p) X _ σ _ = a * valueOf (kernOf p) X y σ _ + b
  unfold valueOf
  rw [avg_affine hD.rows, spread_affine hD.rows ha b hy]
  simp only [std_affine hD.rows ha b hy]
  rw [predictN_smul]
  field_simp
  ring

/-- C129: in other units of an independent variable, with another zero (`s > 0`) the result is the same, at the points in these units. -/
theorem C129_units_independent {p : Params} {c : String} (hcd : c ≠ p.dep) (hce : c ≠ p.dep ++ "_err") {s : ℝ} (hs : 0 < s) (b : ℝ)
    (hc : ∀ x, p.data.col c = some x → ∃ i j, x i ≠ x j) {args args' : List Arg} {kw kw' : List (String × Arg)} {l : List ℝ}
    (h : (Fit.evaluate args kw ⟨p, {}⟩).1 = .ok l) {pts pts' : List (List ℝ)} (hpts : asked p.indep args kw = .ok pts) (hpts' : asked p.indep args' kw' = .ok pts')
    (hlen : pts'.length = pts.length)
    (ht : ∀ (j : ℕ) (t t' : List ℝ), pts[j]? = some t → pts'[j]? = some t' → ∀ a : Fin p.indep.length,
      t'.getD a 0 = if p.indep.get a = c then s * t.getD a 0 + b else t.getD a 0) :
    (Fit.evaluate args' kw' ⟨{ p with data := p.data.mapCol c fun x => s * x + b }, {}⟩).1 = .ok l := by
  rw [(good_evaluate args kw _ (inv_empty p)).1] at h
  change pEvaluate args kw p = _ at h
  rw [(good_evaluate args' kw' _ (inv_empty _)).1]
  obtain ⟨X, y, σ, pts₀, hD, hd, hp, hpts₀, hne, hl⟩ := of_eval h
  rw [hpts] at hpts₀
  cases hpts₀
  have hne' : pts' ≠ [] := by
    intro h'
    rw [h'] at hlen
    exact hne (List.length_eq_zero_iff.1 hlen.symm)
  have hsp : s / |s| = 1 := by rw [abs_of_pos hs]; exact div_self hs.ne'
  obtain ⟨X', hX'⟩ : ∃ X' : Fin p.data.n → Fin p.indep.length → ℝ, X' = fun i a => if p.indep.get a = c then s * X i a + b else X i a := ⟨_, rfl⟩
  have hD' : Desc p p.data.n (p.data.mapCol c fun x => s * x + b).col X' y σ := by
    refine ⟨hD.rows, fun a => ?_, ?_, fun hu => ?_, hD.noErr⟩
    · rw [hX']
      by_cases hac : p.indep.get a = c
      · simp only [Frame.mapCol, if_pos hac]
        rw [hD.indep a]
        rfl
      · simp only [Frame.mapCol, if_neg hac]
        exact hD.indep a
    · simp only [Frame.mapCol, if_neg hcd.symm]
      exact hD.dep
    · simp only [Frame.mapCol, if_neg hce.symm]
      exact hD.err hu
  have hstd : ∀ (a : Fin p.indep.length) (x : ℝ), std (fun i => X' i a) (if p.indep.get a = c then s * x + b else x) = std (fun i => X i a) x := by
    intro a x
    rw [hX']
    dsimp only
    by_cases hac : p.indep.get a = c
    · simp only [if_pos hac]
      have hcol : p.data.col c = some fun i => X i a := by rw [← hac]; exact hD.indep a
      rw [std_affine hD.rows hs.ne' b (hc _ hcol), hsp, one_mul]
    · simp only [if_neg hac]
  have hn : stdX X' = stdX X := by
    funext i a
    unfold stdX
    have := hstd a (X i a)
    rw [← this]
    congr 1
    rw [hX']
  have := eval_of hD' hd (by rw [hn]; exact hp) hpts' hne'
  refine Eq.trans this ?_
  rw [hl]
  congr 1
  have hval : ∀ t t' : List ℝ, (∀ a : Fin p.indep.length, t'.getD a 0 = if p.indep.get a = c then s * t.getD a 0 + b else t.getD a 0) →
      (valueOf (kernOf p) X' y σ fun a => t'.getD a 0) = valueOf (kernOf p) X y σ fun a => t.getD a 0 := by
    intro t t' htt
    have : (fun a : Fin p.indep.length => std (fun i => X' i a) (t'.getD a 0)) = fun a => std (fun i => X i a) (t.getD a 0) := by
      funext a
      rw [htt a]
      exact hstd a _
    unfold valueOf
    rw [hn, this]
  refine List.ext_getElem (by simp [hlen]) fun j h1 h2 => ?_
  have h1' : j < pts'.length := by simpa using h1
  have h2' : j < pts.length := by simpa using h2
  rw [List.getElem_map, List.getElem_map]
  exact hval _ _ (ht j pts[j] pts'[j] (List.getElem?_eq_getElem h2') (List.getElem?_eq_getElem h1'))

/-! ### Order of the rows -/

/-- C129: the order of the rows of the table does not matter. -/
theorem C129_rows {p : Params} (e : Equiv.Perm (Fin p.data.n)) {args : List Arg} {kw : List (String × Arg)} {l : List ℝ}
    (h : (Fit.evaluate args kw ⟨p, {}⟩).1 = .ok l) : (Fit.evaluate args kw ⟨{ p with data := p.data.permute e }, {}⟩).1 = .ok l := by
  rw [(good_evaluate args kw _ (inv_empty p)).1] at h
  change pEvaluate args kw p = _ at h
  rw [(good_evaluate args kw _ (inv_empty _)).1]
  obtain ⟨X, y, σ, pts, hD, hd, hp, hpts, hne, hl⟩ := of_eval h
  have hD' : Desc p p.data.n (p.data.permute e).col (fun i a => X (e i) a) (fun i => y (e i)) (fun i => σ (e i)) := by
    refine ⟨hD.rows, fun a => ?_, ?_, fun hu => ?_, fun hu => ?_⟩
    · simp only [Frame.permute]
      rw [hD.indep a]
      rfl
    · simp only [Frame.permute]
      rw [hD.dep]
      rfl
    · obtain ⟨er, he, hs⟩ := hD.err hu
      refine ⟨fun i => er (e i), ?_, ?_⟩
      · simp only [Frame.permute]
        rw [he]
        rfl
      · rw [hs, spread_perm e y]
    · rw [hD.noErr hu]
  have hx : stdX (fun i a => X (e i) a) = fun i => stdX X (e i) := by
    funext i a
    exact std_perm e (fun i => X i a) _
  have hcov : covN (kernOf p) (stdX fun i a => X (e i) a) (fun i => σ (e i)) = (covN (kernOf p) (stdX X) σ).submatrix e e := by
    rw [hx]
    funext i j
    simp only [covN, GP.cov, Matrix.submatrix_apply, EmbeddingLike.apply_eq_iff_eq]
  have hp' : (covN (kernOf p) (stdX fun i a => X (e i) a) fun i => σ (e i)).PosDef := by
    rw [hcov]
    exact hp.submatrix e.injective
  have := eval_of hD' hd hp' hpts hne
  refine Eq.trans this ?_
  rw [hl]
  congr 1
  refine List.map_congr_left fun t _ => ?_
  have hpred : predictN (kernOf p) (stdX X) σ (fun i => std y (y i)) =
      predictN (kernOf p) (stdX fun i a => X (e i) a) (fun i => σ (e i)) (fun i => std (fun i => y (e i)) (y (e i))) := by
    refine predictN_unique hp' ?_
    obtain ⟨α, h1, h2⟩ := predictN_isMean hp (fun i => std y (y i))
    refine ⟨fun i => α (e i), fun i => ?_, fun t => ?_⟩
    · rw [hx]
      simp only [std_perm e y]
      have := h1 (e i)
      dsimp only at this
      rw [← this, Equiv.sum_comp e fun j => kernOf p (stdX X (e i)) (stdX X j) * α j]
    · rw [h2, hx]
      exact (Equiv.sum_comp e fun j => kernOf p t (stdX X j) * α j).symm
  unfold valueOf
  rw [avg_perm, spread_perm, hpred]
  have : ∀ a, std (fun i => X (e i) a) (t.getD a 0) = std (fun i => X i a) (t.getD a 0) := fun a => std_perm e (fun i => X i a) _
  simp only [this]

end

end Verif.SimFit
