/-
C129: results of simulations, interpolated with a Gaussian process.
-/
import Verif.Lemmas.SimFitValue
import Verif.Lemmas.GPKernel
import Mathlib.Analysis.Calculus.ContDiff.Basic
import Mathlib.Analysis.SpecialFunctions.ExpDeriv
import Mathlib.Tactic.Positivity

namespace Verif.SimFit

noncomputable section

open Classical

/-! ### The value -/

theorem predict_isMean {g : GP} (hp : g.cov.PosDef) (y : Fin g.n → ℝ) : IsMean g.kern g.x g.err y (g.predict y) := by
  refine ⟨g.cov⁻¹.mulVec y, fun i => ?_, fun t => rfl⟩
  have hu : IsUnit g.cov.det := (Matrix.isUnit_iff_isUnit_det _).1 hp.isUnit
  have h := congrFun (show g.cov.mulVec (g.cov⁻¹.mulVec y) = y by rw [Matrix.mulVec_mulVec, Matrix.mul_nonsing_inv _ hu, Matrix.one_mulVec]) i
  rw [← h]
  simp only [Matrix.mulVec, dotProduct, GP.cov, add_mul, Finset.sum_add_distrib]
  congr 1
  simp

/-- C129: the result of a call, for a table of any size: in units of the columns (mean and standard deviation), the mean of the Gaussian process with the kernel and the
errors asked for, at each of the points asked for. -/
theorem C129_value {p : Params} {args : List Arg} {kw : List (String × Arg)} {l : List ℝ} (h : (Fit.evaluate args kw ⟨p, {}⟩).1 = .ok l) :
    ∃ (X : Fin p.data.n → Fin p.indep.length → ℝ) (y σ : Fin p.data.n → ℝ) (k : (Fin p.indep.length → ℝ) → (Fin p.indep.length → ℝ) → ℝ)
      (f : (Fin p.indep.length → ℝ) → ℝ) (pts : List (List ℝ)),
      (∀ a, p.data.col (p.indep.get a) = some fun i => X i a) ∧ p.data.col p.dep = some y ∧
      (p.useErrors = true → ∃ e, p.data.col (p.dep ++ "_err") = some e ∧ ∀ i, σ i = e i / spread y) ∧ (p.useErrors = false → ∀ i, σ i = 1.25 / 10 ^ 12) ∧
      ((p.theta.length = p.indep.length ∧ k = p.kernel p.indep.length fun a => p.theta.getD a 0) ∨
        (p.theta.length = p.indep.length + 1 ∧ k = fun u v => p.theta.getD 0 0 * p.kernel p.indep.length (fun a => p.theta.getD (a + 1) 0) u v)) ∧
      IsMean k (fun i a => std (fun i => X i a) (X i a)) σ (fun i => std y (y i)) f ∧
      asked p.indep args kw = .ok pts ∧ l = pts.map fun t => avg y + spread y * f fun a => std (fun i => X i a) (t.getD a 0) := by
  rw [(good_evaluate args kw _ (inv_empty p)).1] at h
  change pEvaluate args kw p = _ at h
  obtain ⟨hr, hd, hp, pts, ha, hne, hl⟩ := pEvaluate_ok h
  refine ⟨colX p, colOf p p.dep, scaledErr p, kernOf p, (gpOf p).predict (scaledY p), pts, ?_, ?_, ?_, ?_, ?_, ?_, ha, ?_⟩
  · intro a
    have := hr.indep (p.indep.get a) (List.get_mem _ _)
    unfold colX
    cases hc : p.data.col (p.indep.get a) with
    | none => exact absurd hc this
    | some v => rfl
  · have := hr.dep
    unfold colOf
    cases hc : p.data.col p.dep with
    | none => exact absurd hc this
    | some v => rfl
  · intro hu
    have := hr.err hu
    refine ⟨colOf p (p.dep ++ "_err"), ?_, fun i => by simp [scaledErr, hu, scale_spread]⟩
    unfold colOf
    cases hc : p.data.col (p.dep ++ "_err") with
    | none => exact absurd hc this
    | some v => rfl
  · intro hu i; simp [scaledErr, hu, tiny]
  · by_cases h1 : p.theta.length = p.indep.length
    · exact Or.inl ⟨h1, by simp [kernOf, h1]⟩
    · exact Or.inr ⟨hd.resolve_left h1, by simp [kernOf, h1]⟩
  · have := predict_isMean hp (scaledY p)
    have e1 : (fun i a => std (fun i => colX p i a) (colX p i a)) = scaledX p := by
      funext i a; simp [std, scaledX, mean_avg, scale_spread]
    have e2 : (fun i => std (colOf p p.dep) (colOf p p.dep i)) = scaledY p := by
      funext i; simp [std, scaledY, mean_avg, scale_spread]
    rw [e1, e2]
    exact this
  · rw [hl]
    refine List.map_congr_left fun t _ => ?_
    simp only [valueAt, std, ← mean_avg, ← scale_spread]
    rw [add_comm, mul_comm]
    rfl

/-! ### It is always defined -/

theorem expSquared_gauss {d : ℕ} (l x y : Fin d → ℝ) : expSquared d l x y = GPKernel.gauss l x y := rfl

theorem kernel_form (M : Matrix (Fin n) (Fin n) ℝ) (c : Fin n → ℝ) : dotProduct (star c) (M.mulVec c) = ∑ i, ∑ j, c i * c j * M i j := by
  simp only [dotProduct, Matrix.mulVec, Pi.star_apply, star_trivial, Finset.mul_sum]
  exact Finset.sum_congr rfl fun i _ => Finset.sum_congr rfl fun j _ => by ring

/-- Positive definite, from the form. -/
theorem posDef_of {n : ℕ} {M : Matrix (Fin n) (Fin n) ℝ} (hs : ∀ i j, M i j = M j i) (h : ∀ c : Fin n → ℝ, c ≠ 0 → 0 < ∑ i, ∑ j, c i * c j * M i j) : M.PosDef := by
  refine Matrix.PosDef.of_dotProduct_mulVec_pos ?_ fun c hc => ?_
  · ext i j
    simp [hs j i]
  · rw [kernel_form]
    exact h c hc

theorem cov_form (g : GP) (c : Fin g.n → ℝ) :
    ∑ i, ∑ j, c i * c j * g.cov i j = (∑ i, ∑ j, c i * c j * g.kern (g.x i) (g.x j)) + ∑ i, (c i * g.err i) ^ 2 := by
  simp only [GP.cov, mul_add, Finset.sum_add_distrib]
  congr 1
  refine Finset.sum_congr rfl fun i _ => ?_
  simp only [mul_ite, mul_zero, Finset.sum_ite_eq, Finset.mem_univ, if_true]
  ring

theorem gauss_symm {d : ℕ} (l x y : Fin d → ℝ) : GPKernel.gauss l x y = GPKernel.gauss l y x := by
  unfold GPKernel.gauss
  congr 2
  exact Finset.sum_congr rfl fun a _ => by ring

/-- The Gaussian process of the Gaussian kernel can be computed if the errors are not zero, or the points are different. -/
theorem gauss_cov {n d : ℕ} {A : ℝ} (hA : 0 < A) {l : Fin d → ℝ} (hl : ∀ a, 0 < l a) (x : Fin n → Fin d → ℝ) (e : Fin n → ℝ)
    (h : (∀ i, e i ≠ 0) ∨ Function.Injective x) : (GP.cov ⟨n, d, fun u v => A * GPKernel.gauss l u v, x, e⟩).PosDef := by
  refine posDef_of (fun i j => ?_) fun c hc => ?_
  · simp only [GP.cov]
    rw [gauss_symm]
    congr 1
    by_cases hij : i = j
    · subst hij; rfl
    · rw [if_neg hij, if_neg (fun h => hij h.symm)]
  · have := cov_form ⟨n, d, fun u v => A * GPKernel.gauss l u v, x, e⟩ c
    rw [this]
    have e1 : ∑ i, ∑ j, c i * c j * (A * GPKernel.gauss l (x i) (x j)) = A * ∑ i, ∑ j, c i * c j * GPKernel.gauss l (x i) (x j) := by
      rw [Finset.mul_sum]
      refine Finset.sum_congr rfl fun i _ => ?_
      rw [Finset.mul_sum]
      exact Finset.sum_congr rfl fun j _ => by ring
    dsimp only
    rw [e1]
    have h0 := mul_nonneg hA.le (GPKernel.gauss_nonneg hl x c)
    have h1 : 0 ≤ ∑ i, (c i * e i) ^ 2 := Finset.sum_nonneg fun _ _ => sq_nonneg _
    rcases h with h | h
    · obtain ⟨i, hi⟩ : ∃ i, c i ≠ 0 := by
        by_contra hn
        push Not at hn
        exact hc (funext hn)
      have : 0 < ∑ i, (c i * e i) ^ 2 := Finset.sum_pos' (fun _ _ => sq_nonneg _) ⟨i, Finset.mem_univ i, by
        have := mul_ne_zero hi (h i)
        positivity⟩
      linarith
    · have : 0 < ∑ i, ∑ j, c i * c j * GPKernel.gauss l (x i) (x j) :=
        lt_of_le_of_ne (GPKernel.gauss_nonneg hl x c) fun h' => hc (GPKernel.gauss_definite hl h h'.symm)
      have := mul_pos hA this
      linarith

/-- C129: with the Gaussian kernel and positive hyperparameters every call with well-formed arguments succeeds, for every table in which the errors are not zero (and for
every table at all if errors are not used). -/
theorem C129_defined {p : Params} (hk : p.kernel = expSquared) (hth : ∀ x ∈ p.theta, 0 < x) (hd : p.theta.length = p.indep.length ∨ p.theta.length = p.indep.length + 1)
    (hn : p.data.n ≠ 0) {s : Fit} (hs : init p = .ok s) (he : p.useErrors = true → ∀ e, p.data.col (p.dep ++ "_err") = some e → ∀ i, e i ≠ 0)
    {args : List Arg} {kw : List (String × Arg)} {pts : List (List ℝ)} (ha : asked p.indep args kw = .ok pts) (hne : pts ≠ []) :
    ∃ l, (Fit.evaluate args kw s).1 = .ok l ∧ l.length = pts.length := by
  unfold init at hs
  split_ifs at hs with h1 h2 h3 h4
  cases hs
  push Not at h1 h2 h3
  have hr : Readable p := ⟨hn, h1, h2, h3⟩
  rw [(good_evaluate args kw _ (inv_empty p)).1]
  refine ⟨_, pEvaluate_eq hr hd ?_ ha hne, by simp⟩
  have herr : ∀ i, scaledErr p i ≠ 0 := by
    intro i
    unfold scaledErr
    split_ifs with hu
    · have hc := hr.err hu
      cases hc' : p.data.col (p.dep ++ "_err") with
      | none => exact absurd hc' hc
      | some e =>
        refine div_ne_zero ?_ (by rw [scale_spread]; exact (spread_pos _).ne')
        simp only [colOf, hc', Option.getD_some]
        exact he hu e hc' i
    · unfold tiny; norm_num
  have hget : ∀ i, i < p.theta.length → 0 < p.theta.getD i 0 := by
    intro i hi
    have : p.theta.getD i 0 = p.theta[i] := by simp [List.getD, hi]
    rw [this]
    exact hth _ (List.getElem_mem hi)
  by_cases h1 : p.theta.length = p.indep.length
  · have : kernOf p = fun u v => 1 * GPKernel.gauss (fun a : Fin p.indep.length => p.theta.getD a 0) u v := by
      funext u v
      simp only [kernOf, h1, if_true, hk, expSquared_gauss, one_mul]
    unfold gpOf
    rw [this]
    exact gauss_cov one_pos (fun a => hget a (by rw [h1]; exact a.2)) _ _ (Or.inl herr)
  · have h2 := hd.resolve_left h1
    have : kernOf p = fun u v => p.theta.getD 0 0 * GPKernel.gauss (fun a : Fin p.indep.length => p.theta.getD (a + 1) 0) u v := by
      funext u v
      simp only [kernOf, h1, if_false, hk, expSquared_gauss]
    unfold gpOf
    rw [this]
    exact gauss_cov (hget 0 (by omega)) (fun a => hget (a + 1) (by have := a.2; omega)) _ _ (Or.inl herr)

/-! ### What the mean of the process is -/

/-- C129: the mean of the process is determined by kernel, points, errors and values: for the Gaussian kernel there is exactly one, if the errors are not zero. -/
theorem C129_unique {n d : ℕ} {A : ℝ} (hA : 0 < A) {l : Fin d → ℝ} (hl : ∀ a, 0 < l a) {x : Fin n → Fin d → ℝ} {σ y : Fin n → ℝ} (hσ : ∀ i, σ i ≠ 0) :
    ∃! f, IsMean (gaussian A l) x σ y f := by
  have hk : gaussian A l = fun u v => A * GPKernel.gauss l u v := by
    funext u v; unfold gaussian GPKernel.gauss; congr 2; ring
  rw [hk]
  have hp := gauss_cov hA hl x σ (Or.inl hσ)
  refine ⟨_, predict_isMean hp y, ?_⟩
  rintro f ⟨α, h1, h2⟩
  have hu : IsUnit (GP.cov ⟨n, d, fun u v => A * GPKernel.gauss l u v, x, σ⟩).det := (Matrix.isUnit_iff_isUnit_det _).1 hp.isUnit
  have h3 : (GP.cov ⟨n, d, fun u v => A * GPKernel.gauss l u v, x, σ⟩).mulVec α = y := by
    funext i
    rw [← h1 i]
    simp only [Matrix.mulVec, dotProduct, GP.cov, add_mul, Finset.sum_add_distrib]
    congr 1
    simp
  have h4 : α = (GP.cov ⟨n, d, fun u v => A * GPKernel.gauss l u v, x, σ⟩)⁻¹.mulVec y := by
    rw [← h3, Matrix.mulVec_mulVec, Matrix.nonsing_inv_mul _ hu, Matrix.one_mulVec]
  funext t
  rw [h2 t, h4]
  rfl

/-- C129: it is the combination of the kernel functions that is nearest to the values, in units of the errors, with the square norm as a penalty. -/
theorem C129_least {n d : ℕ} {A : ℝ} (hA : 0 < A) {l : Fin d → ℝ} (hl : ∀ a, 0 < l a) {x : Fin n → Fin d → ℝ} {σ y : Fin n → ℝ} (hσ : ∀ i, σ i ≠ 0)
    {f : (Fin d → ℝ) → ℝ} (hf : IsMean (gaussian A l) x σ y f) :
    ∃ α : Fin n → ℝ, (∀ t, f t = ∑ i, gaussian A l t (x i) * α i) ∧ ∀ β : Fin n → ℝ,
      (∑ i, ((y i - ∑ j, gaussian A l (x i) (x j) * α j) / σ i) ^ 2) + (∑ i, ∑ j, α i * α j * gaussian A l (x i) (x j)) ≤
      (∑ i, ((y i - ∑ j, gaussian A l (x i) (x j) * β j) / σ i) ^ 2) + ∑ i, ∑ j, β i * β j * gaussian A l (x i) (x j) := by
  obtain ⟨α, h1, h2⟩ := hf
  refine ⟨α, h2, fun β => ?_⟩
  obtain ⟨K, hK⟩ : ∃ K : Fin n → Fin n → ℝ, K = fun i j => gaussian A l (x i) (x j) := ⟨_, rfl⟩
  have hsym : ∀ i j, K i j = K j i := by
    intro i j
    have : ∑ a, (x i a - x j a) ^ 2 / l a = ∑ a, (x j a - x i a) ^ 2 / l a := Finset.sum_congr rfl fun a _ => by ring
    rw [hK]
    unfold gaussian
    dsimp only
    rw [this]
  have hpsd : ∀ c : Fin n → ℝ, 0 ≤ ∑ i, ∑ j, c i * c j * K i j := by
    intro c
    have := mul_nonneg hA.le (GPKernel.gauss_nonneg hl x c)
    rw [Finset.mul_sum] at this
    refine le_of_le_of_eq this (Finset.sum_congr rfl fun i _ => ?_)
    rw [Finset.mul_sum]
    refine Finset.sum_congr rfl fun j _ => ?_
    rw [hK]
    unfold gaussian GPKernel.gauss
    have : -(1 / 2) * ∑ a, (x i a - x j a) ^ 2 / l a = -(∑ a, (x i a - x j a) ^ 2 / l a) / 2 := by ring
    rw [this]
    ring
  change (∑ i, ((y i - ∑ j, (fun i j => gaussian A l (x i) (x j)) i j * α j) / σ i) ^ 2) + (∑ i, ∑ j, α i * α j * (fun i j => gaussian A l (x i) (x j)) i j) ≤
      (∑ i, ((y i - ∑ j, (fun i j => gaussian A l (x i) (x j)) i j * β j) / σ i) ^ 2) + ∑ i, ∑ j, β i * β j * (fun i j => gaussian A l (x i) (x j)) i j
  rw [← hK]
  have h1' : ∀ i, y i - ∑ j, K i j * α j = σ i ^ 2 * α i := by
    intro i
    have := h1 i
    rw [hK]
    dsimp only
    linarith
  obtain ⟨δ, hδ⟩ : ∃ δ : Fin n → ℝ, δ = fun i => β i - α i := ⟨_, rfl⟩
  have hβ : ∀ i, β i = α i + δ i := fun i => by rw [hδ]; ring
  obtain ⟨u, hu⟩ : ∃ u : Fin n → ℝ, u = fun i => ∑ j, K i j * δ j := ⟨_, rfl⟩
  have e1 : ∀ i, (y i - ∑ j, K i j * β j) / σ i = σ i * α i - u i / σ i := by
    intro i
    have : ∑ j, K i j * β j = (∑ j, K i j * α j) + u i := by
      rw [hu, ← Finset.sum_add_distrib]
      exact Finset.sum_congr rfl fun j _ => by rw [hβ]; ring
    rw [this, ← sub_sub, h1' i]
    have := hσ i
    field_simp
  have e2 : ∀ i, (y i - ∑ j, K i j * α j) / σ i = σ i * α i := by
    intro i
    rw [h1' i]
    have := hσ i
    field_simp
  have e3 : ∑ i, ∑ j, β i * β j * K i j = (∑ i, ∑ j, α i * α j * K i j) + 2 * (∑ i, α i * u i) + ∑ i, ∑ j, δ i * δ j * K i j := by
    have h3 : ∑ i, ∑ j, δ i * α j * K i j = ∑ i, α i * u i := by
      rw [Finset.sum_comm]
      refine Finset.sum_congr rfl fun i _ => ?_
      rw [hu]
      dsimp only
      rw [Finset.mul_sum]
      exact Finset.sum_congr rfl fun j _ => by rw [hsym j i]; ring
    have h4 : ∑ i, ∑ j, α i * δ j * K i j = ∑ i, α i * u i := by
      refine Finset.sum_congr rfl fun i _ => ?_
      rw [hu]
      dsimp only
      rw [Finset.mul_sum]
      exact Finset.sum_congr rfl fun j _ => by ring
    have h5 : ∑ i, ∑ j, β i * β j * K i j = (∑ i, ∑ j, α i * α j * K i j) + (∑ i, ∑ j, α i * δ j * K i j) + (∑ i, ∑ j, δ i * α j * K i j) +
        ∑ i, ∑ j, δ i * δ j * K i j := by
      simp only [← Finset.sum_add_distrib]
      exact Finset.sum_congr rfl fun i _ => Finset.sum_congr rfl fun j _ => by rw [hβ i, hβ j]; ring
    rw [h5, h3, h4]
    ring
  have e4 : ∑ i, ((y i - ∑ j, K i j * β j) / σ i) ^ 2 = (∑ i, (σ i * α i) ^ 2) - 2 * (∑ i, α i * u i) + ∑ i, (u i / σ i) ^ 2 := by
    rw [Finset.mul_sum, ← Finset.sum_sub_distrib, ← Finset.sum_add_distrib]
    refine Finset.sum_congr rfl fun i _ => ?_
    rw [e1]
    have := hσ i
    field_simp
    ring
  rw [e3, e4, Finset.sum_congr rfl fun i _ => by rw [e2 i]]
  have h6 : 0 ≤ ∑ i, (u i / σ i) ^ 2 := Finset.sum_nonneg fun _ _ => sq_nonneg _
  have h7 := hpsd δ
  linarith

/-- C129: where the error of the table is zero, the mean of the process goes through the table. -/
theorem C129_through {T : Type} {n : ℕ} {k : T → T → ℝ} {x : Fin n → T} {σ y : Fin n → ℝ} {f : T → ℝ} (hf : IsMean k x σ y f) {i : Fin n} (h : σ i = 0) :
    f (x i) = y i := by
  obtain ⟨α, h1, h2⟩ := hf
  have := h1 i
  rw [h] at this
  rw [h2, ← this]
  ring

/-- C129: small errors: if the points are different, the mean of the process misses the values by at most the error times a constant, which does not depend on the errors. -/
theorem C129_close {n d : ℕ} {A : ℝ} (hA : 0 < A) {l : Fin d → ℝ} (hl : ∀ a, 0 < l a) {x : Fin n → Fin d → ℝ} (hx : Function.Injective x) (y : Fin n → ℝ) :
    ∃ C, ∀ (σ : Fin n → ℝ) (f : (Fin d → ℝ) → ℝ), (∀ i, σ i ≠ 0) → IsMean (gaussian A l) x σ y f → ∀ i, |f (x i) - y i| ≤ C * |σ i| := by
  have hk : gaussian A l = fun u v => A * GPKernel.gauss l u v := by
    funext u v; unfold gaussian GPKernel.gauss; congr 2; ring
  -- weights that go through the values exactly
  obtain ⟨β, hβ, _⟩ := predict_isMean (g := ⟨n, d, fun u v => A * GPKernel.gauss l u v, x, fun _ => 0⟩) (gauss_cov hA hl x (fun _ => 0) (Or.inr hx)) y
  have hβ' : ∀ i, ∑ j, gaussian A l (x i) (x j) * β j = y i := by
    intro i
    have := hβ i
    rw [hk]
    dsimp only at this ⊢
    linarith
  refine ⟨Real.sqrt (∑ i, ∑ j, β i * β j * gaussian A l (x i) (x j)), fun σ f hσ hf i => ?_⟩
  obtain ⟨α, h1, h2⟩ := C129_least hA hl hσ hf
  have h3 := h2 β
  have h4 : ∑ i, ((y i - ∑ j, gaussian A l (x i) (x j) * β j) / σ i) ^ 2 = 0 :=
    Finset.sum_eq_zero fun i _ => by rw [hβ' i]; simp
  rw [h4, zero_add] at h3
  have h5 : 0 ≤ ∑ i, ∑ j, α i * α j * gaussian A l (x i) (x j) := by
    have := mul_nonneg hA.le (GPKernel.gauss_nonneg hl x α)
    rw [Finset.mul_sum] at this
    refine le_of_le_of_eq this (Finset.sum_congr rfl fun i _ => ?_)
    rw [Finset.mul_sum, hk]
    exact Finset.sum_congr rfl fun j _ => by ring
  have h6 : ((y i - f (x i)) / σ i) ^ 2 ≤ ∑ i, ∑ j, β i * β j * gaussian A l (x i) (x j) := by
    have h7 : ((y i - f (x i)) / σ i) ^ 2 ≤ ∑ i, ((y i - ∑ j, gaussian A l (x i) (x j) * α j) / σ i) ^ 2 := by
      rw [h1]
      exact Finset.single_le_sum (f := fun i => ((y i - ∑ j, gaussian A l (x i) (x j) * α j) / σ i) ^ 2) (fun _ _ => sq_nonneg _) (Finset.mem_univ i)
    linarith
  have h8 := Real.abs_le_sqrt h6
  rw [abs_div, div_le_iff₀ (abs_pos.2 (hσ i)), abs_sub_comm] at h8
  exact h8

/-- C129: the mean of the process with the Gaussian kernel has derivatives of all orders. -/
theorem C129_smooth {n d : ℕ} {A : ℝ} {l : Fin d → ℝ} {x : Fin n → Fin d → ℝ} {σ y : Fin n → ℝ} {f : (Fin d → ℝ) → ℝ} (hf : IsMean (gaussian A l) x σ y f) (m : ℕ) :
    ContDiff ℝ m f := by
  obtain ⟨α, _, h2⟩ := hf
  have : f = fun t => ∑ i, gaussian A l t (x i) * α i := funext h2
  rw [this]
  unfold gaussian
  fun_prop

end

end Verif.SimFit
