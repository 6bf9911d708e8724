/-
Lemmas for C129: a call in terms of the numbers of a table only.
-/
import Verif.Lemmas.SimFitValue

namespace Verif.SimFit

noncomputable section

open Classical

/-- The numbers that a call uses: independent columns, dependent column, errors in units of the column. -/
structure Desc (p : Params) (n : ℕ) (col : String → Option (Fin n → ℝ)) (X : Fin n → Fin p.indep.length → ℝ) (y σ : Fin n → ℝ) : Prop where
  rows : n ≠ 0
  indep : ∀ a, col (p.indep.get a) = some fun i => X i a
  dep : col p.dep = some y
  err : p.useErrors = true → ∃ e, col (p.dep ++ "_err") = some e ∧ σ = fun i => e i / spread y
  noErr : p.useErrors = false → σ = fun _ => tiny

/-- the columns in their own units -/
def stdX {n d : ℕ} (X : Fin n → Fin d → ℝ) (i : Fin n) (a : Fin d) : ℝ := std (fun i => X i a) (X i a)

/-- the process -/
def numbers {n d : ℕ} (k : (Fin d → ℝ) → (Fin d → ℝ) → ℝ) (X : Fin n → Fin d → ℝ) (σ : Fin n → ℝ) : GP := ⟨n, d, k, stdX X, σ⟩

/-- `GP.cov` and `GP.predict`, with the sizes as arguments -/
def covN {n d : ℕ} (k : (Fin d → ℝ) → (Fin d → ℝ) → ℝ) (x : Fin n → Fin d → ℝ) (σ : Fin n → ℝ) : Matrix (Fin n) (Fin n) ℝ := GP.cov ⟨n, d, k, x, σ⟩

def predictN {n d : ℕ} (k : (Fin d → ℝ) → (Fin d → ℝ) → ℝ) (x : Fin n → Fin d → ℝ) (σ y : Fin n → ℝ) (t : Fin d → ℝ) : ℝ := GP.predict ⟨n, d, k, x, σ⟩ y t

/-- the value at a point -/
def valueOf {n d : ℕ} (k : (Fin d → ℝ) → (Fin d → ℝ) → ℝ) (X : Fin n → Fin d → ℝ) (y σ : Fin n → ℝ) (t : Fin d → ℝ) : ℝ :=
  avg y + spread y * predictN k (stdX X) σ (fun i => std y (y i)) fun a => std (fun i => X i a) (t a)

theorem gpOf_numbers {p : Params} {n : ℕ} {col : String → Option (Fin n → ℝ)} {X : Fin n → Fin p.indep.length → ℝ} {y σ : Fin n → ℝ} (h : Desc p n col X y σ) :
    colX { p with data := ⟨n, col⟩ } = X ∧ colOf { p with data := ⟨n, col⟩ } p.dep = y ∧ Readable { p with data := ⟨n, col⟩ } ∧
    gpOf { p with data := ⟨n, col⟩ } = numbers (kernOf p) X σ := by
  have hX : colX { p with data := ⟨n, col⟩ } = X := by
    funext i a
    show ((col (p.indep.get a)).getD fun _ => 0) i = X i a
    rw [h.indep a]
    rfl
  have hy : colOf { p with data := ⟨n, col⟩ } p.dep = y := by
    show (col p.dep).getD (fun _ => 0) = y
    rw [h.dep]
    rfl
  refine ⟨hX, hy, ⟨h.rows, fun c hc => ?_, ?_, fun hu => ?_⟩, ?_⟩
  · obtain ⟨a, ha⟩ := List.mem_iff_get.1 hc
    show col c ≠ none
    rw [← ha, h.indep a]
    simp
  · show col p.dep ≠ none
    rw [h.dep]
    simp
  · obtain ⟨e, he, _⟩ := h.err hu
    show col (p.dep ++ "_err") ≠ none
    rw [he]
    simp
  · have hσ : scaledErr { p with data := ⟨n, col⟩ } = σ := by
      unfold scaledErr
      cases hu : p.useErrors with
      | true =>
        obtain ⟨e, he, hs⟩ := h.err hu
        rw [hs]
        funext i
        show (if true = true then colOf { p with data := ⟨n, col⟩ } (p.dep ++ "_err") i / scale (colOf { p with data := ⟨n, col⟩ } p.dep) else tiny) = _
        rw [hy, if_pos rfl, scale_spread]
        show ((col (p.dep ++ "_err")).getD fun _ => 0) i / _ = _
        rw [he]
        rfl
      | false =>
        rw [h.noErr hu]
        rfl
    have hx : scaledX { p with data := ⟨n, col⟩ } = stdX X := by
      funext i a
      unfold scaledX stdX
      rw [hX]
      simp only [std, ← mean_avg, ← scale_spread]
    unfold gpOf numbers
    rw [hσ, hx]
    rfl

theorem eval_of {p : Params} {n : ℕ} {col : String → Option (Fin n → ℝ)} {X : Fin n → Fin p.indep.length → ℝ} {y σ : Fin n → ℝ} (h : Desc p n col X y σ)
    (hd : p.theta.length = p.indep.length ∨ p.theta.length = p.indep.length + 1) (hp : (covN (kernOf p) (stdX X) σ).PosDef)
    {args : List Arg} {kw : List (String × Arg)} {pts : List (List ℝ)} (ha : asked p.indep args kw = .ok pts) (hne : pts ≠ []) :
    pEvaluate args kw { p with data := ⟨n, col⟩ } = .ok (pts.map fun t => valueOf (kernOf p) X y σ fun a => t.getD a 0) := by
  obtain ⟨hX, hy, hr, hg⟩ := gpOf_numbers h
  rw [pEvaluate_eq hr hd (by rw [hg]; exact hp) ha hne]
  congr 1
  refine List.map_congr_left fun t _ => ?_
  have hys : scaledY { p with data := ⟨n, col⟩ } = fun i => std y (y i) := by
    funext i
    unfold scaledY
    dsimp only
    rw [hy]
    simp only [std, ← mean_avg, ← scale_spread]
  have key : ∀ (g g' : GP) (_ : g = g') (y : Fin g.n → ℝ) (y' : Fin g'.n → ℝ) (t : Fin g.d → ℝ) (t' : Fin g'.d → ℝ), HEq y y' → HEq t t' → g.predict y t = g'.predict y' t' := by
    rintro g g' rfl y y' t t' h1 h2
    rw [eq_of_heq h1, eq_of_heq h2]
  unfold valueAt valueOf
  dsimp only
  rw [hy, key _ _ hg _ (fun i => std y (y i)) _ (fun a => std (fun i => X i a) (t.getD a 0)) (heq_of_eq hys), scale_spread, mean_avg]
  · rw [add_comm, mul_comm]
    rfl
  · refine heq_of_eq ?_
    funext a
    rw [hX]
    simp only [std, ← mean_avg, ← scale_spread]

theorem of_eval {p : Params} {args : List Arg} {kw : List (String × Arg)} {l : List ℝ} (h : pEvaluate args kw p = .ok l) :
    ∃ X y σ pts, Desc p p.data.n p.data.col X y σ ∧ (p.theta.length = p.indep.length ∨ p.theta.length = p.indep.length + 1) ∧
      (covN (kernOf p) (stdX X) σ).PosDef ∧ asked p.indep args kw = .ok pts ∧ pts ≠ [] ∧ l = pts.map fun t => valueOf (kernOf p) X y σ fun a => t.getD a 0 := by
  obtain ⟨hr, hd, hp, pts, hpts, hne, hl⟩ := pEvaluate_ok h
  have hdesc : Desc p p.data.n p.data.col (colX p) (colOf p p.dep) (scaledErr p) := by
    refine ⟨hr.rows, fun a => ?_, ?_, fun hu => ⟨colOf p (p.dep ++ "_err"), ?_, ?_⟩, fun hu => ?_⟩
    · have := hr.indep (p.indep.get a) (List.get_mem _ _)
      unfold colX
      cases hc : p.data.col (p.indep.get a) with
      | none => exact absurd hc this
      | some v => rfl
    · have := hr.dep
      unfold colOf
      cases hc : p.data.col p.dep with
      | none => exact absurd hc this
      | some v => rfl
    · have := hr.err hu
      unfold colOf
      cases hc : p.data.col (p.dep ++ "_err") with
      | none => exact absurd hc this
      | some v => rfl
    · funext i; simp [scaledErr, hu, scale_spread]
    · funext i; simp [scaledErr, hu]
  have hg : gpOf p = numbers (kernOf p) (colX p) (scaledErr p) := (gpOf_numbers hdesc).2.2.2
  have hp' : (covN (kernOf p) (stdX (colX p)) (scaledErr p)).PosDef := by
    have h' := hp
    rw [hg] at h'
    exact h'
  refine ⟨_, _, _, pts, hdesc, hd, hp', hpts, hne, ?_⟩
  have := eval_of hdesc hd hp' hpts hne
  change pEvaluate args kw p = _ at this
  rw [h] at this
  exact Except.ok.inj this

end

end Verif.SimFit
