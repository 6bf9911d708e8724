/-
C34: the Fisher matrix and the errors computed from it.
-/
import Verif.Model.Fisher
import Mathlib.Data.List.NodupEquivFin
import Mathlib.LinearAlgebra.Matrix.ToLinearEquiv
import Mathlib.Tactic.Ring
import Mathlib.Tactic.Linarith
import Mathlib.Tactic.NormNum
import Mathlib.Tactic.FinCases
import Mathlib.Tactic.FieldSimp

namespace Verif.Fisher

open Verif.Priors Verif.Priors.Flt

noncomputable section

variable {n m q : ℕ} {N E : Type} [DecidableEq N]

/-! ### Specification -/

/-- The information a prior adds: the inverse variance of a normal prior, nothing for a uniform one. -/
def precision : PriorKind → ℝ
  | .normal s => 1 / s ^ 2
  | _ => 0

/-- A prior `fisher` can handle. -/
def Supported : PriorKind → Prop
  | .normal _ => True
  | .uniform => True
  | _ => False

/-- positive definite -/
def PD {ι : Type} [Fintype ι] (F : Matrix ι ι ℝ) : Prop := ∀ x, x ≠ 0 → 0 < dotProduct x (F.mulVec x)

/-- The derivative of the parameter `p` by the `i`-th free parameter; `d` are the derivatives of the constrained ones. -/
def trueJac (free : Fin n → N) (d : N → N → ℝ) (params : List N) : Matrix (Fin n) (Fin params.length) ℝ := fun i a =>
  if ∃ j, free j = params[a.val] then (if free i = params[a.val] then 1 else 0) else d params[a.val] (free i)

/-- Covariance of the requested parameters: `Jᵀ F⁻¹ J`, where `F` and `J` are restricted to the parameters that are not fixed. -/
def covAt (free : Fin n → N) (d : N → N → ℝ) (F : Matrix (Fin n) (Fin n) ℝ) (params fixed : List N) :
    Matrix (Fin params.length) (Fin params.length) ℝ :=
  let val : {i : Fin n // free i ∉ fixed} → Fin n := Subtype.val
  let J := (trueJac free d params).submatrix val id
  J.transpose * ((F.submatrix val val)⁻¹ * J)

/-! ### The matrix -/

theorem inner_spec (v : Fin n → ℝ) (i : Fin n) (js : List (Fin n)) (F : Matrix (Fin n) (Fin n) ℝ) (a b : Fin n) :
    js.foldl (fun F j =>
      let F := setEntry F i j (v j)
      setEntry F j i (F i j)) F a b = if a = i ∧ b ∈ js then v b else if b = i ∧ a ∈ js then v a else F a b := by
  induction js generalizing F with
  | nil => simp
  | cons j js ih =>
    rw [List.foldl_cons, ih]
    simp only [setEntry, List.mem_cons]
    by_cases h1 : a = i <;> by_cases h2 : b = i <;> by_cases h3 : a = j <;> by_cases h4 : b = j <;>
      by_cases h5 : a ∈ js <;> by_cases h6 : b ∈ js <;> simp_all

theorem assemble_spec (g : Fin n → Fin m → ℝ) (cinv : Matrix (Fin m) (Fin m) ℝ) (a b : Fin n) :
    assemble g cinv a b = if a ≤ b then dotProduct (g a) (cinv.mulVec (g b)) else dotProduct (g b) (cinv.mulVec (g a)) := by
  have key : ∀ (is : List (Fin n)) (F : Matrix (Fin n) (Fin n) ℝ),
      is.foldl (fun F i =>
        ((List.finRange n).filter (fun j => decide (i ≤ j))).foldl (fun F j =>
          let F := setEntry F i j (dotProduct (g i) (cinv.mulVec (g j)))
          setEntry F j i (F i j)) F) F a b =
      if a ≤ b then (if a ∈ is then dotProduct (g a) (cinv.mulVec (g b)) else F a b)
      else (if b ∈ is then dotProduct (g b) (cinv.mulVec (g a)) else F a b) := by
    intro is
    induction is with
    | nil => intro F; simp
    | cons i is ih =>
      intro F
      rw [List.foldl_cons, ih]
      have hin := inner_spec (fun j => dotProduct (g i) (cinv.mulVec (g j))) i ((List.finRange n).filter (fun j => decide (i ≤ j))) F a b
      rw [hin]
      simp only [List.mem_filter, List.mem_finRange, true_and, decide_eq_true_eq, List.mem_cons]
      by_cases hab : a ≤ b
      · rw [if_pos hab, if_pos hab]
        by_cases h1 : a ∈ is
        · simp [h1]
        · by_cases h2 : a = i
          · subst h2; simp [h1, hab]
          · have h3 : ¬ (b = i ∧ i ≤ a) := by
              rintro ⟨rfl, h⟩; exact h2 (le_antisymm hab h)
            simp [h1, h2, h3]
      · rw [if_neg hab, if_neg hab]
        by_cases h1 : b ∈ is
        · simp [h1]
        · by_cases h2 : b = i
          · subst h2
            have h3 : ¬ a = b := by
              rintro rfl; exact hab le_rfl
            simp [h1, h3, (not_le.1 hab).le]
          · have h3 : ¬ (a = i ∧ i ≤ b) := by
              rintro ⟨rfl, h⟩; exact hab h
            simp [h1, h2, h3]
  rw [assemble, key]
  simp

theorem priorLoop_spec (pr : Fin n → PriorKind) (is : List (Fin n)) (p : Fin n → ℝ) (h : ∀ i ∈ is, Supported (pr i)) :
    priorLoop (E := E) pr is p = .ok fun j => if j ∈ is then precision (pr j) else p j := by
  induction is generalizing p with
  | nil => simp [priorLoop]
  | cons i is ih =>
    have hi := h i (by simp)
    have hp : priorInfo (E := E) (pr i) = .ok (precision (pr i)) := by
      cases hk : pr i with
      | normal s => simp [priorInfo, precision, zpow_neg]
      | uniform => rfl
      | otherKind => rw [hk] at hi; exact hi.elim
      | absent => rw [hk] at hi; exact hi.elim
    simp only [priorLoop, hp]
    rw [ih _ (fun j hj => h j (by simp [hj]))]
    congr 1
    funext j
    by_cases h1 : j ∈ is <;> by_cases h2 : j = i <;> simp_all

theorem priorLoop_ok (pr : Fin n → PriorKind) (is : List (Fin n)) (p v : Fin n → ℝ) (h : priorLoop (E := E) pr is p = .ok v) :
    ∀ i ∈ is, Supported (pr i) := by
  induction is generalizing p with
  | nil => simp
  | cons i is ih =>
    simp only [priorLoop] at h
    cases hk : pr i with
    | normal s =>
      rw [hk] at h
      intro j hj
      rcases List.mem_cons.1 hj with rfl | hj
      · rw [hk]; trivial
      · exact ih _ h j hj
    | uniform =>
      rw [hk] at h
      intro j hj
      rcases List.mem_cons.1 hj with rfl | hj
      · rw [hk]; trivial
      · exact ih _ h j hj
    | otherKind => rw [hk] at h; simp [priorInfo] at h
    | absent => rw [hk] at h; simp [priorInfo] at h

/-- C34: whatever the gradient, the inverse covariance (symmetric or not) and the priors, a Fisher matrix computed from the gradient is
symmetric. -/
theorem C34_symmetric (b : Bool) (g : Fin n → Fin m → ℝ) (hess : Bool → Except E (Matrix (Fin n) (Fin n) ℝ)) (cinv : Matrix (Fin m) (Fin m) ℝ)
    (pr : Fin n → PriorKind) (u : Bool) (F : Matrix (Fin n) (Fin n) ℝ) (h : fisher b (some (.ok g)) hess cinv pr u false = .ok F) :
    F.transpose = F := by
  have hs : (assemble g cinv).transpose = assemble g cinv := by
    ext i j
    rw [Matrix.transpose_apply, assemble_spec, assemble_spec]
    rcases lt_trichotomy i j with h | rfl | h
    · rw [if_neg (not_le.2 h), if_pos h.le]
    · rfl
    · rw [if_pos h.le, if_neg (not_le.2 h)]
  simp only [fisher] at h
  cases b
  · simp at h
  · simp only [Bool.not_true, Bool.false_eq_true, if_false] at h
    cases u
    · simp only [Bool.false_eq_true, if_false, Except.ok.injEq] at h
      rw [← h, Matrix.transpose_add, hs, Matrix.diagonal_transpose]
    · simp only [if_true] at h
      cases hp : priorLoop (E := E) pr (List.finRange n) (fun _ => 0) with
      | error e => rw [hp] at h; simp at h
      | ok p =>
        rw [hp] at h
        simp only [Except.ok.injEq] at h
        rw [← h, Matrix.transpose_add, hs, Matrix.diagonal_transpose]

/-- C34: with a symmetric inverse covariance the Fisher matrix is `g C⁻¹ gᵀ`, plus the precisions of the priors on the diagonal. -/
theorem C34_matrix (g : Fin n → Fin m → ℝ) (hess : Bool → Except E (Matrix (Fin n) (Fin n) ℝ)) (cinv : Matrix (Fin m) (Fin m) ℝ)
    (hsym : cinv.transpose = cinv) (pr : Fin n → PriorKind) (u : Bool) (hpr : u = true → ∀ i, Supported (pr i)) :
    fisher true (some (.ok g)) hess cinv pr u false =
      .ok (Matrix.of g * cinv * (Matrix.of g).transpose + Matrix.diagonal fun i => if u then precision (pr i) else 0) := by
  have ha : assemble g cinv = Matrix.of g * cinv * (Matrix.of g).transpose := by
    ext i j
    have e : ∀ i j, (Matrix.of g * cinv * (Matrix.of g).transpose) i j = dotProduct (g i) (cinv.mulVec (g j)) := by
      intro i j
      rw [Matrix.mul_assoc, Matrix.mul_apply]
      refine Finset.sum_congr rfl fun k _ => ?_
      rw [Matrix.of_apply, Matrix.mul_apply]
      rfl
    rw [assemble_spec, e]
    split
    · rfl
    · rw [Matrix.dotProduct_mulVec, ← Matrix.mulVec_transpose, hsym, dotProduct_comm]
  cases u
  · simp [fisher, ha]
  · simp only [fisher]
    rw [priorLoop_spec pr _ _ (fun i _ => hpr rfl i), ha]
    simp

/-- C34: it is positive definite if the inverse covariance is, and every parameter changes the prediction or has a normal prior, even
jointly. -/
theorem C34_definite (g : Fin n → Fin m → ℝ) (cinv : Matrix (Fin m) (Fin m) ℝ) (hpd : PD cinv) (p : Fin n → ℝ) (hp : ∀ i, 0 ≤ p i)
    (hind : ∀ x : Fin n → ℝ, x ≠ 0 → (Matrix.of g).transpose.mulVec x ≠ 0 ∨ ∃ i, x i ≠ 0 ∧ 0 < p i) :
    PD (Matrix.of g * cinv * (Matrix.of g).transpose + Matrix.diagonal p) := by
  intro x hx
  have e1 : dotProduct x ((Matrix.of g * cinv * (Matrix.of g).transpose).mulVec x) =
      dotProduct ((Matrix.of g).transpose.mulVec x) (cinv.mulVec ((Matrix.of g).transpose.mulVec x)) := by
    rw [Matrix.mul_assoc, ← Matrix.mulVec_mulVec, Matrix.dotProduct_mulVec, ← Matrix.mulVec_transpose, ← Matrix.mulVec_mulVec]
  have e2 : dotProduct x ((Matrix.diagonal p).mulVec x) = ∑ i, p i * x i ^ 2 := by
    simp only [dotProduct, Matrix.mulVec_diagonal]
    exact Finset.sum_congr rfl fun i _ => by ring
  rw [Matrix.add_mulVec, dotProduct_add, e1, e2]
  have hnn : 0 ≤ ∑ i, p i * x i ^ 2 := Finset.sum_nonneg fun i _ => mul_nonneg (hp i) (sq_nonneg _)
  rcases hind x hx with h | ⟨i, hi, hpi⟩
  · have := hpd _ h
    linarith
  · have h1 : 0 < ∑ i, p i * x i ^ 2 :=
      Finset.sum_pos' (fun i _ => mul_nonneg (hp i) (sq_nonneg _)) ⟨i, Finset.mem_univ i, mul_pos hpi (by positivity)⟩
    have h2 : 0 ≤ dotProduct ((Matrix.of g).transpose.mulVec x) (cinv.mulVec ((Matrix.of g).transpose.mulVec x)) := by
      by_cases h0 : (Matrix.of g).transpose.mulVec x = 0
      · rw [h0]; simp
      · exact (hpd _ h0).le
    linarith

/-- C34 fails for the class as shipped: it has no attribute `pkmu_gradient`, so `fisher` raises for every argument unless
`numerical_from_lnlike` is given. -/
theorem C34_shipped_counterexample (b : Bool) (hess : Bool → Except E (Matrix (Fin n) (Fin n) ℝ)) (cinv : Matrix (Fin m) (Fin m) ℝ)
    (pr : Fin n → PriorKind) (u : Bool) : ∃ e, fisher b (shippedGradient (E := E)) hess cinv pr u false = .error e := by
  cases b
  · exact ⟨_, rfl⟩
  · exact ⟨.attribute, rfl⟩

/-- With priors, a prior that is neither normal nor uniform is refused. -/
theorem C34_unsupported (g : Fin n → Fin m → ℝ) (hess : Bool → Except E (Matrix (Fin n) (Fin n) ℝ)) (cinv : Matrix (Fin m) (Fin m) ℝ)
    (pr : Fin n → PriorKind) (i : Fin n) (hi : ¬ Supported (pr i)) : ∃ e, fisher true (some (.ok g)) hess cinv pr true false = .error e := by
  simp only [fisher]
  cases hp : priorLoop (E := E) pr (List.finRange n) (fun _ => 0) with
  | error e => exact ⟨e, rfl⟩
  | ok p => exact absurd (priorLoop_ok pr _ _ p hp i (List.mem_finRange i)) hi

/-! ### Fixing parameters -/

theorem jacEntry_spec (free : Fin n → N) (deriv : N → N → Except E ℝ) (d : N → N → ℝ) (i : Fin n) (p : N)
    (hd : (¬ ∃ j, free j = p) → deriv p (free i) = .ok (d p (free i))) :
    jacEntry free deriv i p = .ok (if ∃ j, free j = p then (if free i = p then 1 else 0) else d p (free i)) := by
  simp only [jacEntry]
  by_cases h : ∃ j, free j = p
  · have : (List.finRange n).any (fun j => decide (free j = p)) = true := by
      obtain ⟨j, hj⟩ := h
      rw [List.any_eq_true]; exact ⟨j, List.mem_finRange j, by simpa using hj⟩
    rw [if_pos this, if_pos h]
    split <;> rfl
  · have : (List.finRange n).any (fun j => decide (free j = p)) = false := by
      rw [List.any_eq_false]; intro j _ hj; exact h ⟨j, by simpa using hj⟩
    rw [this, if_neg h, hd h]
    simp

theorem jacRow_spec (free : Fin n → N) (deriv : N → N → Except E ℝ) (d : N → N → ℝ) (i : Fin n) (ps : List N)
    (hd : ∀ p ∈ ps, (¬ ∃ j, free j = p) → deriv p (free i) = .ok (d p (free i))) :
    jacRow free deriv i ps = .ok (ps.map fun p => if ∃ j, free j = p then (if free i = p then 1 else 0) else d p (free i)) := by
  induction ps with
  | nil => rfl
  | cons p ps ih =>
    simp only [jacRow, jacEntry_spec free deriv d i p (hd p (by simp)), ih (fun p' hp => hd p' (by simp [hp])), List.map_cons]

theorem jacRows_spec (free : Fin n → N) (deriv : N → N → Except E ℝ) (d : N → N → ℝ) (params : List N) (is : List (Fin n))
    (hd : ∀ i, ∀ p ∈ params, (¬ ∃ j, free j = p) → deriv p (free i) = .ok (d p (free i))) :
    jacRows free deriv params is =
      .ok (is.map fun i => params.map fun p => if ∃ j, free j = p then (if free i = p then 1 else 0) else d p (free i)) := by
  induction is with
  | nil => rfl
  | cons i is ih => simp only [jacRows, jacRow_spec free deriv d i params (hd i), ih, List.map_cons]

theorem zipIdx_finRange {α : Type} (r : Fin n → α) : ((List.finRange n).map r).zipIdx = (List.finRange n).map fun i => (r i, i.val) := by
  apply List.ext_getElem
  · simp
  · intro k h1 h2
    simp

theorem deleteRows_map {α : Type} (idx : List ℕ) (r : Fin n → α) :
    deleteRows idx ((List.finRange n).map r) = ((List.finRange n).filter fun i => decide (i.val ∉ idx)).map r := by
  rw [deleteRows, zipIdx_finRange, List.filter_map, List.map_map]
  rfl

theorem indexOf_spec (free : Fin n → N) (hinj : Function.Injective free) (fixed : List N) (i : Fin n) :
    i.val ∈ fixed.filterMap (fun p => (indexOf free p).map Fin.val) ↔ free i ∈ fixed := by
  simp only [List.mem_filterMap, Option.map_eq_some_iff]
  constructor
  · rintro ⟨p, hp, j, hj, hij⟩
    have h1 := List.find?_some hj
    simp only [decide_eq_true_eq] at h1
    have : j = i := Fin.ext hij
    rw [← this, h1]; exact hp
  · intro h
    refine ⟨free i, h, i, ?_, rfl⟩
    cases hf : indexOf free (free i) with
    | none =>
      rw [indexOf, List.find?_eq_none] at hf
      exact absurd (hf i (List.mem_finRange i)) (by simp)
    | some j =>
      have h1 := List.find?_some hf
      simp only [decide_eq_true_eq] at h1
      rw [hinj h1]

theorem errorsOf_equiv {S : Type} [Fintype S] [DecidableEq S] {k : ℕ} (e : Fin k ≃ S) (A : Matrix S S ℝ) (B : Matrix S (Fin q) ℝ) :
    errorsOf (E := E) k q (A.submatrix e e) (B.submatrix e id) =
      if A.det = 0 then .error .linAlg else .ok (fun a b => sqrtF ((B.transpose * (A⁻¹ * B)) a b)) := by
  simp only [errorsOf, Matrix.det_submatrix_equiv_self]
  have : (B.submatrix e id).transpose * ((A.submatrix e e)⁻¹ * B.submatrix e id) = B.transpose * (A⁻¹ * B) := by
    rw [Matrix.inv_submatrix_equiv, Matrix.submatrix_mul_equiv, Matrix.transpose_submatrix, Matrix.submatrix_mul_equiv, Matrix.submatrix_id_id]
  rw [this]

/-- C34: `marginalized_errors` computes the square roots of the entries of `Jᵀ F⁻¹ J`, with exactly the rows and columns of the fixed
parameters left out (or `LinAlgError`). -/
theorem C34_errors (free : Fin n → N) (hinj : Function.Injective free) (deriv : N → N → Except E ℝ) (d : N → N → ℝ)
    (F : Matrix (Fin n) (Fin n) ℝ) (params fixed : List N)
    (hd : ∀ i, ∀ p ∈ params, (¬ ∃ j, free j = p) → deriv p (free i) = .ok (d p (free i))) (hfix : ∀ p ∈ fixed, ∃ i, free i = p) :
    marginalizedErrors free deriv F params fixed =
      if (F.submatrix (Subtype.val : {i : Fin n // free i ∉ fixed} → Fin n) Subtype.val).det = 0 then .error .linAlg
      else .ok (fun a b => sqrtF (covAt free d F params fixed a b)) := by
  simp only [marginalizedErrors, jacRows_spec free deriv d params _ hd]
  let ks : List (Fin n) := (List.finRange n).filter fun i => decide (i.val ∉ fixed.filterMap (fun p => (indexOf free p).map Fin.val))
  have hks : ∀ i, i ∈ ks ↔ free i ∉ fixed := by
    intro i
    simp only [ks, List.mem_filter, List.mem_finRange, true_and, decide_eq_true_eq, indexOf_spec free hinj]
  have hnd : ks.Nodup := (List.nodup_finRange n).filter _
  let e : Fin ks.length ≃ {i : Fin n // free i ∉ fixed} := (hnd.getEquiv).trans (Equiv.subtypeEquivRight hks)
  have he : ∀ k : Fin ks.length, (e k).val = ks[k.val] := fun k => rfl
  have main : errorsOf (E := E) ks.length params.length
      ((F.submatrix (Subtype.val : {i : Fin n // free i ∉ fixed} → Fin n) Subtype.val).submatrix e e)
      (((trueJac free d params).submatrix (Subtype.val : {i : Fin n // free i ∉ fixed} → Fin n) id).submatrix e id) =
      if (F.submatrix (Subtype.val : {i : Fin n // free i ∉ fixed} → Fin n) Subtype.val).det = 0 then .error .linAlg
      else .ok (fun a b => sqrtF (covAt free d F params fixed a b)) := errorsOf_equiv e _ _
  cases fixed with
  | nil =>
    rw [← main]
    simp only [List.isEmpty_nil, if_true]
    have hk : ks = List.finRange n := by simp [ks]
    have hl : ks.length = n := by simp [hk]
    have hv : ∀ k : Fin ks.length, (e k).val = Fin.cast hl k := by
      intro k; rw [he]; simp [hk]; rfl
    generalize hE : (e : Fin ks.length → {i : Fin n // free i ∉ ([] : List N)}) = e' at hv ⊢
    have key : ∀ (k : ℕ) (hl : k = n) (w : Fin k → {i : Fin n // free i ∉ ([] : List N)}), (∀ j, (w j).val = Fin.cast hl j) →
        errorsOf (E := E) n params.length F (ofRows' n params.length ((List.finRange n).map fun i => params.map fun p =>
          if ∃ j, free j = p then (if free i = p then (1 : ℝ) else 0) else d p (free i))) =
        errorsOf k params.length ((F.submatrix (Subtype.val : {i : Fin n // free i ∉ ([] : List N)} → Fin n) Subtype.val).submatrix w w)
          (((trueJac free d params).submatrix (Subtype.val : {i : Fin n // free i ∉ ([] : List N)} → Fin n) id).submatrix w id) := by
      intro k hl w hw
      subst hl
      congr 1
      · ext i j
        simp [hw]
      · ext i j
        simp [hw, ofRows', trueJac, List.getD_eq_getElem?_getD]
    exact key _ hl e' hv
  | cons p ps =>
    rw [← main]
    have hany : ((p :: ps).any fun p => !(List.finRange n).any fun i => decide (free i = p)) = false := by
      rw [List.any_eq_false]
      intro p' hp'
      obtain ⟨i, hi⟩ := hfix p' hp'
      have : (List.finRange n).any (fun i => decide (free i = p')) = true := by
        rw [List.any_eq_true]; exact ⟨i, List.mem_finRange i, by simpa using hi⟩
      simp [this]
    simp only [List.isEmpty_cons, Bool.false_eq_true, if_false, hany]
    have hF : deleteBoth ((p :: ps).filterMap (fun p => (indexOf free p).map Fin.val)) (rowsOf F) =
        ks.map fun i => ks.map fun j => F i j := by
      rw [deleteBoth, rowsOf, deleteRows_map, List.map_map]
      refine List.map_congr_left fun i _ => ?_
      simp only [Function.comp]
      rw [deleteRows_map]
    rw [hF, deleteRows_map]
    change errorsOf (ks.map fun i => ks.map fun j => F i j).length params.length _ (ofRows' _ _ (ks.map _)) = _
    rw [List.length_map]
    congr 1
    · ext i j
      simp [ofRows, he, List.getD_eq_getElem?_getD]
    · ext i j
      simp [ofRows', he, trueJac, List.getD_eq_getElem?_getD]

/-- A name that is not free cannot be fixed. -/
theorem C34_fixed_must_be_free (free : Fin n → N) (deriv : N → N → Except E ℝ) (d : N → N → ℝ) (F : Matrix (Fin n) (Fin n) ℝ)
    (params fixed : List N) (hd : ∀ i, ∀ p ∈ params, (¬ ∃ j, free j = p) → deriv p (free i) = .ok (d p (free i)))
    (p : N) (hp : p ∈ fixed) (hn : ∀ i, free i ≠ p) : marginalizedErrors free deriv F params fixed = .error .notFree := by
  simp only [marginalizedErrors, jacRows_spec free deriv d params _ hd]
  have h1 : fixed.isEmpty = false := by cases fixed <;> simp_all
  have h2 : (fixed.any fun p => !(List.finRange n).any fun i => decide (free i = p)) = true := by
    rw [List.any_eq_true]
    refine ⟨p, hp, ?_⟩
    have : (List.finRange n).any (fun i => decide (free i = p)) = false := by
      rw [List.any_eq_false]; intro i _; simpa using hn i
    simp [this]
  simp [h1, h2]

theorem PD.det_ne_zero {ι : Type} [Fintype ι] [DecidableEq ι] {F : Matrix ι ι ℝ} (h : PD F) : F.det ≠ 0 := by
  intro h0
  obtain ⟨v, hv, hF⟩ := Matrix.exists_mulVec_eq_zero_iff.2 h0
  have := h v hv
  rw [hF] at this
  simp at this

section extend

variable {ι : Type} [Fintype ι] (p : ι → Prop) [DecidablePred p]

/-- extension by zero -/
def ext0 (x : {i // p i} → ℝ) : ι → ℝ := fun i => if hi : p i then x ⟨i, hi⟩ else 0

theorem ext0_sum (x : {i // p i} → ℝ) (f : ι → ℝ) : dotProduct (ext0 p x) f = dotProduct x (fun i => f i.val) := by
  simp only [dotProduct]
  have h1 : ∑ i, ext0 p x i * f i = ∑ i ∈ Finset.univ.filter p, ext0 p x i * f i := by
    rw [Finset.sum_filter]
    refine Finset.sum_congr rfl fun i _ => ?_
    by_cases hi : p i <;> simp [ext0, hi]
  rw [h1, Finset.sum_subtype (Finset.univ.filter p) (p := p) (by simp)]
  refine Finset.sum_congr rfl fun i _ => ?_
  simp [ext0, i.property]

theorem ext0_mulVec (F : Matrix ι ι ℝ) (x : {i // p i} → ℝ) :
    (fun i : {i // p i} => F.mulVec (ext0 p x) i.val) = (F.submatrix (Subtype.val : {i // p i} → ι) Subtype.val).mulVec x := by
  funext i
  simp only [Matrix.mulVec]
  rw [dotProduct_comm, ext0_sum, dotProduct_comm]
  rfl

theorem PD.submatrix {F : Matrix ι ι ℝ} (h : PD F) : PD (F.submatrix (Subtype.val : {i // p i} → ι) Subtype.val) := by
  intro x hx
  have hy : ext0 p x ≠ 0 := by
    intro h0
    apply hx
    funext i
    have := congrFun h0 i.val
    simpa [ext0, i.property] using this
  have key := h _ hy
  rw [ext0_sum, ext0_mulVec] at key
  exact key

/-- Fixing parameters does not increase a variance: the quadratic form of the inverse of a principal submatrix is at most that of the inverse. -/
theorem variance_le [DecidableEq ι] {F : Matrix ι ι ℝ} (h : PD F) (hs : F.transpose = F) (v : ι → ℝ) :
    dotProduct (fun i : {i // p i} => v i.val)
        ((F.submatrix (Subtype.val : {i // p i} → ι) (Subtype.val : {i // p i} → ι))⁻¹.mulVec fun i => v i.val) ≤
      dotProduct v (F⁻¹.mulVec v) := by
  set A := F.submatrix (Subtype.val : {i // p i} → ι) Subtype.val with hA
  set w : {i // p i} → ℝ := fun i => v i.val with hw
  have hAd : IsUnit A.det := isUnit_iff_ne_zero.2 (h.submatrix p).det_ne_zero
  have hFd : IsUnit F.det := isUnit_iff_ne_zero.2 h.det_ne_zero
  set y := A⁻¹.mulVec w with hy
  set z := F⁻¹.mulVec v with hz
  have hAy : A.mulVec y = w := by rw [hy, Matrix.mulVec_mulVec, Matrix.mul_nonsing_inv _ hAd, Matrix.one_mulVec]
  have hFz : F.mulVec z = v := by rw [hz, Matrix.mulVec_mulVec, Matrix.mul_nonsing_inv _ hFd, Matrix.one_mulVec]
  have hnn : 0 ≤ dotProduct (ext0 p y - z) (F.mulVec (ext0 p y - z)) := by
    by_cases h0 : ext0 p y - z = 0
    · rw [h0]; simp
    · exact (h _ h0).le
  have e1 : dotProduct (ext0 p y) (F.mulVec (ext0 p y)) = dotProduct y w := by
    rw [ext0_sum, ext0_mulVec, ← hA, hAy]
  have e2 : dotProduct (ext0 p y) v = dotProduct y w := ext0_sum p y v
  have e3 : dotProduct z (F.mulVec (ext0 p y)) = dotProduct y w := by
    rw [Matrix.dotProduct_mulVec, ← Matrix.mulVec_transpose, hs, hFz, dotProduct_comm, e2]
  rw [Matrix.mulVec_sub, hFz, sub_dotProduct, dotProduct_sub, dotProduct_sub, e1, e2, e3] at hnn
  have e4 : dotProduct w y = dotProduct y w := dotProduct_comm _ _
  have e5 : dotProduct v z = dotProduct z v := dotProduct_comm _ _
  rw [e4, e5]
  linarith

end extend

theorem cov_diag (free : Fin n → N) (d : N → N → ℝ) (F : Matrix (Fin n) (Fin n) ℝ) (params fixed : List N) (a : Fin params.length) :
    covAt free d F params fixed a a =
      dotProduct (fun i : {i : Fin n // free i ∉ fixed} => trueJac free d params i.val a)
        ((F.submatrix (Subtype.val : {i : Fin n // free i ∉ fixed} → Fin n) (Subtype.val : {i : Fin n // free i ∉ fixed} → Fin n))⁻¹.mulVec
          fun i => trueJac free d params i.val a) := by
  simp only [covAt, Matrix.mul_apply, dotProduct, Matrix.mulVec, Matrix.transpose_apply, Matrix.submatrix_apply, id]

theorem cov_nonneg (free : Fin n → N) (d : N → N → ℝ) (F : Matrix (Fin n) (Fin n) ℝ) (hF : PD F) (params fixed : List N)
    (a : Fin params.length) : 0 ≤ covAt free d F params fixed a a := by
  rw [cov_diag]
  have hA := hF.submatrix (fun i => free i ∉ fixed)
  set A := F.submatrix (Subtype.val : {i : Fin n // free i ∉ fixed} → Fin n) Subtype.val
  set w : {i : Fin n // free i ∉ fixed} → ℝ := fun i => trueJac free d params i.val a
  have hAd : IsUnit A.det := isUnit_iff_ne_zero.2 hA.det_ne_zero
  have : A.mulVec (A⁻¹.mulVec w) = w := by rw [Matrix.mulVec_mulVec, Matrix.mul_nonsing_inv _ hAd, Matrix.one_mulVec]
  by_cases h0 : A⁻¹.mulVec w = 0
  · rw [h0]; simp
  · have := hA _ h0
    rw [‹A.mulVec (A⁻¹.mulVec w) = w›, dotProduct_comm] at this
    exact this.le

/-- `covAt` does not depend on what is fixed when nothing is. -/
theorem cov_le (free : Fin n → N) (d : N → N → ℝ) (F : Matrix (Fin n) (Fin n) ℝ) (hF : PD F) (hs : F.transpose = F)
    (params fixed : List N) (a : Fin params.length) : covAt free d F params fixed a a ≤ covAt free d F params [] a a := by
  have h1 : covAt free d F params [] a a = dotProduct (fun i => trueJac free d params i a) (F⁻¹.mulVec fun i => trueJac free d params i a) := by
    rw [cov_diag]
    let e : {i : Fin n // free i ∉ ([] : List N)} ≃ Fin n := Equiv.subtypeUnivEquiv (by simp)
    have he : (e : {i : Fin n // free i ∉ ([] : List N)} → Fin n) = Subtype.val := rfl
    rw [← he, Matrix.inv_submatrix_equiv]
    simp only [dotProduct, Matrix.mulVec, Matrix.submatrix_apply]
    rw [← Equiv.sum_comp e]
    refine Finset.sum_congr rfl fun i _ => ?_
    congr 1
    rw [← Equiv.sum_comp e]
  rw [h1, cov_diag]
  exact variance_le (fun i => free i ∉ fixed) hF hs (fun i => trueJac free d params i a)

/-- C34: with a positive definite Fisher matrix, the errors (the diagonal of the result) are numbers, and fixing parameters never increases
them. -/
theorem C34_fixing (free : Fin n → N) (hinj : Function.Injective free) (deriv : N → N → Except E ℝ) (d : N → N → ℝ)
    (F : Matrix (Fin n) (Fin n) ℝ) (hF : PD F) (hs : F.transpose = F) (params fixed : List N)
    (hd : ∀ i, ∀ p ∈ params, (¬ ∃ j, free j = p) → deriv p (free i) = .ok (d p (free i))) (hfix : ∀ p ∈ fixed, ∃ i, free i = p) :
    ∃ R R', marginalizedErrors free deriv F params [] = .ok R ∧ marginalizedErrors free deriv F params fixed = .ok R' ∧
      ∀ a, ∃ x x', R a a = fin x ∧ R' a a = fin x' ∧ 0 ≤ x' ∧ x' ≤ x := by
  refine ⟨fun a b => sqrtF (covAt free d F params [] a b), fun a b => sqrtF (covAt free d F params fixed a b), ?_, ?_, ?_⟩
  · rw [C34_errors free hinj deriv d F params [] hd (by simp), if_neg (hF.submatrix fun i => free i ∉ ([] : List N)).det_ne_zero]
  · rw [C34_errors free hinj deriv d F params fixed hd hfix, if_neg (hF.submatrix fun i => free i ∉ fixed).det_ne_zero]
  · intro a
    have h1 := cov_nonneg free d F hF params fixed a
    have h2 := cov_le free d F hF hs params fixed a
    refine ⟨Real.sqrt (covAt free d F params [] a a), Real.sqrt (covAt free d F params fixed a a), ?_, ?_, Real.sqrt_nonneg _,
      Real.sqrt_le_sqrt h2⟩
    · simp only [sqrtF, if_neg (not_lt.2 (h1.trans h2))]
    · simp only [sqrtF, if_neg (not_lt.2 h1)]

/-- C34: the error reported for a fixed parameter is 0. -/
theorem C34_fixed_error (free : Fin n → N) (d : N → N → ℝ) (F : Matrix (Fin n) (Fin n) ℝ) (params fixed : List N)
    (a : Fin params.length) (i : Fin n) (ha : params[a.val] = free i) (hi : free i ∈ fixed) : covAt free d F params fixed a a = 0 := by
  rw [cov_diag]
  have : (fun i : {i : Fin n // free i ∉ fixed} => trueJac free d params i.val a) = 0 := by
    funext j
    have h1 : ∃ j, free j = params[a.val] := ⟨i, ha.symm⟩
    have h2 : free j.val ≠ params[a.val] := by
      intro h; apply j.property; rw [h, ha]; exact hi
    simp only [trueJac, if_pos h1, if_neg h2, Pi.zero_apply]
  rw [this]; simp

/-- the Fisher matrix of the example below -/
def F2 : Matrix (Fin 2) (Fin 2) ℝ := !![2, 1; 1, 2]

theorem F2_pd : PD F2 := by
  intro x hx
  have e : dotProduct x (F2.mulVec x) = x 0 ^ 2 + x 1 ^ 2 + (x 0 + x 1) ^ 2 := by
    simp [F2, dotProduct, Matrix.mulVec, Fin.sum_univ_two]; ring
  rw [e]
  have : x 0 ≠ 0 ∨ x 1 ≠ 0 := by
    by_contra h
    push Not at h
    apply hx
    funext i
    fin_cases i
    · exact h.1
    · exact h.2
  rcases this with h | h
  · have : 0 < x 0 ^ 2 := by positivity
    positivity
  · have : 0 < x 1 ^ 2 := by positivity
    positivity

theorem F2_cov (a b : Fin 2) : covAt (n := 2) id (fun _ _ => 0) F2 [0, 1] [] a b = (F2⁻¹) a b := by
  let e : {i : Fin 2 // id i ∉ ([] : List (Fin 2))} ≃ Fin 2 := Equiv.subtypeUnivEquiv (by simp)
  have hJ : trueJac (n := 2) id (fun _ _ => (0 : ℝ)) [0, 1] = (1 : Matrix (Fin 2) (Fin 2) ℝ) := by
    ext i j
    fin_cases i <;> fin_cases j <;> simp [trueJac]
  have h : covAt (n := 2) id (fun _ _ => 0) F2 [0, 1] [] =
      ((1 : Matrix (Fin 2) (Fin 2) ℝ).submatrix e id).transpose * ((F2.submatrix e e)⁻¹ * (1 : Matrix (Fin 2) (Fin 2) ℝ).submatrix e id) := by
    simp only [covAt]
    rw [hJ]
    rfl
  rw [h, Matrix.inv_submatrix_equiv, Matrix.submatrix_mul_equiv, Matrix.transpose_submatrix, Matrix.submatrix_mul_equiv, Matrix.submatrix_id_id,
    Matrix.transpose_one, Matrix.one_mul, Matrix.mul_one]

theorem F2_inv : F2⁻¹ = !![2 / 3, -1 / 3; -1 / 3, 2 / 3] := by
  apply Matrix.inv_eq_right_inv
  ext i j
  fin_cases i <;> fin_cases j <;> simp [F2, Matrix.mul_apply, Fin.sum_univ_two] <;> norm_num

/-- C34: what is returned is not the list of errors but a matrix, whose entries off the diagonal are not numbers as soon as two parameters
are anti-correlated: here for two free parameters with Fisher matrix [[2, 1], [1, 2]]. -/
theorem C34_matrix_counterexample : ∃ R, marginalizedErrors (N := Fin 2) (E := Unit) (n := 2) id (fun _ _ => .ok 0) F2 [0, 1] [] = .ok R ∧
    R 0 1 = nan ∧ R 0 0 = fin (Real.sqrt (2 / 3)) := by
  refine ⟨fun a b => sqrtF (covAt (n := 2) id (fun _ _ => 0) F2 [0, 1] [] a b), ?_, ?_, ?_⟩
  · rw [C34_errors (N := Fin 2) (E := Unit) (n := 2) id Function.injective_id (fun _ _ => .ok 0) (fun _ _ => 0) F2 [0, 1] [] (fun _ _ _ _ => rfl)
      (by simp), if_neg (F2_pd.submatrix fun i => id i ∉ ([] : List (Fin 2))).det_ne_zero]
  · have := F2_cov 0 1
    simp only [sqrtF]
    rw [this, F2_inv]
    norm_num
  · have := F2_cov 0 0
    simp only [sqrtF]
    rw [this, F2_inv]
    norm_num

/-- Non-vacuity: the example satisfies the hypotheses of `C34_fixing`, with the second parameter fixed. -/
example : ∃ R R', marginalizedErrors (N := Fin 2) (E := Unit) (n := 2) id (fun _ _ => .ok 0) F2 [0, 1] [] = .ok R ∧
    marginalizedErrors (N := Fin 2) (E := Unit) (n := 2) id (fun _ _ => .ok 0) F2 [0, 1] [1] = .ok R' ∧
      ∀ a, ∃ x x', R a a = fin x ∧ R' a a = fin x' ∧ 0 ≤ x' ∧ x' ≤ x :=
  C34_fixing id Function.injective_id (fun _ _ => .ok 0) (fun _ _ => 0) F2 F2_pd (by ext i j; fin_cases i <;> fin_cases j <;> rfl) [0, 1] [1]
    (fun _ _ _ _ => rfl) (by simp)

/-- Non-vacuity of `C34_definite` and `C34_matrix`: one datum, two parameters of which one has a prior. -/
example : PD (Matrix.of (fun (i : Fin 2) (_ : Fin 1) => if i = 0 then (1 : ℝ) else 0) * (1 : Matrix (Fin 1) (Fin 1) ℝ) *
    (Matrix.of fun (i : Fin 2) (_ : Fin 1) => if i = 0 then (1 : ℝ) else 0).transpose + Matrix.diagonal fun i => if i = 1 then 1 else 0) := by
  refine C34_definite _ _ ?_ _ (fun i => by split <;> norm_num) ?_
  · intro x hx
    have : x 0 ≠ 0 := by
      intro h; apply hx; funext i; fin_cases i; exact h
    simp only [Matrix.one_mulVec, dotProduct, Fin.sum_univ_one]
    exact mul_self_pos.2 this
  · intro x hx
    by_cases h : x 1 = 0
    · left
      intro h0
      apply hx
      have := congrFun h0 0
      simp [Matrix.mulVec, dotProduct] at this
      funext i
      fin_cases i
      · exact this
      · exact h
    · exact Or.inr ⟨1, h, by norm_num⟩

end

end Verif.Fisher
