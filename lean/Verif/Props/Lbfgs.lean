/-
C70, C71: the limited-memory BFGS minimiser.
-/
import Verif.Model.Lbfgs
import Mathlib.LinearAlgebra.Matrix.DotProduct
import Mathlib.Algebra.BigOperators.Fin
import Mathlib.Data.List.Chain
import Mathlib.Tactic.Linarith
import Mathlib.Tactic.Positivity
import Mathlib.Tactic.FieldSimp
import Mathlib.Tactic.NormNum
import Mathlib.Tactic.Ring

namespace Verif.Lbfgs

open Matrix

noncomputable section

variable {n : ℕ}

/-! ### C71: the inverse Hessian -/

/-- The BFGS inverse Hessian (textbook definition), newest pair first:
`H ← (1 - ρ s yᵀ) H (1 - ρ y sᵀ) + ρ s sᵀ`, starting from `h0 · 1`. -/
def bfgs (h0 : ℝ) : List (Slot n) → Matrix (Fin n) (Fin n) ℝ
  | [] => h0 • 1
  | p :: older => (1 - p.rho • vecMulVec p.s p.y) * bfgs h0 older * (1 - p.rho • vecMulVec p.y p.s) + p.rho • vecMulVec p.s p.s

theorem vmv_mulVec (u v w : Vec n) : vecMulVec u v *ᵥ w = (v ⬝ᵥ w) • u := by
  funext i
  simp only [mulVec, dotProduct, vecMulVec_apply, Pi.smul_apply, smul_eq_mul, Finset.sum_mul]
  refine Finset.sum_congr rfl fun j _ => ?_
  ring

theorem loop2_append (l : List (Slot n × ℝ)) (p : Slot n) (a : ℝ) (z : Vec n) :
    loop2 (l ++ [(p, a)]) z = loop2 l z + (a - p.rho * (p.y ⬝ᵥ loop2 l z)) • p.s := by
  induction l generalizing z with
  | nil => rfl
  | cons x t ih => obtain ⟨q, b⟩ := x; simp only [List.cons_append, loop2]; exact ih _

/-- C71: the two loops compute the product of the BFGS matrix with the vector. -/
theorem C71_two_loop (h0 : ℝ) (rows : List (Slot n)) (g : Vec n) :
    loop2 (rows.zip (loop1 rows g).1).reverse (h0 • (loop1 rows g).2) = bfgs h0 rows *ᵥ g := by
  induction rows generalizing g with
  | nil => simp [loop1, loop2, bfgs, smul_mulVec]
  | cons p t ih =>
    simp only [loop1, List.zip_cons_cons, List.reverse_cons]
    rw [loop2_append, ih]
    have e1 : (1 - p.rho • vecMulVec p.y p.s) *ᵥ g = g - (p.rho * (p.s ⬝ᵥ g)) • p.y := by
      rw [sub_mulVec, one_mulVec, smul_mulVec, vmv_mulVec, smul_smul]
    simp only [bfgs, add_mulVec, ← mulVec_mulVec, e1]
    set z := bfgs h0 t *ᵥ (g - (p.rho * (p.s ⬝ᵥ g)) • p.y)
    rw [sub_mulVec, one_mulVec, smul_mulVec, vmv_mulVec, smul_mulVec, vmv_mulVec, smul_smul, smul_smul, sub_smul]
    abel

/-- A row that was never written (zeros). -/
def zeroSlot : Slot n := ⟨0, 0, 0⟩

theorem bfgs_zeros (h0 : ℝ) (l : List (Slot n)) (k : ℕ) : bfgs h0 (l ++ List.replicate k zeroSlot) = bfgs h0 l := by
  induction l with
  | nil =>
    induction k with
    | zero => rfl
    | succ k ih =>
      rw [List.replicate_succ, List.nil_append] at *
      simp only [bfgs, zeroSlot, zero_smul, sub_zero, Matrix.one_mul, Matrix.mul_one, add_zero] at ih ⊢
      exact ih
  | cons p t ih => rw [List.cons_append, bfgs, bfgs, ih]

/-- C71: with non-negative curvature the matrix is positive definite, so the step is a descent direction. -/
theorem bfgs_pos (h0 : ℝ) (hh : 0 < h0) (rows : List (Slot n)) (hr : ∀ p ∈ rows, 0 ≤ p.rho) (x : Vec n) (hx : x ≠ 0) :
    0 < x ⬝ᵥ (bfgs h0 rows *ᵥ x) := by
  induction rows generalizing x with
  | nil =>
    simp only [bfgs, smul_mulVec, one_mulVec, dotProduct_smul, smul_eq_mul]
    have : 0 < x ⬝ᵥ x := lt_of_le_of_ne (Finset.sum_nonneg fun i _ => mul_self_nonneg (x i)) (fun h => hx (dotProduct_self_eq_zero.1 h.symm))
    positivity
  | cons p t ih =>
    have ht : ∀ q ∈ t, 0 ≤ q.rho := fun q hq => hr q (List.mem_cons_of_mem _ hq)
    have hp : 0 ≤ p.rho := hr p List.mem_cons_self
    have e1 : (1 - p.rho • vecMulVec p.y p.s) *ᵥ x = x - (p.rho * (p.s ⬝ᵥ x)) • p.y := by
      rw [sub_mulVec, one_mulVec, smul_mulVec, vmv_mulVec, smul_smul]
    have e2 : x ⬝ᵥ (bfgs h0 (p :: t) *ᵥ x) = (x - (p.rho * (p.s ⬝ᵥ x)) • p.y) ⬝ᵥ (bfgs h0 t *ᵥ (x - (p.rho * (p.s ⬝ᵥ x)) • p.y)) + p.rho * (p.s ⬝ᵥ x) ^ 2 := by
      simp only [bfgs, add_mulVec, ← mulVec_mulVec, e1]
      set z := bfgs h0 t *ᵥ (x - (p.rho * (p.s ⬝ᵥ x)) • p.y)
      rw [sub_mulVec, one_mulVec, smul_mulVec, vmv_mulVec, smul_mulVec, vmv_mulVec]
      simp only [dotProduct_add, dotProduct_sub, sub_dotProduct, smul_dotProduct, dotProduct_smul, smul_eq_mul]
      rw [dotProduct_comm x p.s]
      ring
    rw [e2]
    by_cases h0' : p.rho * (p.s ⬝ᵥ x) = 0
    · rw [h0', zero_smul, sub_zero]
      have := ih ht x hx
      have : 0 ≤ p.rho * (p.s ⬝ᵥ x) ^ 2 := by positivity
      linarith
    · have h1 : 0 < p.rho * (p.s ⬝ᵥ x) ^ 2 := by
        have ha : p.rho ≠ 0 := left_ne_zero_of_mul h0'
        have hb : p.s ⬝ᵥ x ≠ 0 := right_ne_zero_of_mul h0'
        have : 0 < p.rho := lt_of_le_of_ne hp ha.symm
        positivity
      by_cases hz : x - (p.rho * (p.s ⬝ᵥ x)) • p.y = 0
      · rw [hz]; simpa using h1
      · have := ih ht _ hz
        linarith

/-- C71: the newest pair satisfies the secant equation `H y = s`, whatever the older ones are. -/
theorem C71_secant (h0 : ℝ) (s y : Vec n) (older : List (Slot n)) (h : y ⬝ᵥ s ≠ 0) : bfgs h0 (⟨s, y, rhoOf s y⟩ :: older) *ᵥ y = s := by
  have e0 : rhoOf s y * (s ⬝ᵥ y) = 1 := by rw [rhoOf, if_neg h, dotProduct_comm s y]; field_simp
  have e1 : (1 - rhoOf s y • vecMulVec y s) *ᵥ y = 0 := by
    rw [sub_mulVec, one_mulVec, smul_mulVec, vmv_mulVec, smul_smul, e0, one_smul, sub_self]
  simp only [bfgs, add_mulVec, ← mulVec_mulVec, e1, mulVec_zero, zero_add]
  rw [smul_mulVec, vmv_mulVec, smul_smul, e0, one_smul]

/-- C71: the matrix is symmetric. -/
theorem C71_symmetric (h0 : ℝ) (rows : List (Slot n)) : (bfgs h0 rows).transpose = bfgs h0 rows := by
  induction rows with
  | nil => simp [bfgs]
  | cons p t ih => simp [bfgs, ih, Matrix.mul_assoc, transpose_vecMulVec]

/-! ### The memory -/

/-- The row written for a pair. -/
def slotOf (u : Vec n × Vec n) : Slot n := ⟨u.1, u.2, rhoOf u.1 u.2⟩

/-- The scale used for the initial matrix after a sequence of updates (oldest first): `s·y / y·y` of the newest pair. -/
def scaleOf (ups : List (Vec n × Vec n)) : ℝ :=
  match ups.getLast? with
  | none => 1
  | some u => 1 / (rhoOf u.1 u.2 * (u.2 ⬝ᵥ u.2))

/-- The object after the updates `ups`, oldest first, starting from a new one. -/
def updated (n M : ℕ) (ups : List (Vec n × Vec n)) : Hess n := ups.foldl (fun H u => (H.update u.1 u.2).1) (Hess.fresh n M)

theorem vnorm_sq (v : Vec n) : vnorm v * vnorm v = v ⬝ᵥ v :=
  Real.mul_self_sqrt (Finset.sum_nonneg fun i _ => mul_self_nonneg (v i))

theorem vnorm_nonneg (v : Vec n) : 0 ≤ vnorm v := Real.sqrt_nonneg _

theorem vnorm_eq_zero (v : Vec n) : vnorm v = 0 ↔ v = 0 := by
  rw [← mul_self_eq_zero, vnorm_sq, dotProduct_self_eq_zero]

theorem roll_length {α : Type} (l : List α) : (roll l).length = l.length := by
  rcases List.eq_nil_or_concat l with rfl | ⟨t, a, rfl⟩
  · rfl
  · simp [roll]

theorem setFirst_roll {α : Type} (a : α) (l : List α) : setFirst a (roll l) = (a :: l).take l.length := by
  rcases List.eq_nil_or_concat l with rfl | ⟨t, b, rfl⟩
  · rfl
  · simp [roll, setFirst]

theorem updated_eq (M : ℕ) (ups : List (Vec n × Vec n)) (h : ∀ u ∈ ups, u.2 ≠ 0) :
    updated n M ups = ⟨scaleOf ups, (ups.reverse.map slotOf ++ List.replicate M zeroSlot).take M⟩ := by
  induction ups using List.reverseRecOn with
  | nil => simp [updated, Hess.fresh, scaleOf, zeroSlot]
  | append_singleton t u ih =>
    have ih := ih fun v hv => h v (by simp [hv])
    have hu : u.2 ≠ 0 := h u (by simp)
    simp only [updated, List.foldl_append, List.foldl_cons, List.foldl_nil] at ih ⊢
    rw [ih]
    simp only [Hess.update, vnorm_sq, dotProduct_self_eq_zero, if_neg hu]
    congr 1
    · simp [scaleOf]
    · rw [setFirst_roll]
      simp only [List.length_take, List.length_append, List.length_map, List.length_reverse, List.length_replicate, List.reverse_append,
        List.reverse_cons, List.reverse_nil, List.nil_append, List.map_append, List.map_cons, List.map_nil, List.cons_append]
      rw [show min M (t.length + M) = M by omega]
      cases M with
      | zero => rfl
      | succ M =>
        simp only [List.take_succ_cons, List.take_take, slotOf]
        rw [show min M (M + 1) = M by omega]

/-- C71: after any sequence of updates the step computed at iteration `it ≥ number of updates` is the product of the gradient with the BFGS
matrix of the most recent `M` pairs, scaled by the newest one. -/
theorem C71_history (M : ℕ) (ups : List (Vec n × Vec n)) (h : ∀ u ∈ ups, u.2 ≠ 0) (st : State n) (it : ℕ) (hit : it ≠ 0) (hle : ups.length ≤ it) :
    lbfgsStep M (updated n M ups) st it = some (bfgs (scaleOf ups) ((ups.reverse.take M).map slotOf) *ᵥ st.G) := by
  rw [updated_eq M ups h]
  simp only [lbfgsStep, if_neg hit, Option.map_some, C71_two_loop]
  congr 2
  rw [List.take_take, show min (min M it) M = min M it by omega]
  by_cases hc : min M it ≤ ups.length
  · rw [List.take_append_of_le_length (by simpa using hc), ← List.map_take]
    by_cases hM : M ≤ it
    · rw [show min M it = M by omega]
    · have : ups.length = it := by omega
      rw [show min M it = it by omega, List.take_of_length_le (by simp; omega), List.take_of_length_le (i := M) (by simp; omega)]
  · rw [List.take_append, List.take_of_length_le (by simp; omega), List.length_map, List.length_reverse, List.take_replicate, bfgs_zeros,
      List.take_of_length_le (by simp; omega)]

/-- At iteration zero the step is the normalised gradient. -/
theorem C71_first (M : ℕ) (st : State n) (hg : st.gnorm ≠ 0) (h1 : H = Hess.fresh n M) : lbfgsStep M H st 0 = some ((1 / st.gnorm) • st.G) := by
  subst h1
  simp [lbfgsStep, loop1, loop2, hg, Hess.fresh]

/-- C71: when the stored pairs have `y·s ≥ 0` (and the newest `y·s > 0`) the step makes an acute angle with the gradient. -/
theorem C71_descent (M : ℕ) (ups : List (Vec n × Vec n)) (h : ∀ u ∈ ups, u.2 ≠ 0) (hc : ∀ u ∈ ups, 0 ≤ u.2 ⬝ᵥ u.1) (st : State n) (it : ℕ)
    (hit : it ≠ 0) (hle : ups.length ≤ it) (hG : st.G ≠ 0) :
    ∃ z, lbfgsStep M (updated n M ups) st it = some z ∧ 0 < st.G ⬝ᵥ z := by
  refine ⟨_, C71_history M ups h st it hit hle, bfgs_pos _ ?_ _ ?_ _ hG⟩
  · have hpos : ∀ u ∈ ups, 0 < rhoOf u.1 u.2 := by
      intro u hu
      unfold rhoOf
      split
      · norm_num
      · have := hc u hu
        have : 0 < u.2 ⬝ᵥ u.1 := lt_of_le_of_ne this (Ne.symm ‹_›)
        positivity
    unfold scaleOf
    cases hl : ups.getLast? with
    | none => norm_num
    | some u =>
      have hu : u ∈ ups := List.mem_of_getLast? hl
      have h1 := hpos u hu
      have h2 : 0 < u.2 ⬝ᵥ u.2 :=
        lt_of_le_of_ne (Finset.sum_nonneg fun i _ => mul_self_nonneg (u.2 i)) (fun e => h u hu (dotProduct_self_eq_zero.1 e.symm))
      simp only; positivity
  · intro p hp
    obtain ⟨u, hu, rfl⟩ := List.mem_map.1 hp
    have hu' : u ∈ ups := List.mem_reverse.1 (List.mem_of_mem_take hu)
    simp only [slotOf, rhoOf]
    split
    · norm_num
    · have := hc u hu'; positivity

/-- two pairs of positive curvature in the plane -/
example : (∀ u ∈ [((![1, 0] : Vec 2), (![2, 1] : Vec 2)), (![1, 1], ![1, 3])], u.2 ≠ 0) ∧
    (∀ u ∈ [((![1, 0] : Vec 2), (![2, 1] : Vec 2)), (![1, 1], ![1, 3])], 0 ≤ u.2 ⬝ᵥ u.1) := by
  constructor
  · intro u hu
    simp only [List.mem_cons, List.not_mem_nil, or_false] at hu
    rcases hu with rfl | rfl <;> exact fun h => by simpa using congrFun h 0
  · intro u hu
    simp only [List.mem_cons, List.not_mem_nil, or_false] at hu
    rcases hu with rfl | rfl <;> norm_num [dotProduct, Fin.sum_univ_two]

/-! ### C70: the run -/

/-- What the line search promises about the objective `f` (Armijo condition with constant `c1`; scipy's `c1 = 1e-4`): a step is positive, the
value returned is `f` there, and it is below the line `F + c1 alpha G·p`.  Along a nan direction it never finds a step. -/
structure Contract (f : Vec n → ℝ) (c1 : ℝ) (O : Oracle n) : Prop where
  step : ∀ st p alpha F', st.F = f st.X → O.search st (some p) = .step alpha F' →
    0 < alpha ∧ F' = f (st.X + alpha • p) ∧ F' ≤ st.F + c1 * alpha * (st.G ⬝ᵥ p)
  nan : ∀ st alpha F', O.search st none ≠ .step alpha F'

/-- The state holds the objective and its gradient at its point. -/
def Consistent (f : Vec n → ℝ) (O : Oracle n) (st : State n) : Prop := st.F = f st.X ∧ O.fprime st.X = some st.G

/-- A step from `a` to `b` decreased the objective by at least `c1/100 |b - a| |gradient at a|`. -/
def Decrease (c1 : ℝ) (a b : State n) : Prop := b.F ≤ a.F - c1 / 100 * vnorm (b.X - a.X) * vnorm a.G

/-- `z` makes a sufficient angle with the gradient. -/
def Acute (z : Vec n) (st : State n) : Prop := 1 / 100 * (vnorm z * vnorm st.G) ≤ z ⬝ᵥ st.G

theorem vnorm_zero : vnorm (0 : Vec n) = 0 := (vnorm_eq_zero 0).2 rfl

theorem acute_of_not_bad (z : Vec n) (st : State n) (h : angleBad (some z) st = false) : Acute z st := by
  unfold angleBad at h
  unfold Acute
  by_cases hz : vnorm z = 0
  · rw [(vnorm_eq_zero z).1 hz]; simp [vnorm_zero]
  by_cases hg : st.gnorm = 0
  · rw [show vnorm st.G = 0 from hg, (vnorm_eq_zero _).1 hg]; simp
  simp only [hz, hg, or_self, if_false, decide_eq_false_iff_not, not_lt] at h
  have hz' : 0 < vnorm z := lt_of_le_of_ne (vnorm_nonneg z) (Ne.symm hz)
  have hg' : 0 < vnorm st.G := lt_of_le_of_ne (vnorm_nonneg _) (Ne.symm hg)
  rw [State.gnorm, div_div, le_div_iff₀ (by positivity)] at h
  exact h

theorem vnorm_smul (a : ℝ) (ha : 0 ≤ a) (v : Vec n) : vnorm (a • v) = a * vnorm v := by
  unfold vnorm
  rw [smul_dotProduct, dotProduct_smul, smul_eq_mul, smul_eq_mul, ← mul_assoc, Real.sqrt_mul (mul_self_nonneg a), Real.sqrt_mul_self ha]

theorem vnorm_neg (v : Vec n) : vnorm (-v) = vnorm v := by unfold vnorm; rw [neg_dotProduct_neg]

theorem acute_steepest (st : State n) (g : Vec n) (h : steepest st = some g) : Acute g st := by
  unfold steepest at h
  split at h
  · cases h
  · rename_i hg
    cases h
    have hg' : 0 < vnorm st.G := lt_of_le_of_ne (vnorm_nonneg _) (Ne.symm hg)
    unfold Acute
    rw [vnorm_smul _ (by unfold State.gnorm; positivity), smul_dotProduct, smul_eq_mul, ← vnorm_sq, State.gnorm]
    have : 1 / vnorm st.G * (vnorm st.G * vnorm st.G) = vnorm st.G := by field_simp
    rw [this, one_div_mul_cancel hg'.ne']
    linarith

theorem decrease_of_step {f : Vec n → ℝ} {c1 : ℝ} (hc : 0 ≤ c1) {O : Oracle n} (C : Contract f c1 O) (st : State n) (hst : st.F = f st.X) (z : Vec n)
    (hz : Acute z st) (alpha F' : ℝ) (h : O.search st (some (-z)) = .step alpha F') (g : Vec n) :
    F' = f (newX st alpha z) ∧ Decrease c1 st ⟨newX st alpha z, F', g⟩ := by
  obtain ⟨ha, hF, hle⟩ := C.step st (-z) alpha F' hst h
  refine ⟨hF, ?_⟩
  simp only [Decrease, newX, add_sub_cancel_left]
  rw [vnorm_smul _ ha.le, vnorm_neg]
  rw [dotProduct_neg, dotProduct_comm] at hle
  unfold Acute at hz
  have : c1 * alpha * (1 / 100 * (vnorm z * vnorm st.G)) ≤ c1 * alpha * (z ⬝ᵥ st.G) := mul_le_mul_of_nonneg_left hz (by positivity)
  nlinarith

/-- What one pass may do. -/
def PassOk (f : Vec n → ℝ) (c1 : ℝ) (O : Oracle n) (d : Opt n) : Pass n → Prop
  | .again d' => Consistent f O d'.curr ∧ Decrease c1 d.curr d'.curr ∧ d'.prev = d.curr ∧ d'.it = d.it + 1 ∧ d'.M = d.M ∧
      d'.curr.G ≠ d.curr.G ∧ d'.status = d.status ∧
      (d'.H = updated n d.M [(d'.curr.X - d.curr.X, d'.curr.G - d.curr.G)] ∨ d'.H = (d.H.update (d'.curr.X - d.curr.X) (d'.curr.G - d.curr.G)).1)
  | .stop d' => Consistent f O d'.curr ∧ d'.M = d.M ∧ d'.it = d.it ∧
      ((d'.status = -4 ∧ d'.curr = d.curr ∧ d'.prev = d.prev ∧
          (d.curr.G = 0 ∨ ∀ alpha F', O.search d.curr (some (-((1 / vnorm d.curr.G) • d.curr.G))) ≠ .step alpha F')) ∨
        (d'.status = -5 ∧ Decrease c1 d.curr d'.curr ∧ d'.prev = d.curr ∧ d'.curr.G = d.curr.G))
  | .raised d' => d'.curr = d.curr ∧ d'.M = d.M ∧ d'.it = d.it ∧ d'.status = d.status

theorem accept_ok {f : Vec n → ℝ} {c1 : ℝ} {O : Oracle n} (d d0 : Opt n) (hd : d0.curr = d.curr) (hM : d0.M = d.M) (hit : d0.it = d.it) (hs : d0.status = d.status)
    (hH : d0.H = d.H ∨ d0.H = Hess.fresh n d.M) (x : Vec n) (F' : ℝ) (hF : F' = f x) (hdec : ∀ g, Decrease c1 d.curr ⟨x, F', g⟩) :
    PassOk f c1 O d (accept O d0 x F') := by
  unfold accept
  cases hg : O.fprime x with
  | none => exact ⟨hd, hM, hit, hs⟩
  | some g =>
    simp only
    by_cases hy : (d0.H.update (x - d0.curr.X) (g - d0.curr.G)).2
    · rw [if_pos hy]
      refine ⟨⟨hF, hg⟩, hM, hit, Or.inr ⟨rfl, hdec g, hd, ?_⟩⟩
      simp only [Hess.update] at hy
      split at hy
      · rename_i h0
        rw [vnorm_sq, dotProduct_self_eq_zero, sub_eq_zero, hd] at h0
        exact h0
      · cases hy
    · rw [if_neg hy]
      refine ⟨⟨hF, hg⟩, hdec g, hd, congrArg (· + 1) hit, hM, ?_, hs, ?_⟩
      · intro e
        apply hy
        simp only at e
        simp [Hess.update, vnorm_sq, dotProduct_self_eq_zero, e, hd]
      · rcases hH with h | h
        · right; simp only [h, hd]
        · left; simp only [h, hd, updated, List.foldl_cons, List.foldl_nil]

theorem searchFrom_ok {f : Vec n → ℝ} {c1 : ℝ} (hc : 0 ≤ c1) {O : Oracle n} (C : Contract f c1 O) (d d0 : Opt n) (hd : Consistent f O d.curr)
    (h0 : d0 = d ∨ d0 = { d with H := Hess.fresh n d.M }) (z : Option (Vec n)) (steep : Bool) (hz : ∀ v, z = some v → Acute v d.curr)
    (hs : steep = true → z = steepest d.curr) : PassOk f c1 O d (searchFrom O d0 z steep) := by
  have hcurr : d0.curr = d.curr := by rcases h0 with rfl | rfl <;> rfl
  have hM : d0.M = d.M := by rcases h0 with rfl | rfl <;> rfl
  have hit : d0.it = d.it := by rcases h0 with rfl | rfl <;> rfl
  have hst : d0.status = d.status := by rcases h0 with rfl | rfl <;> rfl
  have hpv : d0.prev = d.prev := by rcases h0 with rfl | rfl <;> rfl
  have hHH : d0.H = d.H ∨ d0.H = Hess.fresh n d.M := by rcases h0 with rfl | rfl <;> simp
  unfold searchFrom
  rw [hcurr]
  have hstop : (d.curr.G = 0 ∨ ∀ alpha F', O.search d.curr (some (-((1 / vnorm d.curr.G) • d.curr.G))) ≠ .step alpha F') →
      PassOk f c1 O d (.stop { d0 with status := -4, curr := d.curr }) := fun h =>
    ⟨hd, hM, hit, Or.inl ⟨rfl, rfl, hpv, h⟩⟩
  generalize hres : O.search d.curr (z.map (- ·)) = res
  cases res with
  | raised => exact ⟨hcurr, hM, hit, hst⟩
  | step alpha F' =>
    cases z with
    | none => exact absurd hres (C.nan _ _ _)
    | some z =>
      exact accept_ok d d0 hcurr hM hit hst hHH _ _ (decrease_of_step hc C d.curr hd.1 z (hz z rfl) alpha F' hres 0).1
        fun g => (decrease_of_step hc C d.curr hd.1 z (hz z rfl) alpha F' hres g).2
  | fail =>
    simp only
    cases steep with
    | true =>
      rw [if_pos rfl]
      apply hstop
      have hz' := hs rfl
      by_cases hg : d.curr.gnorm = 0
      · left; exact (vnorm_eq_zero _).1 hg
      · right
        intro alpha F' e
        rw [hz', steepest, if_neg hg, Option.map_some] at hres
        rw [State.gnorm] at hres
        rw [hres] at e; cases e
    | false =>
      rw [if_neg (by simp)]
      cases hg : steepest d.curr with
      | none =>
        apply hstop; left
        unfold steepest at hg
        split at hg
        · rename_i h; exact (vnorm_eq_zero _).1 h
        · cases hg
      | some g =>
        have hg0 : g = (1 / vnorm d.curr.G) • d.curr.G := by
          unfold steepest at hg
          split at hg
          · cases hg
          · cases hg; rfl
        simp only
        generalize hres2 : O.search d.curr (some (-g)) = res2
        cases res2 with
        | raised => apply hstop; right; rw [← hg0, hres2]; intro _ _ e; cases e
        | fail => apply hstop; right; rw [← hg0, hres2]; intro _ _ e; cases e
        | step alpha F' =>
          exact accept_ok d { d0 with H := Hess.fresh n d0.M, curr := d.curr } rfl hM hit hst (Or.inr (by simp [hM])) _ _
            (decrease_of_step hc C d.curr hd.1 g (acute_steepest _ _ hg) alpha F' hres2 0).1
            fun g' => (decrease_of_step hc C d.curr hd.1 g (acute_steepest _ _ hg) alpha F' hres2 g').2

theorem pass_ok {f : Vec n → ℝ} {c1 : ℝ} (hc : 0 ≤ c1) {O : Oracle n} (C : Contract f c1 O) (o : Options) (d : Opt n) (hd : Consistent f O d.curr) :
    (statusOf o d ≠ 0 ∧ pass O o d = .stop { d with status := statusOf o d }) ∨
    (statusOf o d = 0 ∧ PassOk f c1 O { d with status := 0 } (pass O o d)) := by
  by_cases h : statusOf o d = 0
  · right
    refine ⟨h, ?_⟩
    unfold pass
    simp only [h, ne_eq, not_true_eq_false, if_false]
    split
    · exact searchFrom_ok hc C { d with status := 0 } _ hd (Or.inr rfl) _ _ (fun v hv => acute_steepest _ _ hv) fun _ => rfl
    · rename_i hb
      refine searchFrom_ok hc C { d with status := 0 } _ hd (Or.inl rfl) _ _ (fun v hv => ?_) fun e => by cases e
      rw [hv] at hb
      exact acute_of_not_bad _ _ (by simpa using hb)
  · left
    exact ⟨h, by simp only [pass, ne_eq, h, not_false_eq_true, if_true]⟩

/-- C70: along any run from a consistent state, every state recorded (and the last one) holds `f` and its gradient at its point, and every step
decreases the objective at least by `c1/100 * |step| * |gradient|` — so the recorded values never increase. -/
theorem C70_decrease {f : Vec n → ℝ} {c1 : ℝ} (hc : 0 ≤ c1) {O : Oracle n} (C : Contract f c1 O) (o : Options) (fuel : ℕ) (d : Opt n)
    (hd : Consistent f O d.curr) :
    (d :: (minimize O o fuel d).1).IsChain (fun a b => Consistent f O b.curr ∧ Decrease c1 a.curr b.curr ∧ b.prev = a.curr) ∧
    (∀ e b, (minimize O o fuel d).2 = some (e, b) →
      Consistent f O e.curr ∧ e.curr.F ≤ ((d :: (minimize O o fuel d).1).getLast (by simp)).curr.F) := by
  induction fuel generalizing d with
  | zero => simp [minimize]
  | succ fuel ih =>
    rw [minimize]
    have hp := pass_ok hc C o d hd
    generalize pass O o d = p at hp
    cases p with
    | again d' =>
      rcases hp with ⟨_, h⟩ | ⟨_, h⟩
      · cases h
      · obtain ⟨h1, h2, h3, -⟩ := h
        obtain ⟨i1, i2⟩ := ih d' h1
        refine ⟨List.IsChain.cons_cons ⟨h1, h2, h3⟩ i1, fun e b he => ?_⟩
        have := i2 e b he
        simpa using this
    | stop d' =>
      refine ⟨List.isChain_singleton _, fun e b he => ?_⟩
      cases he
      rcases hp with ⟨_, h⟩ | ⟨_, h⟩
      · cases h
        exact ⟨hd, le_rfl⟩
      · obtain ⟨h1, -, -, h2⟩ := h
        refine ⟨h1, ?_⟩
        rcases h2 with ⟨-, h2, -⟩ | ⟨-, h2, -⟩
        · rw [h2]; exact le_rfl
        · refine le_trans h2 ?_
          have : 0 ≤ c1 / 100 * vnorm (d'.curr.X - d.curr.X) * vnorm d.curr.G :=
            mul_nonneg (mul_nonneg (by positivity) (vnorm_nonneg _)) (vnorm_nonneg _)
          simp only [List.getLast_singleton]
          linarith
    | raised d' =>
      refine ⟨List.isChain_singleton _, fun e b he => ?_⟩
      cases he
      rcases hp with ⟨_, h⟩ | ⟨_, h⟩
      · cases h
      · obtain ⟨h1, -⟩ := h
        rw [h1]; exact ⟨hd, le_rfl⟩

/-- C70: the values of the objective after the iterations of a run never increase. -/
theorem C70_monotone {f : Vec n → ℝ} {c1 : ℝ} (hc : 0 ≤ c1) {O : Oracle n} (C : Contract f c1 O) (o : Options) (fuel : ℕ) (d : Opt n)
    (hd : Consistent f O d.curr) : ((d :: (minimize O o fuel d).1).map fun e => f e.curr.X).IsChain (· ≥ ·) := by
  have h := (C70_decrease hc C o fuel d hd).1
  have hall : ∀ e ∈ d :: (minimize O o fuel d).1, e.curr.F = f e.curr.X := by
    have aux : ∀ (l : List (Opt n)) (a : Opt n), a.curr.F = f a.curr.X →
        (a :: l).IsChain (fun a b => Consistent f O b.curr ∧ Decrease c1 a.curr b.curr ∧ b.prev = a.curr) → ∀ e ∈ a :: l, e.curr.F = f e.curr.X := by
      intro l
      induction l with
      | nil => intro a ha _ e he; simpa [List.mem_singleton.1 he] using ha
      | cons b t ih =>
        intro a ha hch e he
        rcases List.mem_cons.1 he with rfl | he
        · exact ha
        · exact ih b (List.isChain_cons_cons.1 hch).1.1.1 (List.isChain_cons_cons.1 hch).2 e he
    exact aux _ _ hd.1 h
  rw [List.map_congr_left (g := fun e => e.curr.F) fun e he => (hall e he).symm, List.isChain_map]
  refine h.imp fun a b hab => ?_
  have : 0 ≤ c1 / 100 * vnorm (b.curr.X - a.curr.X) * vnorm a.curr.G :=
    mul_nonneg (mul_nonneg (by positivity) (vnorm_nonneg _)) (vnorm_nonneg _)
  have h2 := hab.2.1
  simp only [Decrease] at h2
  show b.curr.F ≤ a.curr.F
  linarith

/-- C70: a run ends, after at most `max_iter` iterations in total (one, if `max_iter` is 0 and nothing was done before). -/
theorem C70_terminates {f : Vec n → ℝ} {c1 : ℝ} (hc : 0 ≤ c1) {O : Oracle n} (C : Contract f c1 O) (o : Options) (d : Opt n)
    (hd : Consistent f O d.curr) (fuel : ℕ) (hf : max o.maxIter 1 - d.it < fuel) :
    ((minimize O o fuel d).1.length ≤ max o.maxIter 1 - d.it) ∧
    ∃ e b, (minimize O o fuel d).2 = some (e, b) ∧ e.it = d.it + (minimize O o fuel d).1.length := by
  induction fuel generalizing d with
  | zero => omega
  | succ fuel ih =>
    rw [minimize]
    have hp := pass_ok hc C o d hd
    generalize pass O o d = p at hp
    cases p with
    | again d' =>
      rcases hp with ⟨_, h⟩ | ⟨h0, h⟩
      · cases h
      · obtain ⟨h1, -, -, h4, -⟩ := h
        simp only at h4
        have hlt : d.it < max o.maxIter 1 := by
          by_contra hcon
          unfold statusOf at h0
          rw [if_neg (by omega), if_pos (by omega)] at h0
          cases h0
        obtain ⟨i1, e, b, i2, i3⟩ := ih d' h1 (by omega)
        refine ⟨?_, e, b, i2, ?_⟩
        · simp only [List.length_cons]; omega
        · simp only [List.length_cons]; omega
    | stop d' =>
      refine ⟨by simp, d', false, rfl, ?_⟩
      rcases hp with ⟨_, h⟩ | ⟨_, h⟩
      · cases h; rfl
      · exact h.2.2.1
    | raised d' =>
      refine ⟨by simp, d', true, rfl, ?_⟩
      rcases hp with ⟨_, h⟩ | ⟨_, h⟩
      · cases h
      · exact h.2.2.1

/-- The documented meaning of the status (`convergence_status`, `default_options`). -/
def StatusMeans (O : Oracle n) (o : Options) (d : Opt n) : Prop :=
  (d.status = -1 ∧ o.maxIter ≤ d.it) ∨
  (d.status = 2 ∧ ∃ factr, o.factr = some factr ∧ |d.curr.F - d.prev.F| ≤ factr * o.eps * max (max |d.curr.F| |d.prev.F|) 1) ∨
  (d.status = 3 ∧ ∃ gtol, o.gtol = some gtol ∧ ∀ i, |d.curr.G i| ≤ gtol) ∨
  (d.status = -4 ∧ (d.curr.G = 0 ∨ ∀ alpha F', O.search d.curr (some (-((1 / vnorm d.curr.G) • d.curr.G))) ≠ .step alpha F')) ∨
  (d.status = -5 ∧ d.curr.G = d.prev.G)

/-- C70: the status of a run that ended without an exception is one of the documented reasons, and the reason is true. -/
theorem C70_status {f : Vec n → ℝ} {c1 : ℝ} (hc : 0 ≤ c1) {O : Oracle n} (C : Contract f c1 O) (o : Options) (fuel : ℕ) (d : Opt n)
    (hd : Consistent f O d.curr) (e : Opt n) (h : (minimize O o fuel d).2 = some (e, false)) : StatusMeans O o e := by
  induction fuel generalizing d with
  | zero => cases h
  | succ fuel ih =>
    rw [minimize] at h
    have hp := pass_ok hc C o d hd
    generalize pass O o d = p at hp h
    cases p with
    | again d' =>
      rcases hp with ⟨_, hp⟩ | ⟨h0, hp⟩
      · cases hp
      · exact ih d' hp.1 h
    | raised d' => cases h
    | stop d' =>
      cases h
      rcases hp with ⟨h0, hp⟩ | ⟨_, hp⟩
      · cases hp
        unfold statusOf at h0
        simp only [StatusMeans, statusOf]
        split at h0
        · exact absurd rfl h0
        rename_i hit
        rw [if_neg hit]
        split at h0
        · rename_i hm
          rw [if_pos hm]; left; exact ⟨rfl, hm⟩
        rename_i hm
        rw [if_neg hm]
        split at h0
        · exact absurd rfl h0
        rename_i ht
        rw [if_neg ht]
        split at h0
        · rename_i hf
          rw [if_pos hf]; right; left
          obtain ⟨factr, e1, e2⟩ := hf
          refine ⟨rfl, factr, e1, ?_⟩
          have hpos : 0 < max (max d.curr.F d.prev.F) 1 := lt_max_of_lt_right one_pos
          rw [div_le_iff₀ hpos] at e2
          refine e2.trans ?_
          have hnn : 0 ≤ factr * o.eps * max (max d.curr.F d.prev.F) 1 := (abs_nonneg _).trans e2
          have hfe : 0 ≤ factr * o.eps := nonneg_of_mul_nonneg_left hnn hpos
          exact mul_le_mul_of_nonneg_left (max_le_max (max_le_max (le_abs_self _) (le_abs_self _)) le_rfl) hfe
        rename_i hf
        rw [if_neg hf]
        split at h0
        · rename_i hgt
          rw [if_pos hgt]; right; right; left
          exact ⟨rfl, hgt⟩
        · exact absurd rfl h0
      · obtain ⟨-, -, -, h2⟩ := hp
        rcases h2 with ⟨h3, h4, -, h5⟩ | ⟨h3, -, h4, h5⟩
        · right; right; right; left
          rw [h4]
          exact ⟨h3, h5⟩
        · right; right; right; right
          rw [h4]
          exact ⟨h3, h5⟩

/-! ### C71 along a run -/

/-- The pairs (difference of points, difference of gradients) of consecutive states. -/
def pairs : List (State n) → List (Vec n × Vec n)
  | a :: b :: t => (b.X - a.X, b.G - a.G) :: pairs (b :: t)
  | _ => []

theorem pairs_snoc (l : List (State n)) (a b : State n) : pairs (l ++ [a, b]) = pairs (l ++ [a]) ++ [(b.X - a.X, b.G - a.G)] := by
  induction l with
  | nil => rfl
  | cons c t ih =>
    cases t with
    | nil => rfl
    | cons e t => simpa [pairs] using ih

theorem pairs_length (l : List (State n)) : (pairs l).length = l.length - 1 := by
  induction l with
  | nil => rfl
  | cons a t ih =>
    cases t with
    | nil => rfl
    | cons b t => simp only [pairs, List.length_cons] at *; omega

/-- The memory of `d` holds the pairs of the last states of the path `path ++ [d.curr]` (since the last reset). -/
def Memory (path : List (State n)) (d : Opt n) : Prop :=
  ∃ l1 l2, path = l1 ++ l2 ∧ d.H = updated n d.M (pairs (l2 ++ [d.curr])) ∧ (∀ u ∈ pairs (l2 ++ [d.curr]), u.2 ≠ 0) ∧ l2.length ≤ d.it

theorem memory_step {f : Vec n → ℝ} {c1 : ℝ} {O : Oracle n} (path : List (State n)) (d d' : Opt n) (h : Memory path d)
    (hp : PassOk f c1 O d (.again d')) : Memory (path ++ [d.curr]) d' := by
  obtain ⟨l1, l2, e1, e2, e3, e4⟩ := h
  obtain ⟨-, -, -, h4, h5, h6, -, h7⟩ := hp
  have hne : d'.curr.G - d.curr.G ≠ 0 := sub_ne_zero.2 h6
  rcases h7 with h7 | h7
  · refine ⟨path, [d.curr], rfl, ?_, ?_, by simp; omega⟩
    · rw [h7, h5]; rfl
    · intro u hu
      simp only [pairs, List.cons_append, List.nil_append, List.mem_singleton] at hu
      rw [hu]; exact hne
  · refine ⟨l1, l2 ++ [d.curr], by rw [e1]; simp, ?_, ?_, by simp; omega⟩
    · rw [h7, h5, e2, List.append_assoc, List.singleton_append, pairs_snoc]
      simp [updated]
    · intro u hu
      rw [List.append_assoc, List.singleton_append, pairs_snoc] at hu
      rcases List.mem_append.1 hu with hu | hu
      · exact e3 u hu
      · rw [List.mem_singleton.1 hu]; exact hne

theorem memory_run {f : Vec n → ℝ} {c1 : ℝ} (hc : 0 ≤ c1) {O : Oracle n} (C : Contract f c1 O) (o : Options) (fuel : ℕ) (d : Opt n)
    (hd : Consistent f O d.curr) (path : List (State n)) (h : Memory path d) (l1 l2 : List (Opt n)) (e : Opt n)
    (he : d :: (minimize O o fuel d).1 = l1 ++ e :: l2) : Memory (path ++ l1.map (·.curr)) e ∧ e.M = d.M ∧ e.it = d.it + l1.length := by
  induction fuel generalizing d path l1 with
  | zero =>
    cases l1 with
    | nil => cases he; exact ⟨by simpa using h, rfl, rfl⟩
    | cons a t => simp [minimize] at he
  | succ fuel ih =>
    cases l1 with
    | nil => cases he; exact ⟨by simpa using h, rfl, rfl⟩
    | cons a t =>
      rw [minimize] at he
      have hp := pass_ok hc C o d hd
      generalize pass O o d = p at hp he
      cases p with
      | stop d' => simp at he
      | raised d' => simp at he
      | again d' =>
        rcases hp with ⟨_, hp⟩ | ⟨_, hp⟩
        · cases hp
        · simp only [List.cons_append, List.cons.injEq] at he
          obtain ⟨rfl, he⟩ := he
          have hm := memory_step path { d with status := 0 } d' h hp
          obtain ⟨i1, i2, i3⟩ := ih d' hp.1 _ hm t he
          refine ⟨by simpa using i1, by rw [i2]; exact hp.2.2.2.2.1, ?_⟩
          have := hp.2.2.2.1
          simp only at this
          simp only [List.length_cons]; omega

/-- C71: at every state of a run the step the minimiser computes next is the product of the gradient with the BFGS matrix of the most recent
pairs (at most `M`) of consecutive states of this run, back to the last reset. -/
theorem C71_run {f : Vec n → ℝ} {c1 : ℝ} (hc : 0 ≤ c1) {O : Oracle n} (C : Contract f c1 O) (o : Options) (fuel M it : ℕ) (st : State n)
    (hd : Consistent f O st) (l1 l2 : List (Opt n)) (e : Opt n) (he : Opt.init M it st :: (minimize O o fuel (Opt.init M it st)).1 = l1 ++ e :: l2)
    (hit : e.it ≠ 0) :
    ∃ before since, l1.map (·.curr) = before ++ since ∧
      lbfgsStep e.M e.H e.curr e.it =
        some (bfgs (scaleOf (pairs (since ++ [e.curr]))) (((pairs (since ++ [e.curr])).reverse.take M).map slotOf) *ᵥ e.curr.G) := by
  obtain ⟨⟨b, s, e1, e2, e3, e4⟩, e5, e6⟩ := memory_run hc C o fuel (Opt.init M it st) hd [] ⟨[], [], rfl, rfl, by simp [pairs], Nat.zero_le _⟩ l1 l2 e he
  refine ⟨b, s, by simpa using e1, ?_⟩
  rw [e2, e5]
  exact C71_history M _ e3 e.curr e.it hit (by rw [pairs_length]; simpa using e4)

/-! ### Cases -/

/-- A line search meeting the contract: try the full step (the first thing `line_search_armijo` does). -/
def fullStep (f : Vec n → ℝ) (fp : Vec n → Vec n) : Oracle n where
  search st p :=
    match p with
    | none => .fail
    | some p => if f (st.X + p) ≤ st.F + 1 / 10000 * (st.G ⬝ᵥ p) then .step 1 (f (st.X + p)) else .fail
  fprime x := some (fp x)

theorem fullStep_contract (f : Vec n → ℝ) (fp : Vec n → Vec n) : Contract f (1 / 10000) (fullStep f fp) where
  step st p alpha F' _ h := by
    simp only [fullStep] at h
    split at h
    · rename_i hle
      cases h
      exact ⟨one_pos, by simp, by simpa using hle⟩
    · cases h
  nan st alpha F' h := by simp [fullStep] at h

/-- a consistent start for the objective `x²` -/
example : Consistent (fun x : Vec 1 => x 0 ^ 2) (fullStep (fun x => x 0 ^ 2) fun x => ![2 * x 0]) ⟨![3], 9, ![6]⟩ := by
  constructor
  · norm_num
  · simp only [fullStep, Matrix.cons_val_zero]; norm_num

/-- C70, boundary: with `max_iter = 0` one iteration is still performed (the test is skipped at iteration 0). -/
theorem C70_max_iter_zero_counterexample : ∃ (O : Oracle 1) (o : Options) (st : State 1) (f : Vec 1 → ℝ), Contract f (1 / 10000) O ∧ Consistent f O st ∧
    o.maxIter = 0 ∧ (minimize O o 5 (Opt.init 1 0 st)).1.length = 1 := by
  refine ⟨fullStep (fun x => x 0 ^ 2) fun x => ![2 * x 0], ⟨none, none, 0, true, 1⟩, ⟨![3], 9, ![6]⟩, fun x => x 0 ^ 2, fullStep_contract _ _, ?_, rfl, ?_⟩
  · constructor
    · norm_num
    · simp only [fullStep, Matrix.cons_val_zero]; norm_num
  · have hn : vnorm (![6] : Vec 1) = 6 := by
      unfold vnorm
      rw [show (![6] : Vec 1) ⬝ᵥ ![6] = 6 * 6 by simp [dotProduct], Real.sqrt_mul_self (by norm_num)]
    have hz : lbfgsStep 1 (Hess.fresh 1 1) (⟨![3], 9, ![6]⟩ : State 1) 0 = some ![1] := by
      rw [C71_first 1 _ (by rw [State.gnorm, hn]; norm_num) rfl, State.gnorm, hn]
      congr 1; funext i; fin_cases i; simp
    have hn1 : vnorm (![1] : Vec 1) = 1 := by
      unfold vnorm
      rw [show (![1] : Vec 1) ⬝ᵥ ![1] = 1 by simp [dotProduct], Real.sqrt_one]
    have hb : angleBad (some (![1] : Vec 1)) (⟨![3], 9, ![6]⟩ : State 1) = false := by
      simp only [angleBad, State.gnorm, hn, hn1]
      norm_num [dotProduct]
    obtain ⟨d', hd'⟩ : ∃ d' : Opt 1, pass (fullStep (fun x => x 0 ^ 2) fun x => ![2 * x 0]) ⟨none, none, 0, true, 1⟩ (Opt.init 1 0 ⟨![3], 9, ![6]⟩) = .again d' ∧ d'.it = 1 := by
      simp only [pass, Opt.init, statusOf, if_true, ne_eq, not_true_eq_false, if_false, hz, hb, Bool.false_eq_true, searchFrom]
      simp only [fullStep, Option.map_some]
      rw [if_pos (by norm_num [dotProduct])]
      simp only [accept]
      rw [if_neg]
      · exact ⟨_, rfl, rfl⟩
      · simp only [Hess.update, vnorm_sq, dotProduct_self_eq_zero]
        rw [if_neg]
        · simp
        · intro h
          have := congrFun h 0
          norm_num [newX] at this
    have h2 : pass (fullStep (fun x => x 0 ^ 2) fun x => ![2 * x 0]) ⟨none, none, 0, true, 1⟩ d' = .stop { d' with status := -1 } := by
      have : statusOf (n := 1) ⟨none, none, 0, true, 1⟩ d' = -1 := by
        unfold statusOf
        rw [if_neg (by omega), if_pos (by simp)]
      simp [pass, this]
    simp [minimize, hd'.1, h2]

/-- C70: started exactly at a stationary point the minimiser reports a failed line search (status -4), not convergence: whatever the
objective, options and start, if the gradient is 0 at iteration 0. -/
theorem C70_stationary_counterexample (f : Vec n → ℝ) (fp : Vec n → Vec n) (o : Options) (M fuel : ℕ) (st : State n) (hg : st.G = 0) :
    ∃ e, (minimize (fullStep f fp) o (fuel + 1) (Opt.init M 0 st)) = ([], some (e, false)) ∧ e.status = -4 ∧ e.curr = st := by
  have h0 : st.gnorm = 0 := by rw [State.gnorm, hg, vnorm_zero]
  have hp : pass (fullStep f fp) o (Opt.init M 0 st) = .stop { Opt.init M 0 st with status := -4 } := by
    simp [pass, Opt.init, statusOf, lbfgsStep, h0, angleBad, searchFrom, fullStep, steepest]
  refine ⟨{ Opt.init M 0 st with status := -4 }, ?_, rfl, rfl⟩
  simp only [minimize, hp]

/-- C70, documentation: the documented tolerance on the objective is relative to `max(|f|, |f'|, 1)`; for negative objectives the code compares
the absolute change, so a run does not stop although the documented condition holds (here with `factr * eps = 1/1000`). -/
theorem C70_ftol_counterexample : ∃ (o : Options) (d : Opt 1), o.factr = some 1 ∧ d.it ≠ 0 ∧ d.it < o.maxIter ∧ o.test = true ∧
    |d.curr.F - d.prev.F| ≤ 1 * o.eps * max (max |d.curr.F| |d.prev.F|) 1 ∧ statusOf o d = 0 := by
  refine ⟨⟨some 1, none, 500, true, 1 / 1000⟩, ⟨1, 1, 0, Hess.fresh 1 1, ⟨0, -1001, 0⟩, ⟨0, -1000, 0⟩⟩, rfl, by simp, by simp, rfl, ?_, ?_⟩
  · norm_num
  · unfold statusOf
    rw [if_neg (by simp), if_neg (by simp), if_neg (by simp), if_neg, if_neg (by simp)]
    rintro ⟨factr, h1, h2⟩
    cases h1
    norm_num at h2

end

end Verif.Lbfgs
