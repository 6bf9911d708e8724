/-
C108: the splines of the C++ library.

A table is `N` points with increasing abscissae.  `evaluate s x = some y` says that evaluating the spline at `x` ends, trips no assertion, and gives `y`.
-/
import Verif.Lemmas.Spline
import Verif.Props.CosmoTransfer
import Mathlib.Analysis.Calculus.Deriv.Add
import Mathlib.Analysis.Calculus.Deriv.Pow
import Mathlib.Analysis.Convex.Deriv

namespace Verif.Spline

open Set

/-! ### the interval does not matter at the points of the table -/

/-- if the pieces `p` agree where they meet, what the search gives is the piece of any interval that contains `x` -/
theorem lookup_piece {N : ℕ} {X : ℕ → ℝ} (hN : 2 ≤ N) (hX : ∀ i, i + 1 < N → X i < X (i+1)) {p : ℕ → ℝ → ℝ} (hp : ∀ i, i + 2 < N → p i (X (i+1)) = p (i+1) (X (i+1)))
    {j : ℕ} (hj : j + 1 < N) {x : ℝ} (h0 : X j ≤ x) (h1 : x ≤ X (j+1)) : (lookup N X x).map (fun i => p i x) = some (p j x) := by
  obtain ⟨i, e, hi, g0, g1⟩ := lookup_correct hN hX ((mono_le hX (Nat.zero_le j) (by omega)).trans h0) (h1.trans (mono_le hX (show j + 1 ≤ N - 1 by omega) (by omega)))
  rw [e, Option.map_some]
  congr 1
  rcases lt_trichotomy i j with h | h | h
  · have hle : i + 1 = j := by
      by_contra hc
      have := mono_lt hX (show i + 1 < j by omega) (by omega)
      linarith
    subst hle
    have : x = X (i+1) := le_antisymm g1 h0
    rw [this]
    exact hp i hj
  · rw [h]
  · have hle : j + 1 = i := by
      by_contra hc
      have := mono_lt hX (show j + 1 < i by omega) (by omega)
      linarith
    subst hle
    have : x = X (j+1) := le_antisymm h1 g0
    rw [this]
    exact (hp j hi).symm

theorem evaluate_piece {s : Impl} (hN : 2 ≤ s.N) (hX : ∀ i, i + 1 < s.N → s.X i < s.X (i+1)) (hp : ∀ i, i + 2 < s.N → s.piece i (s.X (i+1)) = s.piece (i+1) (s.X (i+1)))
    {j : ℕ} (hj : j + 1 < s.N) {x : ℝ} (h0 : s.X j ≤ x) (h1 : x ≤ s.X (j+1)) (hx : s.xmin ≤ x) (hx' : x ≤ s.xmax) : evaluate s x = some (s.piece j x) := by
  unfold evaluate
  rw [if_neg (by push Not; exact ⟨hx, hx'⟩)]
  exact lookup_piece hN hX hp hj h0 h1

theorem derivative_piece {s : Impl} (hN : 2 ≤ s.N) (hX : ∀ i, i + 1 < s.N → s.X i < s.X (i+1)) (hp : ∀ i, i + 2 < s.N → s.slope i (s.X (i+1)) = s.slope (i+1) (s.X (i+1)))
    {j : ℕ} (hj : j + 1 < s.N) {x : ℝ} (h0 : s.X j ≤ x) (h1 : x ≤ s.X (j+1)) (hx : s.xmin ≤ x) (hx' : x ≤ s.xmax) : derivative s x = some (s.slope j x) := by
  unfold derivative
  rw [if_neg (by push Not; exact ⟨hx, hx'⟩)]
  exact lookup_piece hN hX hp hj h0 h1

/-- every point of the domain is in an interval -/
theorem interval {N : ℕ} {X : ℕ → ℝ} (hN : 2 ≤ N) (hX : ∀ i, i + 1 < N → X i < X (i+1)) {x : ℝ} (h0 : X 0 ≤ x) (h1 : x ≤ X (N-1)) : ∃ i, i + 1 < N ∧ X i ≤ x ∧ x ≤ X (i+1) := by
  obtain ⟨i, _, h⟩ := lookup_correct hN hX h0 h1
  exact ⟨i, h⟩

/-- pieces that are differentiable and agree, with their derivatives, where they meet make a differentiable function -/
theorem glue {N : ℕ} {X : ℕ → ℝ} (hN : 2 ≤ N) (hX : ∀ i, i + 1 < N → X i < X (i+1)) {F G : ℝ → ℝ} {p q : ℕ → ℝ → ℝ}
    (hF : ∀ i, i + 1 < N → ∀ x ∈ Icc (X i) (X (i+1)), F x = p i x ∧ G x = q i x) (hd : ∀ i x, HasDerivAt (p i) (q i x) x) (x : ℝ) : HasDerivWithinAt F (G x) (Icc (X 0) (X (N-1))) x := by
  have one : ∀ i, i + 1 < N → HasDerivWithinAt F (G x) (Icc (X i) (X (i+1))) x := by
    intro i hi
    by_cases hx : x ∈ Icc (X i) (X (i+1))
    · rw [(hF i hi x hx).2]
      exact (hd i x).hasDerivWithinAt.congr (fun y hy => (hF i hi y hy).1) (hF i hi x hx).1
    · exact HasFDerivWithinAt.of_notMem_closure (by rwa [isClosed_Icc.closure_eq])
  have all : ∀ n, n + 1 < N → HasDerivWithinAt F (G x) (Icc (X 0) (X (n+1))) x := by
    intro n
    induction n with
    | zero => exact fun h => one 0 h
    | succ n ih =>
      intro h
      rw [← Icc_union_Icc_eq_Icc (mono_le hX (Nat.zero_le (n+1)) (by omega)) (hX (n+1) h).le]
      exact (ih (by omega)).union (one (n+1) h)
  have := all (N-2) (by omega)
  rwa [show N - 2 + 1 = N - 1 by omega] at this

/-! ### the search -/

/-- **C108** (search): for an increasing table and `x` in its domain the search ends, after no more than `N` rounds, with an interval of the table that contains `x` -/
theorem C108_lookup {N : ℕ} {X : ℕ → ℝ} (hN : 2 ≤ N) (hX : ∀ i, i + 1 < N → X i < X (i+1)) {x : ℝ} (h0 : X 0 ≤ x) (h1 : x ≤ X (N-1)) :
    ∃ i, lookup N X x = some i ∧ i + 1 < N ∧ X i ≤ x ∧ x ≤ X (i+1) := lookup_correct hN hX h0 h1

/-- **C108** (outside): outside its domain every spline is zero, and so is its derivative -/
theorem C108_outside (s : Impl) {x : ℝ} (h : x < s.xmin ∨ s.xmax < x) : evaluate s x = some 0 ∧ derivative s x = some 0 := by
  unfold evaluate derivative
  rw [if_pos h, if_pos h]
  exact ⟨rfl, rfl⟩

/-! ### the linear spline -/

theorem linear_agree {N : ℕ} {X : ℕ → ℝ} (hX : ∀ i, i + 1 < N → X i < X (i+1)) (Y : ℕ → ℝ) {i : ℕ} (hi : i + 1 < N) : (linear N X Y).piece i (X (i+1)) = Y (i+1) ∧ (linear N X Y).piece i (X i) = Y i := by
  have : X (i+1) - X i ≠ 0 := (sub_pos.2 (hX i hi)).ne'
  constructor
  · simp only [linear]; field_simp; ring
  · simp [linear]

/-- on the interval `j` the linear spline is the chord -/
theorem linear_piece {N : ℕ} {X : ℕ → ℝ} (hN : 2 ≤ N) (hX : ∀ i, i + 1 < N → X i < X (i+1)) (Y : ℕ → ℝ) {j : ℕ} (hj : j + 1 < N) {x : ℝ} (h0 : X j ≤ x) (h1 : x ≤ X (j+1)) :
    evaluate (linear N X Y) x = some (Y j + (Y (j+1) - Y j)*(x - X j)/(X (j+1) - X j)) :=
  evaluate_piece (s := linear N X Y) hN hX (fun i hi => ((linear_agree hX Y (show i + 1 < N by change i + 2 < N at hi; omega)).1).trans (linear_agree hX Y (i := i+1) hi).2.symm) hj h0 h1
    ((mono_le hX (Nat.zero_le j) (by omega)).trans h0) (h1.trans (mono_le hX (show j + 1 ≤ N - 1 by omega) (by omega)))

/-- **C108** (linear): the linear spline goes through the points of the table, and between two of them it is the point of the chord: `(1-t) Yⱼ + t Yⱼ₊₁` at `(1-t) Xⱼ + t Xⱼ₊₁` -/
theorem C108_linear {N : ℕ} {X : ℕ → ℝ} (hN : 2 ≤ N) (hX : ∀ i, i + 1 < N → X i < X (i+1)) (Y : ℕ → ℝ) :
    (∀ i, i < N → evaluate (linear N X Y) (X i) = some (Y i)) ∧
      ∀ j, j + 1 < N → ∀ t ∈ Icc (0:ℝ) 1, evaluate (linear N X Y) ((1 - t)*X j + t*X (j+1)) = some ((1 - t)*Y j + t*Y (j+1)) := by
  have two : ∀ j, j + 1 < N → ∀ t ∈ Icc (0:ℝ) 1, evaluate (linear N X Y) ((1 - t)*X j + t*X (j+1)) = some ((1 - t)*Y j + t*Y (j+1)) := by
    intro j hj t ht
    have hw := sub_pos.2 (hX j hj)
    rw [linear_piece hN hX Y hj (by nlinarith [mul_nonneg ht.1 hw.le]) (by nlinarith [mul_nonneg (sub_nonneg.2 ht.2) hw.le])]
    congr 1
    rw [show (1 - t)*X j + t*X (j+1) - X j = t*(X (j+1) - X j) by ring]
    field_simp
    ring
  refine ⟨fun i hi => ?_, two⟩
  by_cases hl : i + 1 < N
  · have := two i hl 0 ⟨le_rfl, zero_le_one⟩
    simpa using this
  · have := two (N-2) (by omega) 1 ⟨zero_le_one, le_rfl⟩
    have e : N - 2 + 1 = i := by omega
    rw [e] at this
    simpa using this

/-- **C108** (linear, derivative): between the points of the table `EvaluateDerivative` is the derivative of `Evaluate` -/
theorem C108_linear_derivative {N : ℕ} {X : ℕ → ℝ} (hN : 2 ≤ N) (hX : ∀ i, i + 1 < N → X i < X (i+1)) (Y : ℕ → ℝ) {j : ℕ} (hj : j + 1 < N) {x : ℝ} (h0 : X j < x) (h1 : x < X (j+1)) :
    ∃ d, derivative (linear N X Y) x = some d ∧ HasDerivAt (fun y => (evaluate (linear N X Y) y).getD 0) d x := by
  refine ⟨(Y (j+1) - Y j)/(X (j+1) - X j), ?_, ?_⟩
  · obtain ⟨i, e, hi, g0, g1⟩ := lookup_correct hN hX ((mono_le hX (Nat.zero_le j) (by omega)).trans h0.le) (h1.le.trans (mono_le hX (show j + 1 ≤ N - 1 by omega) (by omega)))
    have hij : i = j := by
      rcases lt_trichotomy i j with h | h | h
      · have := mono_le hX (show i + 1 ≤ j by omega) (by omega); linarith
      · exact h
      · have := mono_le hX (show j + 1 ≤ i by omega) (by omega); linarith
    have a0 : X 0 ≤ x := (mono_le hX (Nat.zero_le j) (by omega)).trans h0.le
    have a1 : x ≤ X (N-1) := h1.le.trans (mono_le hX (show j + 1 ≤ N - 1 by omega) (by omega))
    have hn : ¬(x < (linear N X Y).xmin ∨ x > (linear N X Y).xmax) := by push Not; exact ⟨a0, a1⟩
    unfold derivative
    rw [if_neg hn]
    change (lookup N X x).map _ = _
    rw [e, hij]
    rfl
  · have hev : (fun y => (evaluate (linear N X Y) y).getD 0) =ᶠ[nhds x] fun y => Y j + (Y (j+1) - Y j)*(y - X j)/(X (j+1) - X j) := by
      filter_upwards [Ioo_mem_nhds h0 h1] with y hy
      rw [linear_piece hN hX Y hj hy.1.le hy.2.le]
      rfl
    refine HasDerivAt.congr_of_eventuallyEq ?_ hev
    exact ((((hasDerivAt_id x).sub_const (X j)).const_mul (Y (j+1) - Y j)).div_const (X (j+1) - X j) |>.const_add (Y j)).congr_deriv (by ring)

/-- a function whose second derivative is not negative is below its chord -/
theorem chord_above {a b : ℝ} (hab : a < b) {f f' f'' : ℝ → ℝ} (hf : ∀ y ∈ Icc a b, HasDerivAt f (f' y) y) (hf' : ∀ y ∈ Icc a b, HasDerivAt f' (f'' y) y) (h0 : ∀ y ∈ Icc a b, 0 ≤ f'' y) {x : ℝ}
    (hx : x ∈ Icc a b) : f x ≤ f a + (f b - f a)*(x - a)/(b - a) := by
  have hsub : interior (Icc a b) ⊆ Icc a b := interior_subset
  have hc : ConvexOn ℝ (Icc a b) f := by
    refine convexOn_of_hasDerivWithinAt2_nonneg (convex_Icc a b) (fun y hy => (hf y hy).continuousAt.continuousWithinAt) (fun y hy => (hf y (hsub hy)).hasDerivWithinAt)
      (fun y hy => (hf' y (hsub hy)).hasDerivWithinAt) fun y hy => h0 y (hsub hy)
  have hw : 0 < b - a := by linarith
  have := hc.2 (left_mem_Icc.2 hab.le) (right_mem_Icc.2 hab.le) (show 0 ≤ (b - x)/(b - a) from div_nonneg (by linarith [hx.2]) hw.le)
    (show 0 ≤ (x - a)/(b - a) from div_nonneg (by linarith [hx.1]) hw.le) (by field_simp; ring)
  simp only [smul_eq_mul] at this
  have e1 : (b - x)/(b - a)*a + (x - a)/(b - a)*b = x := by field_simp; ring
  have e2 : (b - x)/(b - a)*f a + (x - a)/(b - a)*f b = f a + (f b - f a)*(x - a)/(b - a) := by field_simp; ring
  rwa [e1, e2] at this

/-- the error of a chord -/
theorem chord_error {a b M : ℝ} (hab : a < b) {f f' f'' : ℝ → ℝ} (hf : ∀ y ∈ Icc a b, HasDerivAt f (f' y) y) (hf' : ∀ y ∈ Icc a b, HasDerivAt f' (f'' y) y) (hM : ∀ y ∈ Icc a b, |f'' y| ≤ M) {x : ℝ}
    (hx : x ∈ Icc a b) : |f a + (f b - f a)*(x - a)/(b - a) - f x| ≤ M*(b - a)^2/8 := by
  have hw : 0 < b - a := by linarith
  have hM0 : 0 ≤ M := (abs_nonneg _).trans (hM x hx)
  have hq : ∀ y, HasDerivAt (fun y : ℝ => M*y^2/2) (M*y) y := fun y => (((hasDerivAt_pow 2 y).const_mul M).div_const 2).congr_deriv (by norm_num; ring)
  have hq' : ∀ y, HasDerivAt (fun y : ℝ => M*y) M y := fun y => ((hasDerivAt_id y).const_mul M).congr_deriv (by ring)
  have h1 := chord_above hab (f := fun y => M*y^2/2 - f y) (fun y hy => (hq y).sub (hf y hy)) (fun y hy => (hq' y).sub (hf' y hy)) (fun y hy => by linarith [(abs_le.1 (hM y hy)).2]) hx
  have h2 := chord_above hab (f := fun y => M*y^2/2 + f y) (fun y hy => (hq y).add (hf y hy)) (fun y hy => (hq' y).add (hf' y hy)) (fun y hy => by linarith [(abs_le.1 (hM y hy)).1]) hx
  have e : M*a^2/2 + (M*b^2/2 - M*a^2/2)*(x - a)/(b - a) - M*x^2/2 = M/2*((x - a)*(b - x)) := by field_simp; ring
  have e1 : M*a^2/2 - f a + (M*b^2/2 - f b - (M*a^2/2 - f a))*(x - a)/(b - a) = M*a^2/2 + (M*b^2/2 - M*a^2/2)*(x - a)/(b - a) - (f a + (f b - f a)*(x - a)/(b - a)) := by ring
  have e2 : M*a^2/2 + f a + (M*b^2/2 + f b - (M*a^2/2 + f a))*(x - a)/(b - a) = M*a^2/2 + (M*b^2/2 - M*a^2/2)*(x - a)/(b - a) + (f a + (f b - f a)*(x - a)/(b - a)) := by ring
  rw [e1] at h1
  rw [e2] at h2
  have hprod : M/2*((x - a)*(b - x)) ≤ M*(b - a)^2/8 := by nlinarith [mul_nonneg hM0 (sq_nonneg ((x - a) - (b - x)))]
  rw [abs_le]
  constructor <;> linarith

/-- **C108** (linear, error): the linear spline of a table of a function with second derivative at most `M`, with points no more than `h` apart, is within `M h²/8` of it everywhere in the domain -/
theorem C108_linear_error {N : ℕ} {X : ℕ → ℝ} (hN : 2 ≤ N) (hX : ∀ i, i + 1 < N → X i < X (i+1)) {f f' f'' : ℝ → ℝ} {M h : ℝ} (hf : ∀ y ∈ Icc (X 0) (X (N-1)), HasDerivAt f (f' y) y)
    (hf' : ∀ y ∈ Icc (X 0) (X (N-1)), HasDerivAt f' (f'' y) y) (hM : ∀ y ∈ Icc (X 0) (X (N-1)), |f'' y| ≤ M) (hh : ∀ i, i + 1 < N → X (i+1) - X i ≤ h) {x : ℝ} (hx : x ∈ Icc (X 0) (X (N-1))) :
    ∃ y, evaluate (linear N X fun i => f (X i)) x = some y ∧ |y - f x| ≤ M*h^2/8 := by
  obtain ⟨j, hj, h0, h1⟩ := interval hN hX hx.1 hx.2
  have hM0 : 0 ≤ M := (abs_nonneg _).trans (hM x hx)
  have hsub : Icc (X j) (X (j+1)) ⊆ Icc (X 0) (X (N-1)) := Icc_subset_Icc (mono_le hX (Nat.zero_le j) (by omega)) (mono_le hX (show j + 1 ≤ N - 1 by omega) (by omega))
  refine ⟨_, linear_piece hN hX _ hj h0 h1, ?_⟩
  refine (chord_error (hX j hj) (fun y hy => hf y (hsub hy)) (fun y hy => hf' y (hsub hy)) (fun y hy => hM y (hsub hy)) ⟨h0, h1⟩).trans ?_
  have := hX j hj
  have := hh j hj
  have : (X (j+1) - X j)^2 ≤ h^2 := pow_le_pow_left₀ (by linarith) (by linarith) 2
  have := mul_le_mul_of_nonneg_left this hM0
  linarith

/-- a case of `C108_linear_error`: a table of `sin` -/
example : ∃ y, evaluate (linear 101 (fun i => (i:ℝ)/100) fun i => Real.sin ((i:ℝ)/100)) (1/3) = some y ∧ |y - Real.sin (1/3)| ≤ 1*(1/100)^2/8 := by
  refine C108_linear_error (N := 101) (X := fun i => (i:ℝ)/100) (f' := Real.cos) (f'' := fun y => -Real.sin y) (h := 1/100) (by norm_num) (fun i _ => by push_cast; linarith)
    (fun y _ => Real.hasDerivAt_sin y) (fun y _ => Real.hasDerivAt_cos y) (fun y _ => by rw [abs_neg]; exact Real.abs_sin_le_one y) (fun i _ => by push_cast; linarith) ?_
  constructor <;> norm_num

/-! ### the shifted linear spline -/

/-- **C108** (shifted): on a uniform table, for `0 ≤ τ < 1`, the shifted linear spline goes through the points of the table -/
theorem C108_shifted {n : ℕ} {xx : ℕ → ℝ} {T tau : ℝ} (hn : 2 ≤ n) (hT : 0 < T) (hx : ∀ i, i < n → xx i = xx 0 + i*T) (h0 : 0 ≤ tau) (h1 : tau < 1) (yy : ℕ → ℝ) {i : ℕ} (hi : i < n) :
    evaluate (shifted n xx yy tau) (xx i) = some (yy i) := by
  have hx1 : xx 1 - xx 0 = T := by rw [hx 1 (by omega)]; push_cast; ring
  have hXs : ∀ i, i < n + 1 → shiftedX tau xx i = xx 0 + (i:ℝ)*T - (1 - tau)*T := by
    intro i hi
    cases i with
    | zero => simp only [shiftedX]; rw [hx1]; push_cast; ring
    | succ i => simp only [shiftedX]; rw [hx1, hx i (by omega)]; push_cast; ring
  have hX : ∀ i, i + 1 < n + 1 → shiftedX tau xx i < shiftedX tau xx (i+1) := by
    intro i hi
    rw [hXs i (by omega), hXs (i+1) hi]; push_cast; linarith
  have hmin : xx 0 ≤ xx i := by rw [hx i hi]; have : (0:ℝ) ≤ i*T := by positivity
                                linarith
  have hmax : xx i ≤ xx (n-1) := by
    rw [hx i hi, hx (n-1) (by omega)]
    have : (i:ℝ) ≤ ((n-1 : ℕ) : ℝ) := by exact_mod_cast (show i ≤ n - 1 by omega)
    nlinarith
  have hT' : 0 ≤ (1 - tau)*T := mul_nonneg (by linarith) hT.le
  have hT'' : 0 ≤ tau*T := mul_nonneg h0 hT.le
  have e := evaluate_piece (s := shifted n xx yy tau) (show 2 ≤ n + 1 by omega) hX
    (fun i hi => ((linear_agree (N := n+1) hX (shiftedY tau yy) (show i + 1 < n + 1 by change i + 2 < n + 1 at hi; omega)).1).trans (linear_agree (N := n+1) hX (shiftedY tau yy) (i := i+1) hi).2.symm)
    (show i + 1 < n + 1 by omega) (x := xx i) (by change shiftedX tau xx i ≤ _; rw [hXs i (by omega), hx i hi]; linarith)
    (by change _ ≤ shiftedX tau xx (i+1); rw [hXs (i+1) (by omega), hx i hi]; push_cast; linarith) hmin hmax
  rw [e]
  congr 1
  change shiftedY tau yy i + (shiftedY tau yy (i+1) - shiftedY tau yy i)*(xx i - shiftedX tau xx i)/(shiftedX tau xx (i+1) - shiftedX tau xx i) = yy i
  rw [hXs i (by omega), hXs (i+1) (by omega), hx i hi]
  have d1 : xx 0 + ((i+1 : ℕ) : ℝ)*T - (1 - tau)*T - (xx 0 + (i:ℝ)*T - (1 - tau)*T) = T := by push_cast; ring
  have d2 : xx 0 + (i:ℝ)*T - (xx 0 + (i:ℝ)*T - (1 - tau)*T) = (1 - tau)*T := by ring
  rw [d1, d2]
  simp only [shiftedY]
  have : 1 - tau ≠ 0 := by linarith
  field_simp
  ring

example : evaluate (shifted 3 (fun i => (i:ℝ)) (fun i => (i:ℝ)^3) (1/5)) ((fun i : ℕ => (i:ℝ)) 2) = some ((fun i : ℕ => (i:ℝ)^3) 2) :=
  C108_shifted (T := 1) (by norm_num) one_pos (fun i _ => by simp) (by norm_num) (by norm_num) _ (by norm_num)

/-! ### the cubic spline -/

/-- the second derivative of the piece `i` of the cubic spline -/
noncomputable def curve (N : ℕ) (X Y : ℕ → ℝ) (s : Arr) (i : ℕ) (x : ℝ) : ℝ := 2*(fit N X Y s).c i + 6*(fit N X Y s).d i*(x - X i)

theorem cubic_piece_deriv (N : ℕ) (X Y : ℕ → ℝ) (s : Arr) (i : ℕ) (x : ℝ) :
    HasDerivAt ((cubic N X Y s).piece i) ((cubic N X Y s).slope i x) x ∧ HasDerivAt ((cubic N X Y s).slope i) (curve N X Y s i x) x := by
  have h1 : HasDerivAt (fun x => x - X i) 1 x := (hasDerivAt_id x).sub_const (X i)
  simp only [cubic, curve]
  obtain ⟨a, ha⟩ : ∃ a, a = fit N X Y s := ⟨_, rfl⟩
  rw [← ha]
  constructor
  · exact ((((h1.const_mul (a.b i)).const_add (Y i)).add ((h1.const_mul (a.c i)).mul h1)).add (((h1.const_mul (a.d i)).mul h1).mul h1)).congr_deriv (by simp only [Pi.mul_apply]; ring)
  · exact (((h1.const_mul (2*a.c i)).const_add (a.b i)).add ((h1.const_mul (3*a.d i)).mul h1)).congr_deriv (by ring)

/-- the pieces of the cubic spline and their first two derivatives agree where they meet -/
theorem cubic_agree {N : ℕ} {X : ℕ → ℝ} (hN : 2 ≤ N) (hX : ∀ i, i + 1 < N → X i < X (i+1)) (Y : ℕ → ℝ) (s : Arr) :
    (∀ i, i + 1 < N → (cubic N X Y s).piece i (X i) = Y i ∧ (cubic N X Y s).piece i (X (i+1)) = Y (i+1)) ∧
      ∀ i, i + 2 < N → (cubic N X Y s).slope i (X (i+1)) = (cubic N X Y s).slope (i+1) (X (i+1)) ∧ curve N X Y s i (X (i+1)) = curve N X Y s (i+1) (X (i+1)) := by
  obtain ⟨z, hz, _, hf⟩ := fit_spec hN hX Y s
  have hw : ∀ i, i + 1 < N → 0 < wid X i := fun i hi => sub_pos.2 (hX i hi)
  constructor
  · intro i hi
    obtain ⟨b, c, d⟩ := hf i hi
    have := hw i hi
    constructor
    · simp [cubic]
    · simp only [cubic]
      rw [b, c, d]
      change Y i + (slo X Y i - wid X i*(z (i+1) + 2*z i))*wid X i + 3*z i*wid X i*wid X i + (z (i+1) - z i)/wid X i*wid X i*wid X i*wid X i = Y (i+1)
      unfold slo
      field_simp
      ring
  · intro i hi
    obtain ⟨b, c, d⟩ := hf i (by omega)
    obtain ⟨b', c', d'⟩ := hf (i+1) (by omega)
    have w0 := hw i (by omega)
    have hm := hz.mid i hi
    constructor
    · simp only [cubic]
      rw [b, c, d, b', c', d']
      change slo X Y i - wid X i*(z (i+1) + 2*z i) + 2*(3*z i)*wid X i + 3*((z (i+1) - z i)/wid X i)*wid X i*wid X i =
        slo X Y (i+1) - wid X (i+1)*(z (i+2) + 2*z (i+1)) + 2*(3*z (i+1))*(X (i+1) - X (i+1)) + 3*((z (i+2) - z (i+1))/wid X (i+1))*(X (i+1) - X (i+1))*(X (i+1) - X (i+1))
      rw [sub_self, show 3*((z (i+1) - z i)/wid X i)*wid X i*wid X i = 3*(z (i+1) - z i)*wid X i by field_simp]
      linarith
    · simp only [curve]
      rw [c, d, c', d']
      change 2*(3*z i) + 6*((z (i+1) - z i)/wid X i)*wid X i = 2*(3*z (i+1)) + 6*((z (i+2) - z (i+1))/wid X (i+1))*(X (i+1) - X (i+1))
      rw [sub_self, show 6*((z (i+1) - z i)/wid X i)*wid X i = 6*(z (i+1) - z i) by field_simp]
      ring

/-- **C108** (cubic): whatever was in the memory before, the cubic spline goes through the points of the table; in the whole domain `EvaluateDerivative` is the derivative of `Evaluate`, has itself a derivative, and that is continuous
-/
theorem C108_cubic {N : ℕ} {X : ℕ → ℝ} (hN : 2 ≤ N) (hX : ∀ i, i + 1 < N → X i < X (i+1)) (Y : ℕ → ℝ) (s : Arr) :
    (∀ i, i < N → evaluate (cubic N X Y s) (X i) = some (Y i)) ∧
      ∃ F F' F'' : ℝ → ℝ, (∀ x ∈ Icc (X 0) (X (N-1)), evaluate (cubic N X Y s) x = some (F x) ∧ derivative (cubic N X Y s) x = some (F' x)) ∧
        (∀ x ∈ Icc (X 0) (X (N-1)), HasDerivWithinAt F (F' x) (Icc (X 0) (X (N-1))) x ∧ HasDerivWithinAt F' (F'' x) (Icc (X 0) (X (N-1))) x) ∧ ContinuousOn F'' (Icc (X 0) (X (N-1))) := by
  obtain ⟨ag, ag'⟩ := cubic_agree hN hX Y s
  have ev : ∀ i, i + 1 < N → ∀ x ∈ Icc (X i) (X (i+1)), evaluate (cubic N X Y s) x = some ((cubic N X Y s).piece i x) ∧ derivative (cubic N X Y s) x = some ((cubic N X Y s).slope i x) ∧
      (lookup N X x).map (fun i => curve N X Y s i x) = some (curve N X Y s i x) := by
    intro i hi x hx
    have hlo : X 0 ≤ x := (mono_le hX (Nat.zero_le i) (by omega)).trans hx.1
    have hhi : x ≤ X (N-1) := hx.2.trans (mono_le hX (show i + 1 ≤ N - 1 by omega) (by omega))
    exact ⟨evaluate_piece (s := cubic N X Y s) hN hX (fun i hi => (ag i (show i + 1 < N by change i + 2 < N at hi; omega)).2.trans (ag (i+1) hi).1.symm) hi hx.1 hx.2 hlo hhi,
      derivative_piece (s := cubic N X Y s) hN hX (fun i hi => (ag' i hi).1) hi hx.1 hx.2 hlo hhi, lookup_piece hN hX (fun i hi => (ag' i hi).2) hi hx.1 hx.2⟩
  refine ⟨fun i hi => ?_, fun x => (evaluate (cubic N X Y s) x).getD 0, fun x => (derivative (cubic N X Y s) x).getD 0, fun x => ((lookup N X x).map (fun i => curve N X Y s i x)).getD 0, ?_, ?_, ?_⟩
  · by_cases hl : i + 1 < N
    · rw [(ev i hl (X i) ⟨le_rfl, (hX i hl).le⟩).1, (ag i hl).1]
    · have e : N - 2 + 1 = i := by omega
      have := (ev (N-2) (by omega) (X (N-2+1)) ⟨(hX (N-2) (by omega)).le, le_rfl⟩).1
      rw [(ag (N-2) (by omega)).2, e] at this
      exact this
  · intro x hx
    obtain ⟨i, hi, h0, h1⟩ := interval hN hX hx.1 hx.2
    obtain ⟨e1, e2, _⟩ := ev i hi x ⟨h0, h1⟩
    simp only [e1, e2, Option.getD_some, and_self]
  · intro x hx
    constructor
    · refine glue (G := fun x => (derivative (cubic N X Y s) x).getD 0) hN hX (fun i hi y hy => ?_) (fun i y => (cubic_piece_deriv N X Y s i y).1) x
      obtain ⟨e1, e2, _⟩ := ev i hi y hy
      simp only [e1, e2, Option.getD_some, and_self]
    · refine glue (G := fun x => ((lookup N X x).map (fun i => curve N X Y s i x)).getD 0) hN hX (fun i hi y hy => ?_) (fun i y => (cubic_piece_deriv N X Y s i y).2) x
      obtain ⟨_, e2, e3⟩ := ev i hi y hy
      simp only [e2, e3, Option.getD_some, and_self]
  · have all : ∀ n, n + 1 < N → ContinuousOn (fun x => ((lookup N X x).map (fun i => curve N X Y s i x)).getD 0) (Icc (X 0) (X (n+1))) := by
      have one : ∀ i, i + 1 < N → ContinuousOn (fun x => ((lookup N X x).map (fun i => curve N X Y s i x)).getD 0) (Icc (X i) (X (i+1))) := by
        intro i hi
        have : ContinuousOn (curve N X Y s i) (Icc (X i) (X (i+1))) := by unfold curve; fun_prop
        refine this.congr fun y hy => ?_
        simp only [(ev i hi y hy).2.2, Option.getD_some]
      intro n
      induction n with
      | zero => exact fun h => one 0 h
      | succ n ih =>
        intro h
        rw [← Icc_union_Icc_eq_Icc (mono_le hX (Nat.zero_le (n+1)) (by omega)) (hX (n+1) h).le]
        exact (ih (by omega)).union_of_isClosed (one (n+1) h) isClosed_Icc isClosed_Icc
    have := all (N-2) (by omega)
    rwa [show N - 2 + 1 = N - 1 by omega] at this

/-- **C108** (cubic, exactness): a table of a cubic polynomial (of a parabola if there are three points, of a line if there are two) is reproduced, with its derivative, everywhere in the domain -/
theorem C108_cubic_exact {N : ℕ} {X : ℕ → ℝ} (hN : 2 ≤ N) (hX : ∀ i, i + 1 < N → X i < X (i+1)) (s : Arr) {a b c d : ℝ} (hc : c ≠ 0 → 3 ≤ N) (hd : d ≠ 0 → 4 ≤ N) {x : ℝ} (hx : x ∈ Icc (X 0) (X (N-1))) :
    evaluate (cubic N X (fun i => a + b*X i + c*X i^2 + d*X i^3) s) x = some (a + b*x + c*x^2 + d*x^3) ∧
      derivative (cubic N X (fun i => a + b*X i + c*X i^2 + d*X i^3) s) x = some (b + 2*c*x + 3*d*x^2) := by
  obtain ⟨Y, hY⟩ : ∃ Y : ℕ → ℝ, Y = fun i => a + b*X i + c*X i^2 + d*X i^3 := ⟨_, rfl⟩
  rw [← hY]
  have hw : ∀ i, i + 1 < N → 0 < wid X i := fun i hi => sub_pos.2 (hX i hi)
  have hslo : ∀ i, i + 1 < N → slo X Y i = b + c*(X (i+1) + X i) + d*(X (i+1)^2 + X (i+1)*X i + X i^2) := by
    intro i hi
    have := hw i hi
    unfold slo
    rw [div_eq_iff this.ne', hY]
    unfold wid
    ring
  have hdd : ∀ i, i + 3 < N → dd3 X Y i = d := by
    intro i hi
    have w1 := mono_lt hX (show i + 1 < i + 3 by omega) hi
    have w2 := mono_lt hX (show i < i + 2 by omega) (by omega)
    have w3 := mono_lt hX (show i < i + 3 by omega) hi
    unfold dd3
    rw [hslo (i+2) (by omega), hslo (i+1) (by omega), hslo i (by omega)]
    simp only [show i + 2 + 1 = i + 3 by omega, show i + 1 + 1 = i + 2 by omega]
    have n1 := (sub_pos.2 w1).ne'
    have n2 := (sub_pos.2 w2).ne'
    have n3 := (sub_pos.2 w3).ne'
    have e1 : (b + c*(X (i+3) + X (i+2)) + d*(X (i+3)^2 + X (i+3)*X (i+2) + X (i+2)^2) - (b + c*(X (i+2) + X (i+1)) + d*(X (i+2)^2 + X (i+2)*X (i+1) + X (i+1)^2)))/(X (i+3) - X (i+1)) =
        c + d*(X (i+3) + X (i+2) + X (i+1)) := by rw [div_eq_iff n1]; ring
    have e2 : (b + c*(X (i+2) + X (i+1)) + d*(X (i+2)^2 + X (i+2)*X (i+1) + X (i+1)^2) - (b + c*(X (i+1) + X i) + d*(X (i+1)^2 + X (i+1)*X i + X i^2)))/(X (i+2) - X i) =
        c + d*(X (i+2) + X (i+1) + X i) := by rw [div_eq_iff n2]; ring
    rw [e1, e2, div_eq_iff n3]
    ring
  have hsol : Solves N X Y (fun i => c/3 + d*X i) := by
    refine ⟨fun i hi => ?_, ?_, ?_⟩
    · rw [hslo (i+1) hi, hslo i (by omega)]
      simp only [show i + 1 + 1 = i + 2 by omega]
      unfold wid
      rw [show i + 1 + 1 = i + 2 by omega]
      ring
    · split
      · next h => rw [hdd 0 (by omega)]; unfold wid; ring
      · next h =>
        have : d = 0 := by by_contra hne; exact h (by have := hd hne; omega)
        rw [this]; ring
    · split
      · next h =>
        rw [hdd (N-4) (by omega)]; unfold wid
        rw [show N - 2 + 1 = N - 1 by omega]; ring
      · next h =>
        have : d = 0 := by by_contra hne; exact h (by have := hd hne; omega)
        rw [this]; ring
  obtain ⟨z, hz, hz2, hf⟩ := fit_spec hN hX Y s
  have hzz := solves_unique hN hX hz hsol fun h2 => by
    have d0 : d = 0 := by by_contra hne; have := hd hne; omega
    have c0 : c = 0 := by by_contra hne; have := hc hne; omega
    rw [hz2 h2, d0, c0]; ring
  obtain ⟨_, F, F', _, hev, _⟩ := C108_cubic hN hX Y s
  obtain ⟨ag, ag'⟩ := cubic_agree hN hX Y s
  obtain ⟨j, hj, h0, h1⟩ := interval hN hX hx.1 hx.2
  obtain ⟨fb, fc, fd⟩ := hf j hj
  have wj := hw j hj
  have hq : (z (j+1) - z j)/wid X j = d := by
    rw [hzz (j+1) hj, hzz j (by omega), div_eq_iff wj.ne']; unfold wid; ring
  rw [hq] at fd
  rw [hzz (j+1) hj, hzz j (by omega), hslo j hj] at fb
  rw [hzz j (by omega)] at fc
  rw [evaluate_piece (s := cubic N X Y s) hN hX (fun i hi => (ag i (show i + 1 < N by change i + 2 < N at hi; omega)).2.trans (ag (i+1) hi).1.symm) hj h0 h1 hx.1 hx.2,
    derivative_piece (s := cubic N X Y s) hN hX (fun i hi => (ag' i hi).1) hj h0 h1 hx.1 hx.2]
  simp only [cubic]
  rw [fb, fc, fd]
  unfold wid
  constructor
  · rw [show Y j = a + b*X j + c*X j^2 + d*X j^3 by rw [hY]]
    congr 1
    ring
  · congr 1
    ring

/-- a case of `C108_cubic_exact`: unequal points -/
example (s : Arr) : evaluate (cubic 4 (fun i => (i:ℝ)^2) (fun i => 1 + 2*((i:ℝ)^2) + 3*((i:ℝ)^2)^2 + 4*((i:ℝ)^2)^3) s) 2 = some (1 + 2*2 + 3*2^2 + 4*2^3) := by
  refine (C108_cubic_exact (N := 4) (X := fun i => (i:ℝ)^2) (by norm_num) (fun i _ => ?_) s (fun _ => by norm_num) (fun _ => by norm_num) ⟨by norm_num, by norm_num⟩).1
  push_cast
  have : (0:ℝ) ≤ i := Nat.cast_nonneg i
  nlinarith

/-- **C108** (cubic, linearity): the spline of a combination of two tables is the combination of the splines, whatever was in the memory -/
theorem C108_cubic_linear {N : ℕ} {X : ℕ → ℝ} (hN : 2 ≤ N) (hX : ∀ i, i + 1 < N → X i < X (i+1)) (Y Z : ℕ → ℝ) (s s1 s2 : Arr) (a b : ℝ) {x : ℝ} (hx : x ∈ Icc (X 0) (X (N-1))) :
    ∃ y z, evaluate (cubic N X Y s1) x = some y ∧ evaluate (cubic N X Z s2) x = some z ∧ evaluate (cubic N X (fun i => a*Y i + b*Z i) s) x = some (a*y + b*z) := by
  obtain ⟨V, hV⟩ : ∃ V : ℕ → ℝ, V = fun i => a*Y i + b*Z i := ⟨_, rfl⟩
  rw [← hV]
  have hslo : ∀ i, slo X V i = a*slo X Y i + b*slo X Z i := by
    intro i; unfold slo; rw [hV]; ring
  have hdd : ∀ i, dd3 X V i = a*dd3 X Y i + b*dd3 X Z i := by
    intro i; unfold dd3; rw [hslo, hslo, hslo]; ring
  obtain ⟨u, hu, hu2, fu⟩ := fit_spec hN hX Y s1
  obtain ⟨v, hv, hv2, fv⟩ := fit_spec hN hX Z s2
  obtain ⟨w, hw, hw2, fw⟩ := fit_spec hN hX V s
  have hsol : Solves N X V (fun i => a*u i + b*v i) := by
    refine ⟨fun i hi => ?_, ?_, ?_⟩
    · rw [hslo, hslo]
      linear_combination a*hu.mid i hi + b*hv.mid i hi
    · have h1 := hu.first
      have h2 := hv.first
      split at h1 <;> simp_all only [if_true, if_false] <;> linear_combination a*h1 + b*h2
    · have h1 := hu.last
      have h2 := hv.last
      split at h1 <;> simp_all only [if_true, if_false] <;> linear_combination a*h1 + b*h2
  have hzz := solves_unique hN hX hw hsol fun h2 => by rw [hw2 h2, hu2 h2, hv2 h2]; ring
  obtain ⟨j, hj, h0, h1⟩ := interval hN hX hx.1 hx.2
  have ev : ∀ (Y : ℕ → ℝ) (s : Arr), evaluate (cubic N X Y s) x = some ((cubic N X Y s).piece j x) := fun Y s =>
    evaluate_piece (s := cubic N X Y s) hN hX (fun i hi => ((cubic_agree hN hX Y s).1 i (show i + 1 < N by change i + 2 < N at hi; omega)).2.trans ((cubic_agree hN hX Y s).1 (i+1) hi).1.symm) hj h0 h1 hx.1 hx.2
  refine ⟨_, _, ev Y s1, ev Z s2, ?_⟩
  rw [ev V s]
  simp only [cubic]
  obtain ⟨b1, c1, d1⟩ := fu j hj
  obtain ⟨b2, c2, d2⟩ := fv j hj
  obtain ⟨b3, c3, d3⟩ := fw j hj
  rw [b1, c1, d1, b2, c2, d2, b3, c3, d3, hzz (j+1) hj, hzz j (by omega), hslo j, show V j = a*Y j + b*Z j by rw [hV]]
  congr 1
  ring

/-- **C108**, finding: the header says "natural cubic spline", whose second derivative is zero at both ends; on three or more points of the parabola `x²` the derivative of `EvaluateDerivative` is two everywhere, ends included -/
theorem C108_natural_counterexample {N : ℕ} {X : ℕ → ℝ} (hN : 3 ≤ N) (hX : ∀ i, i + 1 < N → X i < X (i+1)) (s : Arr) {F' : ℝ → ℝ}
    (hF : ∀ x ∈ Icc (X 0) (X (N-1)), derivative (cubic N X (fun i => X i^2) s) x = some (F' x)) {x : ℝ} (hx : x ∈ Icc (X 0) (X (N-1))) : HasDerivWithinAt F' 2 (Icc (X 0) (X (N-1))) x := by
  have h : ∀ y ∈ Icc (X 0) (X (N-1)), F' y = 2*y := by
    intro y hy
    have e := (C108_cubic_exact (a := 0) (b := 0) (c := 1) (d := 0) (by omega) hX s (fun _ => hN) (fun h => absurd rfl h) hy).2
    have e1 : (fun i => 0 + 0*X i + 1*X i^2 + 0*X i^3) = fun i => X i^2 := by funext i; ring
    rw [e1, hF y hy] at e
    have := Option.some.inj e
    rw [this]; ring
  exact (((hasDerivAt_id x).const_mul (2:ℝ)).congr_deriv (by ring)).hasDerivWithinAt.congr h (h x hx)

/-! ### the transfer function of CLASS -/

/-- `CubicSpline(ki, Ti)` of a table (`Cosmology.cpp:279`) -/
noncomputable def ofTable (s : Arr) (t : Cosmo.Table) (k : ℝ) : ℝ := (evaluate (cubic t.length (fun i => (t.getD i 0).1) (fun i => (t.getD i 0).2) s) k).getD 0

/-- **C108** (CLASS): with the cubic spline of the library, a table of two or more points with positive, increasing wavenumbers gives a transfer function that has the value of the table at every wavenumber of the table, and is
continuous for all `k > 0` -/
theorem C108_class (W : Cosmo.World) (m : Arr) (hW : W.spline = ofTable m) {e : Cosmo.Run} (h : Cosmo.Physical e) {t : Cosmo.Table} {s : Cosmo.Spl} (hs : Cosmo.build e t = some s) (hl : 2 ≤ t.length)
    (hk : ∀ a ∈ t, 0 < a.1) (hinc : t.Pairwise fun a b => a.1 < b.1) :
    ContinuousOn (Cosmo.splineTransfer W s e) (Ioi 0) ∧ ∀ a ∈ t, Cosmo.splineTransfer W s e a.1 = a.2 := by
  obtain ⟨X, hXd⟩ : ∃ X : ℕ → ℝ, X = fun i => (t.getD i 0).1 := ⟨_, rfl⟩
  obtain ⟨Y, hYd⟩ : ∃ Y : ℕ → ℝ, Y = fun i => (t.getD i 0).2 := ⟨_, rfl⟩
  have hget : ∀ i (hi : i < t.length), X i = t[i].1 ∧ Y i = t[i].2 := by
    intro i hi
    rw [hXd, hYd]
    simp only [List.getD_eq_getElem?_getD, List.getElem?_eq_getElem hi, Option.getD_some, and_self]
  have hX : ∀ i, i + 1 < t.length → X i < X (i+1) := by
    intro i hi
    rw [(hget i (by omega)).1, (hget (i+1) hi).1]
    exact List.pairwise_iff_getElem.1 hinc i (i+1) (by omega) hi (by omega)
  obtain ⟨nodes, F, F', F'', hF, hd, _⟩ := C108_cubic hl hX Y m
  have hsp : ∀ k, W.spline t k = (evaluate (cubic t.length X Y m) k).getD 0 := by
    intro k; rw [hW, hXd, hYd]; rfl
  have hnode : ∀ i, i < t.length → W.spline t (X i) = Y i := by
    intro i hi; rw [hsp, nodes i hi]; rfl
  have hs' := hs
  unfold Cosmo.build at hs'
  split at hs'
  case h_2 => cases hs'
  next a b h2 h3 =>
  cases hs'
  have ha : a = t[0] := by
    rw [List.head?_eq_getElem?, List.getElem?_eq_getElem (by omega)] at h2
    exact (Option.some.inj h2).symm
  have hb : b = t[t.length - 1] := by
    rw [List.getLast?_eq_getElem?, List.getElem?_eq_getElem (by omega)] at h3
    exact (Option.some.inj h3).symm
  have a1 : a.1 = X 0 := by rw [ha, (hget 0 (by omega)).1]
  have a2 : a.2 = Y 0 := by rw [ha, (hget 0 (by omega)).2]
  have b1 : b.1 = X (t.length - 1) := by rw [hb, (hget _ (by omega)).1]
  have b2 : b.2 = Y (t.length - 1) := by rw [hb, (hget _ (by omega)).2]
  have hpos : 0 < a.1 := hk a (by rw [ha]; exact List.getElem_mem _)
  have hab : a.1 < b.1 := by rw [a1, b1]; exact mono_lt hX (by omega) (by omega)
  have hmain := Cosmo.C107_spline W h hs hpos hab.le ?_ ?_ ?_
  · refine ⟨hmain.1, fun c hc => ?_⟩
    obtain ⟨i, hi, rfl⟩ := List.getElem_of_mem hc
    have hends := hmain.2 a (by rw [h2]; rfl) b (by rw [h3]; rfl)
    rw [← (hget i hi).1, ← (hget i hi).2]
    by_cases i0 : i = 0
    · rw [i0, ← a1, ← a2]; exact hends.1
    by_cases iN : i = t.length - 1
    · rw [iN, ← b1, ← b2]; exact hends.2 hab
    have l1 : a.1 < X i := by rw [a1]; exact mono_lt hX (by omega) hi
    have l2 : X i < b.1 := by rw [b1]; exact mono_lt hX (by omega) (by omega)
    unfold Cosmo.splineTransfer
    rw [if_neg (by linarith), if_neg (by simp only; linarith), if_neg (by simp only; linarith)]
    exact hnode i hi
  · simp only
    rw [a1, b1]
    have : ContinuousOn F (Icc (X 0) (X (t.length - 1))) := fun x hx => (hd x hx).1.continuousWithinAt
    refine this.congr fun x hx => ?_
    rw [hsp, (hF x hx).1]; rfl
  · simp only
    rw [a1, a2]; exact hnode 0 (by omega)
  · simp only
    rw [b1, b2]; exact hnode _ (by omega)

end Verif.Spline
