/-
C50, C51: the survey-window convolution.
-/
import Verif.Model.Window
import Verif.Props.Legendre
import Mathlib.Algebra.BigOperators.Fin

namespace Verif.Window

open Verif.Legendre

noncomputable section

/-! ### Specification -/

/-- The function of `mu` with the even multipoles `c` (`c[0]` the monopole, `c[1]` the quadrupole, ...). -/
def fromPoles (c : List ℝ) (mu : ℝ) : ℝ := ∑ j ∈ Finset.range c.length, c.getD j 0 * leg (2 * j) mu

/-- The multipole `ell` of a function of `mu`. -/
def pole (ell : ℕ) (f : ℝ → ℝ) : ℝ := (2 * ell + 1) / 2 * ∫ mu in (-1 : ℝ)..1, leg ell mu * f mu

/-- What is used of the interpolating spline: it is linear in the tabulated values. -/
structure LinearSpline {n : ℕ} (spl : (Fin n → ℝ) → ℝ → ℝ) : Prop where
  add : ∀ f g r, spl (fun i => f i + g i) r = spl f r + spl g r
  smul : ∀ f (c : ℝ) r, spl (fun i => f i * c) r = spl f r * c

/-- The values at `r` of the interpolated window multipoles. -/
def winAt {n : ℕ} (w : Win n) (spl : (Fin n → ℝ) → ℝ → ℝ) (r : ℝ) : List ℝ := w.cols.map (fun c => spl c r)

/-! ### The coefficients -/

theorem G_pos (p : ℕ) : 0 < (G p).1 ∧ 0 < (G p).2 := by
  refine ⟨?_, by simp only [G]; exact_mod_cast Nat.factorial_pos p⟩
  simp only [G]
  refine mul_pos (by positivity) ?_
  induction p with
  | zero => simp
  | succ p ih =>
    rw [List.range_succ, List.foldl_append]
    simp only [List.foldl_cons, List.foldl_nil, Nat.add_eq_zero_iff, one_ne_zero, and_false, if_false]
    refine mul_pos ih ?_
    push_cast
    have : (0 : ℝ) ≤ p := Nat.cast_nonneg p
    linarith

theorem G_ratio (p : ℕ) : (G p).1 / (G p).2 = A p := by
  induction p with
  | zero => simp [G, A]
  | succ p ih =>
    have h2 := (G_pos p).2
    rw [A, ← ih]
    have e1 : (G (p + 1)).1 = (G p).1 * (2 * p + 1) := by
      simp only [G]
      rw [List.range_succ, List.foldl_append]
      simp only [List.foldl_cons, List.foldl_nil, Nat.add_eq_zero_iff, one_ne_zero, and_false, if_false]
      push_cast
      ring
    have e2 : (G (p + 1)).2 = (p + 1) * (G p).2 := by
      simp only [G, Nat.factorial_succ]; push_cast; ring
    rw [e1, e2]
    have h3 := h2.ne'
    field_simp

theorem coeff_eq (ell ellp p : ℕ) :
    coeff ell ellp p = (ell + ellp - 2 * p, adams ell ellp p * ((2 * ell + 1) / (2 * (ell + ellp - 2 * p : ℕ) + 1))) := by
  have h1 := G_pos (ell - p)
  have h2 := G_pos p
  have h3 := G_pos (ellp - p)
  have h4 := G_pos (ell + ellp - p)
  simp only [coeff, adams, ← G_ratio, List.prod_cons, List.prod_nil, mul_one]
  congr 1
  have a1 := h1.1.ne'; have a2 := h1.2.ne'; have a3 := h2.2.ne'; have a4 := h3.2.ne'; have a5 := h4.1.ne'; have a6 := h4.2.ne'
  by_cases hd : (2 * ((ell + ellp : ℕ) : ℝ) - 2 * p + 1) = 0
  · rw [hd]; simp
  · have hq : (2 * ((ell + ellp - 2 * p : ℕ) : ℝ) + 1) ≠ 0 := by positivity
    field_simp

theorem adams_pos (l m p : ℕ) (hl : p ≤ l) (hm : p ≤ m) : 0 < adams l m p := by
  have hlR : (p : ℝ) ≤ l := by exact_mod_cast hl
  have hmR : (p : ℝ) ≤ m := by exact_mod_cast hm
  simp only [adams]
  have := A_pos (l - p); have := A_pos p; have := A_pos (m - p); have := A_pos (l + m - p)
  refine mul_pos (by positivity) (div_pos ?_ ?_) <;> push_cast <;> linarith

/-- C51: the coefficients used for `(ell, ell')` are, divided by `(2 ell + 1)/(2 q + 1)`, the coefficients of the expansion of the product
`L_ell L_ell'` in Legendre polynomials: positive, one for each of `|ell - ell'|, |ell - ell'| + 2, ..., ell + ell'`, summing to one. -/
theorem C51_coefficients (ell ellp : ℕ) :
    (getCoefficients ell ellp).map Prod.fst =
      (List.range (min ell ellp + 1)).map (fun i => max ell ellp - min ell ellp + 2 * i) ∧
    (∀ qc ∈ getCoefficients ell ellp, 0 < qc.2) ∧
    (∀ x, leg ell x * leg ellp x =
      ((getCoefficients ell ellp).map (fun qc => qc.2 * ((2 * qc.1 + 1) / (2 * ell + 1)) * leg qc.1 x)).sum) ∧
    ((getCoefficients ell ellp).map (fun qc => qc.2 * ((2 * (qc.1 : ℝ) + 1) / (2 * (ell : ℝ) + 1)))).sum = 1 := by
  have hprod : ∀ x, leg ell x * leg ellp x =
      ((getCoefficients ell ellp).map (fun qc => qc.2 * ((2 * qc.1 + 1) / (2 * ell + 1)) * leg qc.1 x)).sum := by
    intro x
    rw [product, getCoefficients, List.map_reverse, List.sum_reverse, List.map_map, ← List.sum_toFinset _ List.nodup_range,
      List.toFinset_range]
    refine Finset.sum_congr rfl (fun p _ => ?_)
    simp only [Function.comp, coeff_eq]
    have h1 : (2 * (ell : ℝ) + 1) ≠ 0 := by positivity
    have h2 : (2 * ((ell + ellp - 2 * p : ℕ) : ℝ) + 1) ≠ 0 := by positivity
    field_simp
  refine ⟨?_, ?_, hprod, ?_⟩
  · apply List.ext_getElem
    · simp [getCoefficients]
    · intro i h1 h2
      simp only [getCoefficients, List.length_map, List.length_reverse, List.length_range] at h1
      simp only [getCoefficients, List.getElem_map, List.getElem_reverse, List.getElem_range, coeff_eq, List.length_map, List.length_range]
      omega
  · intro qc hqc
    simp only [getCoefficients, List.mem_reverse, List.mem_map, List.mem_range] at hqc
    obtain ⟨p, hp, rfl⟩ := hqc
    rw [coeff_eq]
    have := adams_pos ell ellp p (by omega) (by omega)
    positivity
  · have := hprod 1
    simp only [leg_one, mul_one] at this
    exact this.symm

/-- e.g. `L_2 L_2 = 1/5 + 2/7 L_2 + 18/35 L_4` -/
example : getCoefficients 2 2 = [(0, 1), (2, 2 / 7), (4, 2 / 7)] := by
  simp only [getCoefficients, coeff, G, List.range_succ, List.range_zero, List.nil_append, List.cons_append, List.map_cons,
    List.map_nil, List.reverse_cons, List.reverse_nil, List.foldl_cons, List.foldl_nil, min_self, List.prod_cons, List.prod_nil, Nat.factorial]
  norm_num

/-! ### The kernels -/

variable {n : ℕ}

theorem getD_getElem {α : Type} (l : List α) (d : α) {i : ℕ} (h : i < l.length) : l.getD i d = l[i] := by
  rw [List.getD_eq_getElem?_getD, List.getElem?_eq_getElem h, Option.getD_some]

theorem kernSum_ok (cols : List (Fin n → ℝ)) (l : List (ℕ × ℝ)) :
    (∀ x ∈ l, x.1 / 2 < cols.length) →
      kernSum cols l = .ok (fun i => (l.map (fun x => cols.getD (x.1 / 2) 0 i * x.2)).sum) := by
  induction l with
  | nil => intro _; simp only [kernSum, List.map_nil, List.sum_nil]; rfl
  | cons x l ih =>
    intro h
    have hx := h x List.mem_cons_self
    obtain ⟨q, c⟩ := x
    simp only [kernSum]
    rw [List.getElem?_eq_getElem hx, ih (fun y hy => h y (List.mem_cons_of_mem _ hy))]
    simp only [List.map_cons, List.sum_cons]
    congr 1
    funext i
    rw [getD_getElem _ _ hx]

theorem kernSum_err (cols : List (Fin n → ℝ)) (l : List (ℕ × ℝ)) (x : ℕ × ℝ) (hx : x ∈ l) (h : ¬ x.1 / 2 < cols.length) :
    kernSum cols l = .error .index := by
  induction l with
  | nil => cases hx
  | cons y l ih =>
    obtain ⟨q, c⟩ := y
    simp only [kernSum]
    cases hc : cols[q / 2]? with
    | none => rfl
    | some w =>
      simp only
      rcases List.mem_cons.1 hx with rfl | hx
      · exact absurd (List.getElem?_eq_some_iff.1 hc).1 h
      · rw [ih hx]

theorem kernSum_spl {spl : (Fin n → ℝ) → ℝ → ℝ} (hs : LinearSpline spl) (cols : List (Fin n → ℝ)) (l : List (ℕ × ℝ)) (r : ℝ) :
    spl (fun i => (l.map (fun x => cols.getD (x.1 / 2) 0 i * x.2)).sum) r =
      (l.map (fun x => spl (cols.getD (x.1 / 2) 0) r * x.2)).sum := by
  induction l with
  | nil =>
    simp only [List.map_nil, List.sum_nil]
    have := hs.smul (fun _ => 0) 0 r
    simpa using this
  | cons x l ih =>
    simp only [List.map_cons, List.sum_cons]
    rw [hs.add (fun i => cols.getD (x.1 / 2) 0 i * x.2), ih, hs.smul]

/-- the integral of three Legendre series -/
theorem pole_leg (ell : ℕ) (j : ℕ) (c : List ℝ) (hc : ∀ x ∈ getCoefficients ell j, x.1 % 2 = 0 ∧ x.1 / 2 < c.length) :
    pole ell (fun mu => leg j mu * fromPoles c mu) = ((getCoefficients ell j).map (fun x => c.getD (x.1 / 2) 0 * x.2)).sum := by
  have hcont : ∀ q, Continuous (fun mu => leg q mu * fromPoles c mu) := fun q =>
    (leg_continuous q).mul (continuous_finsetSum _ fun i _ => continuous_const.mul (leg_continuous _))
  have h1 : ∀ q, q % 2 = 0 → q / 2 < c.length → ∫ mu in (-1 : ℝ)..1, leg q mu * fromPoles c mu = c.getD (q / 2) 0 * (2 / (2 * q + 1)) := by
    intro q hq hl
    have e : (fun mu => leg q mu * fromPoles c mu) = fun mu => ∑ i ∈ Finset.range c.length, c.getD i 0 * (leg q mu * leg (2 * i) mu) := by
      funext mu
      rw [fromPoles, Finset.mul_sum]
      exact Finset.sum_congr rfl fun i _ => by ring
    rw [e, intervalIntegral.integral_finsetSum]
    · simp only [intervalIntegral.integral_const_mul]
      have : ∀ i ∈ Finset.range c.length, c.getD i 0 * (∫ mu in (-1 : ℝ)..1, leg q mu * leg (2 * i) mu) =
          if i = q / 2 then c.getD (q / 2) 0 * (2 / (2 * q + 1)) else 0 := by
        intro i _
        have := ip_eq q (2 * i)
        rw [ip] at this
        rw [this]
        by_cases hi : i = q / 2
        · rw [if_pos hi, if_pos (by omega), hi]
        · rw [if_neg hi, if_neg (by omega), mul_zero]
      rw [Finset.sum_congr rfl this, Finset.sum_ite_eq' (Finset.range c.length) (q / 2), if_pos (Finset.mem_range.2 hl)]
    · intro i _
      exact (continuous_const.mul ((leg_continuous q).mul (leg_continuous _))).intervalIntegrable _ _
  have h2 : (fun mu => leg ell mu * (leg j mu * fromPoles c mu)) =
      fun mu => ((getCoefficients ell j).map (fun x => x.2 * ((2 * x.1 + 1) / (2 * ell + 1)) * (leg x.1 mu * fromPoles c mu))).sum := by
    funext mu
    rw [← mul_assoc, (C51_coefficients ell j).2.2.1 mu, ← List.sum_map_mul_right]
    congr 1
    refine List.map_congr_left fun x _ => ?_
    ring
  have h3 : ∀ l : List (ℕ × ℝ), (∀ x ∈ l, x.1 % 2 = 0 ∧ x.1 / 2 < c.length) →
      ∫ mu in (-1 : ℝ)..1, (l.map (fun x => x.2 * ((2 * x.1 + 1) / (2 * ell + 1)) * (leg x.1 mu * fromPoles c mu))).sum =
        (l.map (fun x => c.getD (x.1 / 2) 0 * x.2)).sum * (2 / (2 * ell + 1)) := by
    intro l
    induction l with
    | nil => intro _; simp
    | cons x l ih =>
      intro h
      have hx := h x List.mem_cons_self
      simp only [List.map_cons, List.sum_cons]
      rw [intervalIntegral.integral_add, ih (fun y hy => h y (List.mem_cons_of_mem _ hy)), intervalIntegral.integral_const_mul, h1 _ hx.1 hx.2]
      · have a1 : (2 * (ell : ℝ) + 1) ≠ 0 := by positivity
        have a2 : (2 * (x.1 : ℝ) + 1) ≠ 0 := by positivity
        field_simp
      · exact (continuous_const.mul (hcont _)).intervalIntegrable _ _
      · refine Continuous.intervalIntegrable ?_ _ _
        have : (fun mu => (l.map (fun x => x.2 * ((2 * (x.1 : ℝ) + 1) / (2 * ell + 1)) * (leg x.1 mu * fromPoles c mu))).sum) =
            fun mu => ((l.map (fun x mu => x.2 * ((2 * (x.1 : ℝ) + 1) / (2 * ell + 1)) * (leg x.1 mu * fromPoles c mu))).map (fun f => f mu)).sum := by
          funext mu; rw [List.map_map]; rfl
        rw [this]
        refine continuous_list_sum _ ?_
        intro f hf
        simp only [List.mem_map] at hf
        obtain ⟨y, -, rfl⟩ := hf
        exact continuous_const.mul (hcont _)
  rw [pole, h2, h3 _ hc]
  have a1 : (2 * (ell : ℝ) + 1) ≠ 0 := by positivity
  field_simp

theorem evens_mem (m e : ℕ) : e ∈ evens m ↔ e % 2 = 0 ∧ e ≤ m := by
  simp only [evens, List.mem_map, List.mem_range]
  constructor
  · rintro ⟨i, hi, rfl⟩; omega
  · rintro ⟨h1, h2⟩; exact ⟨e / 2, by omega, by omega⟩

/-- There are enough window multipoles. -/
def Enough (w : Win n) : Prop := w.maxEll / 2 + w.maxEllprime / 2 < w.cols.length

theorem coeffs_ok (w : Win n) (h : Enough w) (ell j : ℕ) (he : ell % 2 = 0) (hl : ell ≤ w.maxEll) (hj : 2 * j ≤ w.maxEllprime) :
    ∀ x ∈ getCoefficients ell (2 * j), x.1 % 2 = 0 ∧ x.1 / 2 < w.cols.length := by
  intro x hx
  have h1 : x.1 ∈ (getCoefficients ell (2 * j)).map Prod.fst := List.mem_map_of_mem hx
  rw [(C51_coefficients ell (2 * j)).1] at h1
  simp only [List.mem_map, List.mem_range] at h1
  obtain ⟨i, hi, h1⟩ := h1
  unfold Enough at h
  omega

/-- the tabulated kernel -/
def kernVal (w : Win n) (ell j : ℕ) : Fin n → ℝ :=
  fun i => ((getCoefficients ell (2 * j)).map (fun x => w.cols.getD (x.1 / 2) 0 i * x.2)).sum

theorem kernRow_ok (w : Win n) (h : Enough w) (ell : ℕ) (he : ell % 2 = 0) (hl : ell ≤ w.maxEll) :
    kernRow w.cols ell (evens w.maxEllprime) = .ok ((List.range (w.maxEllprime / 2 + 1)).map (kernVal w ell)) := by
  have : ∀ js : List ℕ, (∀ j ∈ js, 2 * j ≤ w.maxEllprime) →
      kernRow w.cols ell (js.map (2 * ·)) = .ok (js.map (kernVal w ell)) := by
    intro js
    induction js with
    | nil => intro _; rfl
    | cons j js ih =>
      intro hj
      simp only [List.map_cons, kernRow]
      rw [kernSum_ok _ _ (fun x hx => (coeffs_ok w h ell j he hl (hj j List.mem_cons_self) x hx).2),
        ih (fun y hy => hj y (List.mem_cons_of_mem _ hy))]
      rfl
  exact this _ (fun j hj => by have := List.mem_range.1 hj; omega)

theorem kernRow_err (w : Win n) (h : ¬ Enough w) :
    kernRow w.cols (2 * (w.maxEll / 2)) (evens w.maxEllprime) = .error .index := by
  have : ∀ js : List ℕ, (2 * (w.maxEllprime / 2)) ∈ js →
      kernRow w.cols (2 * (w.maxEll / 2)) js = .error .index := by
    intro js
    induction js with
    | nil => intro hj; cases hj
    | cons j js ih =>
      intro hj
      simp only [kernRow]
      cases hk : kernSum w.cols (getCoefficients (2 * (w.maxEll / 2)) j) with
      | error e =>
        cases e with
        | index => rfl
        | key =>
          exfalso
          revert hk
          generalize getCoefficients (2 * (w.maxEll / 2)) j = l
          by_cases hl : ∀ x ∈ l, x.1 / 2 < w.cols.length
          · rw [kernSum_ok _ _ hl]; exact fun h => by cases h
          · push Not at hl
            obtain ⟨x, hx, hxl⟩ := hl
            rw [kernSum_err _ _ x hx (by omega)]; exact fun h => by cases h
        | shape =>
          exfalso
          revert hk
          generalize getCoefficients (2 * (w.maxEll / 2)) j = l
          by_cases hl : ∀ x ∈ l, x.1 / 2 < w.cols.length
          · rw [kernSum_ok _ _ hl]; exact fun h => by cases h
          · push Not at hl
            obtain ⟨x, hx, hxl⟩ := hl
            rw [kernSum_err _ _ x hx (by omega)]; exact fun h => by cases h
      | ok k =>
        simp only
        rcases List.mem_cons.1 hj with rfl | hj
        · exfalso
          have h1 := (C51_coefficients (2 * (w.maxEll / 2)) (2 * (w.maxEllprime / 2))).1
          have h2 : 2 * (w.maxEll / 2) + 2 * (w.maxEllprime / 2) ∈
              (getCoefficients (2 * (w.maxEll / 2)) (2 * (w.maxEllprime / 2))).map Prod.fst := by
            rw [h1]
            simp only [List.mem_map, List.mem_range]
            exact ⟨min (2 * (w.maxEll / 2)) (2 * (w.maxEllprime / 2)), by omega, by omega⟩
          obtain ⟨x, hx, hx1⟩ := List.mem_map.1 h2
          rw [kernSum_err _ _ x hx (by unfold Enough at h; omega)] at hk
          cases hk
        · rw [ih hj]
  exact this _ ((evens_mem _ _).2 ⟨by omega, by omega⟩)

theorem setup_ok (w : Win n) (h : Enough w) :
    setup w = .ok ((evens w.maxEll).map (fun ell => (ell, (List.range (w.maxEllprime / 2 + 1)).map (kernVal w ell)))) := by
  have : ∀ es : List ℕ, (∀ e ∈ es, e % 2 = 0 ∧ e ≤ w.maxEll) →
      setupLoop w es = .ok (es.map (fun ell => (ell, (List.range (w.maxEllprime / 2 + 1)).map (kernVal w ell)))) := by
    intro es
    induction es with
    | nil => intro _; rfl
    | cons e es ih =>
      intro he
      have h1 := he e List.mem_cons_self
      simp only [setupLoop, List.map_cons]
      rw [kernRow_ok w h e h1.1 h1.2, ih (fun y hy => he y (List.mem_cons_of_mem _ hy))]
  exact this _ (fun e he => (evens_mem _ _).1 he)

theorem setup_err (w : Win n) (h : ¬ Enough w) : ∃ e, setup w = .error e := by
  have : ∀ es : List ℕ, 2 * (w.maxEll / 2) ∈ es → ∃ e, setupLoop w es = .error e := by
    intro es
    induction es with
    | nil => intro he; cases he
    | cons e es ih =>
      intro he
      simp only [setupLoop]
      rcases List.mem_cons.1 he with rfl | he
      · rw [kernRow_err w h]; exact ⟨_, rfl⟩
      · obtain ⟨e', he'⟩ := ih he
        cases kernRow w.cols e (evens w.maxEllprime) with
        | error e => exact ⟨_, rfl⟩
        | ok row => simp only; rw [he']; exact ⟨_, rfl⟩
  exact this _ ((evens_mem _ _).2 ⟨by omega, by omega⟩)

theorem lookup_map {B : Type} (f : ℕ → B) (es : List ℕ) (e : ℕ) :
    (es.map (fun x => (x, f x))).lookup e = if e ∈ es then some (f e) else none := by
  induction es with
  | nil => simp
  | cons x es ih =>
    simp only [List.map_cons, List.lookup_cons]
    by_cases h : e = x
    · subst h; simp
    · have : (e == x) = false := by simpa using h
      rw [this]; simp only [ih, List.mem_cons, h, false_or]

/-- the kernel at one separation -/
def kernAt (w : Win n) (spl : (Fin n → ℝ) → ℝ → ℝ) (ell : ℕ) (r : ℝ) : List ℝ :=
  open Classical in
  (List.range (w.maxEllprime / 2 + 1)).map (fun j =>
    if w.smin ≤ r ∧ r ≤ w.smax then spl (kernVal w ell j) r else if j = ell / 2 then 1 else 0)

theorem getKernel_ok (w : Win n) (h : Enough w) (spl : (Fin n → ℝ) → ℝ → ℝ) (ell : ℕ) (r : ℝ) :
    getKernel w spl ((evens w.maxEll).map (fun ell => (ell, (List.range (w.maxEllprime / 2 + 1)).map (kernVal w ell)))) ell r =
      if ell % 2 = 0 ∧ ell ≤ w.maxEll then .ok (kernAt w spl ell r) else .error .key := by
  simp only [getKernel]
  rw [lookup_map]
  by_cases he : ell % 2 = 0 ∧ ell ≤ w.maxEll
  · rw [if_pos he, if_pos ((evens_mem _ _).2 he)]
    simp only [kernAt]
    by_cases hr : w.smin ≤ r ∧ r ≤ w.smax
    · rw [if_pos hr]; simp only [hr, and_self, if_true, List.map_map]; rfl
    · simp only [hr, if_false]
      congr 1
      apply List.ext_getElem
      · simp
      · intro i h1 h2; simp
  · rw [if_neg he, if_neg (fun h => he ((evens_mem _ _).1 h))]

theorem callLoop_eq (w : Win n) (h : Enough w) (spl : (Fin n → ℝ) → ℝ → ℝ) (r : ℝ) (ells : List ℕ) (xi out : List ℝ)
    (he : callLoop w spl ((evens w.maxEll).map (fun ell => (ell, (List.range (w.maxEllprime / 2 + 1)).map (kernVal w ell)))) r ells xi = .ok out) :
    (∀ ell ∈ ells, ell % 2 = 0 ∧ ell ≤ w.maxEll) ∧ (ells ≠ [] → w.maxEllprime / 2 + 1 ≤ xi.length) ∧
    out = ells.map (fun ell => dot (xi.take (w.maxEllprime / 2 + 1)) (kernAt w spl ell r)) := by
  induction ells generalizing xi out with
  | nil => simp only [callLoop, Except.ok.injEq] at he; subst he; simp
  | cons ell ells ih =>
    simp only [callLoop, getKernel_ok w h] at he
    have hlen : (kernAt w spl ell r).length = w.maxEllprime / 2 + 1 := by simp [kernAt]
    by_cases hel : ell % 2 = 0 ∧ ell ≤ w.maxEll
    · simp only [if_pos hel, hlen] at he
      by_cases hx : w.maxEllprime / 2 + 1 = xi.length
      · rw [if_neg (not_not.2 hx)] at he
        split at he
        · cases he
        next o ho =>
          obtain ⟨a, b, c⟩ := ih xi o ho
          simp only [Except.ok.injEq] at he
          subst he
          refine ⟨fun e hm => ?_, fun _ => hx.le, ?_⟩
          · rcases List.mem_cons.1 hm with rfl | hm
            · exact hel
            · exact a e hm
          · rw [c, List.map_cons, List.take_of_length_le hx.ge]
      · simp only [ne_eq, hx, not_false_eq_true, if_true] at he
        split at he
        next hgt =>
          split at he
          · cases he
          next o ho =>
            obtain ⟨a, b, c⟩ := ih _ o ho
            simp only [Except.ok.injEq] at he
            subst he
            refine ⟨fun e hm => ?_, fun _ => hgt.le, ?_⟩
            · rcases List.mem_cons.1 hm with rfl | hm
              · exact hel
              · exact a e hm
            · rw [c, List.map_cons, List.take_take, min_self]
        · cases he
    · simp only [if_neg hel] at he
      cases he

theorem callLoop_accepts (w : Win n) (h : Enough w) (spl : (Fin n → ℝ) → ℝ → ℝ) (r : ℝ) (ells : List ℕ) (xi : List ℝ)
    (h1 : ∀ ell ∈ ells, ell % 2 = 0 ∧ ell ≤ w.maxEll) (h2 : ells ≠ [] → w.maxEllprime / 2 + 1 ≤ xi.length) :
    ∃ out, callLoop w spl ((evens w.maxEll).map (fun ell => (ell, (List.range (w.maxEllprime / 2 + 1)).map (kernVal w ell)))) r ells xi = .ok out := by
  induction ells generalizing xi with
  | nil => exact ⟨[], rfl⟩
  | cons ell ells ih =>
    simp only [callLoop, getKernel_ok w h]
    have hlen : (kernAt w spl ell r).length = w.maxEllprime / 2 + 1 := by simp [kernAt]
    have hx := h2 (by simp)
    simp only [if_pos (h1 ell List.mem_cons_self), hlen]
    have h1' : ∀ e ∈ ells, e % 2 = 0 ∧ e ≤ w.maxEll := fun e he => h1 e (List.mem_cons_of_mem _ he)
    by_cases hxe : w.maxEllprime / 2 + 1 = xi.length
    · obtain ⟨o, ho⟩ := ih xi h1' (fun _ => hx)
      rw [if_neg (not_not.2 hxe), ho]
      exact ⟨_, rfl⟩
    · obtain ⟨o, ho⟩ := ih (xi.take (w.maxEllprime / 2 + 1)) h1' (fun _ => by simp [hx])
      simp only [ne_eq, hxe, not_false_eq_true, if_true]
      rw [if_pos (by omega), ho]
      exact ⟨_, rfl⟩

/-- C51: the convolution is accepted exactly if the window has at least `max_ell/2 + max_ellprime/2 + 1` multipoles, the multipoles
asked for are even and at most `max_ell`, and at least `max_ellprime/2 + 1` multipoles are given. -/
theorem C51_accepts (w : Win n) (spl : (Fin n → ℝ) → ℝ → ℝ) (ells : List ℕ) (r : ℝ) (xi : List ℝ) :
    (∃ out, convolve w spl ells r xi = .ok out) ↔
      w.maxEll / 2 + w.maxEllprime / 2 < w.cols.length ∧ (∀ ell ∈ ells, ell % 2 = 0 ∧ ell ≤ w.maxEll) ∧
        (ells ≠ [] → w.maxEllprime / 2 + 1 ≤ xi.length) := by
  simp only [convolve]
  by_cases h : Enough w
  · rw [setup_ok w h]
    constructor
    · rintro ⟨out, he⟩
      obtain ⟨a, b, c⟩ := callLoop_eq w h spl r ells xi out he
      exact ⟨h, a, b⟩
    · rintro ⟨-, a, b⟩
      exact callLoop_accepts w h spl r ells xi a b
  · obtain ⟨e, he⟩ := setup_err w h
    rw [he]
    constructor
    · rintro ⟨out, ho⟩; cases ho
    · rintro ⟨h', -⟩; exact absurd h' h

theorem dot_range (N : ℕ) (xi : List ℝ) (f : ℕ → ℝ) (h : xi.length = N) :
    dot xi ((List.range N).map f) = ∑ j ∈ Finset.range N, xi.getD j 0 * f j := by
  induction xi generalizing N f with
  | nil => simp only [List.length_nil] at h; subst h; simp [dot]
  | cons x xi ih =>
    simp only [List.length_cons] at h
    subst h
    rw [List.range_succ_eq_map, Finset.sum_range_succ', List.map_cons, List.map_map]
    have := ih xi.length (f ∘ Nat.succ) rfl
    simp only [dot, List.zipWith_cons_cons, List.sum_cons] at this ⊢
    rw [this]
    simp only [List.getD_cons_succ, List.getD_cons_zero, Function.comp, Nat.succ_eq_add_one]
    ring

theorem convolve_eq (w : Win n) (spl : (Fin n → ℝ) → ℝ → ℝ) (ells : List ℕ) (r : ℝ) (xi out : List ℝ)
    (he : convolve w spl ells r xi = .ok out) :
    Enough w ∧ (∀ ell ∈ ells, ell % 2 = 0 ∧ ell ≤ w.maxEll) ∧ (ells ≠ [] → w.maxEllprime / 2 + 1 ≤ xi.length) ∧
    out = ells.map (fun ell => dot (xi.take (w.maxEllprime / 2 + 1)) (kernAt w spl ell r)) := by
  simp only [convolve] at he
  by_cases h : Enough w
  · rw [setup_ok w h] at he
    exact ⟨h, callLoop_eq w h spl r ells xi out he⟩
  · obtain ⟨e, he'⟩ := setup_err w h
    rw [he'] at he
    cases he

/-- C51: inside the tabulated range, the convolved multipole `ell` is the multipole `ell` of the product of the correlation function with
the given multipoles (those up to `max_ellprime`) and the window with the interpolated multipoles. -/
theorem C51_convolution (w : Win n) {spl : (Fin n → ℝ) → ℝ → ℝ} (hs : LinearSpline spl) (ells : List ℕ) (r : ℝ) (xi out : List ℝ)
    (hr : w.smin ≤ r ∧ r ≤ w.smax) (he : convolve w spl ells r xi = .ok out) :
    out = ells.map (fun ell => pole ell (fun mu => fromPoles (xi.take (w.maxEllprime / 2 + 1)) mu * fromPoles (winAt w spl r) mu)) := by
  obtain ⟨h, h1, h2, h3⟩ := convolve_eq w spl ells r xi out he
  rw [h3]
  refine List.map_congr_left fun ell hel => ?_
  have hlen : (xi.take (w.maxEllprime / 2 + 1)).length = w.maxEllprime / 2 + 1 := by
    rw [List.length_take]; exact min_eq_left (h2 (List.ne_nil_of_mem hel))
  rw [kernAt, dot_range _ _ _ hlen]
  generalize hxi : xi.take (w.maxEllprime / 2 + 1) = x at hlen
  have hd : ∀ c, Continuous (fromPoles c) := fun c => continuous_finsetSum _ fun i _ => continuous_const.mul (leg_continuous _)
  have e1 : (fun mu => leg ell mu * (fromPoles x mu * fromPoles (winAt w spl r) mu)) =
      fun mu => ∑ j ∈ Finset.range (w.maxEllprime / 2 + 1), x.getD j 0 * (leg ell mu * (leg (2 * j) mu * fromPoles (winAt w spl r) mu)) := by
    funext mu
    rw [fromPoles, hlen, Finset.sum_mul, Finset.mul_sum]
    exact Finset.sum_congr rfl fun j _ => by ring
  rw [pole, e1, intervalIntegral.integral_finsetSum]
  · rw [Finset.mul_sum]
    refine Finset.sum_congr rfl fun j hj => ?_
    have hj : j < w.maxEllprime / 2 + 1 := Finset.mem_range.1 hj
    rw [if_pos hr, intervalIntegral.integral_const_mul]
    have hc := coeffs_ok w h ell j (h1 ell hel).1 (h1 ell hel).2 (by omega)
    have hp := pole_leg ell (2 * j) (winAt w spl r) (fun x hx => by simpa [winAt] using hc x hx)
    rw [pole] at hp
    have hk : spl (kernVal w ell j) r = ((getCoefficients ell (2 * j)).map (fun x => (winAt w spl r).getD (x.1 / 2) 0 * x.2)).sum := by
      unfold kernVal; rw [kernSum_spl hs]
      congr 1
      refine List.map_congr_left fun y hy => ?_
      have hy := (hc y hy).2
      rw [getD_getElem _ _ hy, getD_getElem _ _ (by simpa [winAt] using hy)]
      simp [winAt]
    rw [hk, ← hp]
    ring
  · intro j _
    exact (continuous_const.mul ((leg_continuous ell).mul ((leg_continuous _).mul (hd _)))).intervalIntegrable _ _

/-- C51: the convolution is linear in the multipoles. -/
theorem C51_linear (w : Win n) (spl : (Fin n → ℝ) → ℝ → ℝ) (ells : List ℕ) (r a b : ℝ) (N : ℕ) (f g : ℕ → ℝ) (o₁ o₂ : List ℝ)
    (h1 : convolve w spl ells r ((List.range N).map f) = .ok o₁) (h2 : convolve w spl ells r ((List.range N).map g) = .ok o₂) :
    convolve w spl ells r ((List.range N).map (fun j => a * f j + b * g j)) = .ok (List.zipWith (fun u v => a * u + b * v) o₁ o₂) := by
  have acc : ∃ o, convolve w spl ells r ((List.range N).map (fun j => a * f j + b * g j)) = .ok o := by
    rw [C51_accepts]
    have := (C51_accepts w spl ells r ((List.range N).map f)).1 ⟨_, h1⟩
    simpa using this
  obtain ⟨o, ho⟩ := acc
  obtain ⟨-, -, hl, e1⟩ := convolve_eq w spl ells r _ _ h1
  obtain ⟨-, -, -, e2⟩ := convolve_eq w spl ells r _ _ h2
  obtain ⟨-, -, -, e3⟩ := convolve_eq w spl ells r _ _ ho
  rw [ho]
  congr 1
  rw [e1, e2, e3, List.zipWith_map, List.zipWith_self]
  refine List.map_congr_left fun ell hel => ?_
  have hl := hl (List.ne_nil_of_mem hel)
  simp only [List.length_map, List.length_range] at hl
  generalize w.maxEllprime / 2 + 1 = M at hl
  have hd : ∀ f : ℕ → ℝ, dot (((List.range N).map f).take M) (kernAt w spl ell r) =
      ((List.range M).map (fun j => f j * (kernAt w spl ell r).getD j 0)).sum := by
    intro f
    have : (kernAt w spl ell r) = (kernAt w spl ell r) := rfl
    rw [← List.map_take, List.take_range, min_eq_left hl]
    generalize kernAt w spl ell r = ker
    clear hl
    induction M generalizing f ker with
    | zero => simp [dot]
    | succ M ih =>
      rw [List.range_succ_eq_map]
      cases ker with
      | nil => simp [dot, Function.comp_def]
      | cons k ker =>
        have := ih (f ∘ Nat.succ) ker
        simp only [dot] at this ⊢
        simp only [List.map_cons, List.map_map, List.zipWith_cons_cons, List.sum_cons]
        rw [this]
        simp [Function.comp_def]
  rw [hd, hd, hd, ← List.sum_map_mul_left, ← List.sum_map_mul_left, ← List.sum_map_add]
  congr 1
  refine List.map_congr_left fun j _ => ?_
  ring

/-! ### C50 -/

/-- The window has no effect at the separation `r`: `r` is outside the tabulated range, or the window multipoles are `1, 0, 0, ...`. -/
def NoWindow (w : Win n) (r : ℝ) : Prop :=
  ¬ (w.smin ≤ r ∧ r ≤ w.smax) ∨ ∃ m, w.cols = (fun _ => 1) :: List.replicate m (fun _ => 0)

theorem fromPoles_trivial (m : ℕ) (mu : ℝ) : fromPoles (1 :: List.replicate m 0) mu = 1 := by
  simp only [fromPoles, List.length_cons, List.length_replicate]
  rw [Finset.sum_range_succ', Finset.sum_eq_zero]
  · simp [leg]
  · intro j hj
    have hj := Finset.mem_range.1 hj
    simp [List.getD_cons_succ, List.getD_eq_getElem?_getD, hj]

theorem pole_fromPoles (ell : ℕ) (he : ell % 2 = 0) (c : List ℝ) :
    pole ell (fun mu => fromPoles c mu * 1) = if ell / 2 < c.length then c.getD (ell / 2) 0 else 0 := by
  have e : (fun mu => leg ell mu * (fromPoles c mu * 1)) = fun mu => ∑ i ∈ Finset.range c.length, c.getD i 0 * (leg ell mu * leg (2 * i) mu) := by
    funext mu
    rw [fromPoles, mul_one, Finset.mul_sum]
    exact Finset.sum_congr rfl fun i _ => by ring
  rw [pole, e, intervalIntegral.integral_finsetSum]
  · simp only [intervalIntegral.integral_const_mul]
    have : ∀ i ∈ Finset.range c.length, c.getD i 0 * (∫ mu in (-1 : ℝ)..1, leg ell mu * leg (2 * i) mu) =
        if i = ell / 2 then c.getD (ell / 2) 0 * (2 / (2 * ell + 1)) else 0 := by
      intro i _
      have := ip_eq ell (2 * i)
      rw [ip] at this
      rw [this]
      by_cases hi : i = ell / 2
      · rw [if_pos hi, if_pos (by omega), hi]
      · rw [if_neg hi, if_neg (by omega), mul_zero]
    rw [Finset.sum_congr rfl this, Finset.sum_ite_eq' (Finset.range c.length) (ell / 2)]
    have a1 : (2 * (ell : ℝ) + 1) ≠ 0 := by positivity
    by_cases hl : ell / 2 < c.length
    · rw [if_pos (Finset.mem_range.2 hl), if_pos hl]; field_simp
    · rw [if_neg (fun h => hl (Finset.mem_range.1 h)), if_neg hl, mul_zero]
  · intro i _
    exact (continuous_const.mul ((leg_continuous ell).mul (leg_continuous _))).intervalIntegrable _ _

/-- C50, exact form: without a window, the result for `ell ≤ max_ellprime` is the column `ell/2` of the given multipoles, and 0 for the
higher ones. -/
theorem C50_identity (w : Win n) {spl : (Fin n → ℝ) → ℝ → ℝ} (hs : LinearSpline spl) (hc : ∀ r, spl (fun _ => 1) r = 1)
    (ells : List ℕ) (r : ℝ) (xi out : List ℝ) (ht : NoWindow w r) (he : convolve w spl ells r xi = .ok out) :
    out = ells.map (fun ell => if ell ≤ w.maxEllprime then xi.getD (ell / 2) 0 else 0) := by
  obtain ⟨h, h1, h2, h3⟩ := convolve_eq w spl ells r xi out he
  have hget : ∀ ell, ell / 2 < w.maxEllprime / 2 + 1 → (xi.take (w.maxEllprime / 2 + 1)).getD (ell / 2) 0 = xi.getD (ell / 2) 0 := by
    intro ell hl
    simp only [List.getD_eq_getElem?_getD, List.getElem?_take, if_pos hl]
  by_cases hr : w.smin ≤ r ∧ r ≤ w.smax
  · rcases ht with ht | ⟨m, hm⟩
    · exact absurd hr ht
    · rw [C51_convolution w hs ells r xi out hr he]
      refine List.map_congr_left fun ell hel => ?_
      have hw : winAt w spl r = 1 :: List.replicate m 0 := by
        have h0 : spl (fun _ => 0) r = 0 := by have := hs.smul (fun _ => 0) 0 r; simpa using this
        rw [winAt, hm, List.map_cons, hc, List.map_replicate, h0]
      simp only [hw, fromPoles_trivial]
      rw [pole_fromPoles ell (h1 ell hel).1]
      have hlen : (xi.take (w.maxEllprime / 2 + 1)).length = w.maxEllprime / 2 + 1 := by
        rw [List.length_take]; exact min_eq_left (h2 (List.ne_nil_of_mem hel))
      have hel2 := (h1 ell hel).1
      by_cases hl : ell ≤ w.maxEllprime
      · rw [if_pos hl, hlen, if_pos (by omega), hget ell (by omega)]
      · rw [if_neg hl, hlen, if_neg (by omega)]
  · rw [h3]
    refine List.map_congr_left fun ell hel => ?_
    have hlen : (xi.take (w.maxEllprime / 2 + 1)).length = w.maxEllprime / 2 + 1 := by
      rw [List.length_take]; exact min_eq_left (h2 (List.ne_nil_of_mem hel))
    have hel2 := (h1 ell hel).1
    rw [kernAt, dot_range _ _ _ hlen]
    simp only [if_neg hr, mul_ite, mul_one, mul_zero]
    rw [Finset.sum_ite_eq' (Finset.range (w.maxEllprime / 2 + 1)) (ell / 2)]
    by_cases hl : ell ≤ w.maxEllprime
    · rw [if_pos hl, if_pos (Finset.mem_range.2 (by omega)), hget ell (by omega)]
    · rw [if_neg hl, if_neg (fun h => hl (by have := Finset.mem_range.1 h; omega))]

/-- C50 for the multipoles `0, 2, ..., max_ellprime` given and asked for in this order: without a window, they are returned unchanged. -/
theorem C50_partial (w : Win n) {spl : (Fin n → ℝ) → ℝ → ℝ} (hs : LinearSpline spl) (hc : ∀ r, spl (fun _ => 1) r = 1)
    (r : ℝ) (xi : List ℝ) (hx : xi.length = w.maxEllprime / 2 + 1) (hl : w.maxEllprime ≤ w.maxEll)
    (hcol : w.maxEll / 2 + w.maxEllprime / 2 < w.cols.length) (ht : NoWindow w r) :
    convolve w spl (evens w.maxEllprime) r xi = .ok xi := by
  obtain ⟨out, ho⟩ := (C51_accepts w spl (evens w.maxEllprime) r xi).2
    ⟨hcol, fun e he => by have := (evens_mem _ _).1 he; omega, fun _ => hx.ge⟩
  rw [ho, C50_identity w hs hc _ r xi out ht ho]
  congr 1
  apply List.ext_getElem
  · simp [evens, hx]
  · intro i h1 h2
    simp only [evens, List.getElem_map, List.getElem_range]
    rw [if_pos (by simp [evens] at h1; omega), show 2 * i / 2 = i by omega, getD_getElem _ _ h2]

/-! ### Examples and counterexamples -/

/-- two separations and straight lines between them -/
def line (f : Fin 2 → ℝ) (r : ℝ) : ℝ := f 0 + (f 1 - f 0) * r

theorem line_linear : LinearSpline line :=
  ⟨fun f g r => by simp only [line]; ring, fun f c r => by simp only [line]; ring⟩

theorem line_const (r : ℝ) : line (fun _ => 1) r = 1 := by simp [line]

/-- a window that is 1 -/
def trivialWin (maxEllprime maxEll : ℕ) : Win 2 :=
  { s := ![0, 1], smin := 0, smax := 1, cols := (fun _ => 1) :: List.replicate 6 (fun _ => 0), maxEllprime, maxEll }

/-- the hypotheses of `C50_partial` are met inside the range ... -/
example : convolve (trivialWin 4 4) line [0, 2, 4] (1 / 2) [10, 20, 30] = .ok [10, 20, 30] :=
  C50_partial (trivialWin 4 4) line_linear line_const (1 / 2) [10, 20, 30] (by simp [trivialWin]) (by simp [trivialWin])
    (by simp [trivialWin]) (Or.inr ⟨6, rfl⟩)

/-- ... and outside of it -/
example : convolve { trivialWin 4 4 with cols := List.replicate 5 ![3, 4] } line [0, 2, 4] 7 [10, 20, 30] = .ok [10, 20, 30] :=
  C50_partial { trivialWin 4 4 with cols := List.replicate 5 ![3, 4] } line_linear line_const 7 [10, 20, 30] (by simp [trivialWin])
    (by simp [trivialWin]) (by simp [trivialWin]) (Or.inl (by simp [trivialWin]))

/-- a window that is not trivial: the hypotheses of `C51_convolution` are met -/
example : ∃ out, convolve { trivialWin 4 4 with cols := List.replicate 5 ![3, 4] } line [0, 2, 4] (1 / 2) [10, 20, 30] = .ok out ∧
    out = [0, 2, 4].map (fun ell => pole ell (fun mu => fromPoles [10, 20, 30] mu *
      fromPoles (List.replicate 5 (line ![3, 4] (1 / 2))) mu)) := by
  obtain ⟨out, ho⟩ := (C51_accepts { trivialWin 4 4 with cols := List.replicate 5 ![3, 4] } line [0, 2, 4] (1 / 2) [10, 20, 30]).2
    (by simp [trivialWin])
  refine ⟨out, ho, ?_⟩
  rw [C51_convolution _ line_linear _ _ _ out (by simp [trivialWin]; norm_num) ho]
  simp [winAt, trivialWin]

/-- C50 fails above `max_ellprime`: with the default `max_ellprime = 4` and `ells = [0, 2, 4, 6]` (accepted without complaint), a window that
is identically 1 deletes the multipole 6. -/
theorem C50_high_counterexample (a b c d : ℝ) :
    convolve (trivialWin 4 6) line [0, 2, 4, 6] (1 / 2) [a, b, c, d] = .ok [a, b, c, 0] := by
  obtain ⟨out, ho⟩ := (C51_accepts (trivialWin 4 6) line [0, 2, 4, 6] (1 / 2) [a, b, c, d]).2 (by simp [trivialWin])
  rw [ho, C50_identity (trivialWin 4 6) line_linear line_const _ _ _ out (Or.inr ⟨6, rfl⟩) ho]
  simp [trivialWin]

/-- C50 fails for multipoles in another order: column `j` of the input is taken to be the multipole `2j` whatever `ells` is, so with a
window that is identically 1 and `ells = [4, 2, 0]` the first and last multipole are exchanged. -/
theorem C50_order_counterexample (a b c : ℝ) :
    convolve (trivialWin 4 4) line [4, 2, 0] (1 / 2) [a, b, c] = .ok [c, b, a] := by
  obtain ⟨out, ho⟩ := (C51_accepts (trivialWin 4 4) line [4, 2, 0] (1 / 2) [a, b, c]).2 (by simp [trivialWin])
  rw [ho, C50_identity (trivialWin 4 4) line_linear line_const _ _ _ out (Or.inr ⟨6, rfl⟩) ho]
  simp [trivialWin]

end

end Verif.Window
