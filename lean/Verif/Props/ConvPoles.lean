/-
C150: convolving the multipoles of a power spectrum with a window.
-/
import Verif.Model.ConvPoles
import Verif.Spec.ConvPoles
import Verif.Props.Xi
import Mathlib.Data.List.GetD

namespace Verif.ConvPoles

open Verif.Window Verif.Xi Verif.FFTLog

noncomputable section

variable {n : ℕ}

/-! ### the transforms -/

theorem bessel_ok {ell : ℕ} (h : ell ∈ [0, 2, 4, 6]) : ∃ f, bessel ell = some f := by
  simp only [List.mem_cons, List.not_mem_nil, or_false] at h
  rcases h with rfl | rfl | rfl | rfl <;> exact ⟨_, rfl⟩

theorem trapz_eq (N : ℕ) (x y : ℕ → ℝ) : Quad.trapz N x y = trapezoid N x y := by
  unfold Quad.trapz trapezoid
  exact Finset.sum_congr rfl fun i _ => by ring

theorem trapezoid_smul (N : ℕ) (x y : ℕ → ℝ) (c : ℝ) : trapezoid N x (fun j => c*y j) = c*trapezoid N x y := by
  unfold trapezoid
  rw [Finset.mul_sum]
  exact Finset.sum_congr rfl fun i _ => by ring

theorem trapezoid_lin (N : ℕ) (x y z : ℕ → ℝ) (a b : ℝ) : trapezoid N x (fun j => a*y j + b*z j) = a*trapezoid N x y + b*trapezoid N x z := by
  unfold trapezoid
  rw [Finset.mul_sum, Finset.mul_sum, ← Finset.sum_add_distrib]
  exact Finset.sum_congr rfl fun i _ => by ring

theorem trapezoid_congr {N : ℕ} (x : ℕ → ℝ) {y z : ℕ → ℝ} (h : ∀ j, j < N → y j = z j) : trapezoid N x y = trapezoid N x z := by
  unfold trapezoid
  refine Finset.sum_congr rfl fun i hi => ?_
  have := Finset.mem_range.1 hi
  rw [h i (by omega), h (i+1) (by omega)]

/-- the transform to the correlation function, as a number -/
def forth (ell N : ℕ) (q P : ℕ → ℝ) (s : ℝ) : ℝ := (pkToXi .trapz ell N q P s 0).getD 0

/-- the transform back, as a number -/
def back (ell : ℕ) (w : Win n) (xi : Fin n → ℝ) (k : ℝ) : ℝ := (xiToPk .trapz ell n (arr w.s) (arr xi) k 0).getD 0

theorem forth_some {ell : ℕ} (h : ell ∈ [0, 2, 4, 6]) (N : ℕ) (q P : ℕ → ℝ) (s : ℝ) : pkToXi .trapz ell N q P s 0 = some (forth ell N q P s) := by
  obtain ⟨f, hf⟩ := bessel_ok h
  unfold forth pkToXi Xi.xiLM
  rw [hf]
  rfl

theorem back_some {ell : ℕ} (h : ell ∈ [0, 2, 4, 6]) (w : Win n) (xi : Fin n → ℝ) (k : ℝ) : xiToPk .trapz ell n (arr w.s) (arr xi) k 0 = some (back ell w xi k) := by
  obtain ⟨f, hf⟩ := bessel_ok h
  unfold back xiToPk Xi.xiLM
  rw [hf]
  rfl

theorem forth_lin {ell : ℕ} (h : ell ∈ [0, 2, 4, 6]) (N : ℕ) (q P Q : ℕ → ℝ) (a b s : ℝ) :
    forth ell N q (fun j => a*P j + b*Q j) s = a*forth ell N q P s + b*forth ell N q Q s := by
  obtain ⟨f, hf⟩ := bessel_ok h
  unfold forth pkToXi Xi.xiLM
  rw [hf]
  simp only [Option.map_some, Option.getD_some, Method.integrate, trapz_eq]
  rw [show (fun j => Real.exp (-(q j*0)^2) * (a*P j + b*Q j) * (q j)^2/(2*Real.pi*Real.pi) * f (q j*s)) =
    fun j => a*(Real.exp (-(q j*0)^2) * P j * (q j)^2/(2*Real.pi*Real.pi) * f (q j*s)) + b*(Real.exp (-(q j*0)^2) * Q j * (q j)^2/(2*Real.pi*Real.pi) * f (q j*s)) from by
      funext j; ring, trapezoid_lin]
  ring

theorem arr_lin (f g : Fin n → ℝ) (a b : ℝ) (j : ℕ) : arr (fun i => a*f i + b*g i) j = a*arr f j + b*arr g j := by
  unfold arr
  split
  · rfl
  · ring

theorem back_lin {ell : ℕ} (h : ell ∈ [0, 2, 4, 6]) (w : Win n) (x y : Fin n → ℝ) (a b k : ℝ) :
    back ell w (fun i => a*x i + b*y i) k = a*back ell w x k + b*back ell w y k := by
  obtain ⟨f, hf⟩ := bessel_ok h
  unfold back xiToPk Xi.xiLM
  rw [hf]
  simp only [Option.map_some, Option.getD_some, Method.integrate, trapz_eq, arr_lin]
  generalize arr w.s = q
  rw [show (fun j => Real.exp (-(q j*0)^2) * (a*arr x j + b*arr y j) * (q j)^2/(2*Real.pi*Real.pi) * f (q j*k)) =
    fun j => a*(Real.exp (-(q j*0)^2) * arr x j * (q j)^2/(2*Real.pi*Real.pi) * f (q j*k)) + b*(Real.exp (-(q j*0)^2) * arr y j * (q j)^2/(2*Real.pi*Real.pi) * f (q j*k)) from by
      funext j; ring, trapezoid_lin]
  ring

/-- the transform of the code is the spherical transform -/
theorem forth_eq {ell : ℕ} (h : ell ∈ [0, 2, 4, 6]) {N : ℕ} (q P : ℕ → ℝ) {s : ℝ} (hq : ∀ j, j < N → 1/10^4 ≤ |q j*s|) : forth ell N q P s = toXi ell N q P s := by
  obtain ⟨f, hf⟩ := bessel_ok h
  unfold forth pkToXi Xi.xiLM toXi
  rw [hf]
  simp only [Option.map_some, Option.getD_some, Method.integrate, trapz_eq]
  congr 1
  refine trapezoid_congr q fun j hj => ?_
  rw [(C110_bessel hf (q j*s)).1 (hq j hj), mul_zero, zero_pow (by norm_num), neg_zero, Real.exp_zero]
  ring

theorem back_eq {ell : ℕ} (h : ell ∈ [0, 2, 4, 6]) (w : Win n) (xi : Fin n → ℝ) {k : ℝ} (hq : ∀ a, 1/10^4 ≤ |w.s a*k|) : back ell w xi k = toPk ell n (arr w.s) (arr xi) k := by
  obtain ⟨f, hf⟩ := bessel_ok h
  unfold back xiToPk Xi.xiLM toPk
  rw [hf]
  simp only [Option.map_some, Option.getD_some, Method.integrate, trapz_eq]
  rw [mul_assoc, ← trapezoid_smul]
  congr 1
  refine trapezoid_congr _ fun j hj => ?_
  have hs : arr w.s j = w.s ⟨j, hj⟩ := by unfold arr; rw [dif_pos hj]
  rw [(C110_bessel hf (arr w.s j*k)).1 (by rw [hs]; exact hq _), mul_zero, zero_pow (by norm_num), neg_zero, Real.exp_zero]
  have := Real.pi_ne_zero
  field_simp
  ring

/-! ### the steps -/

theorem zipIdx_range {α β : Type} (l : List α) (d : α) (f : α × ℕ → β) : l.zipIdx.map f = (List.range l.length).map fun i => f (l.getD i d, i) := by
  apply List.ext_getElem
  · simp
  · intro i h1 h2
    simp only [List.length_map, List.length_zipIdx] at h1
    simp only [List.getElem_map, List.getElem_zipIdx, List.getElem_range, Nat.zero_add]
    rw [List.getD_eq_getElem l d h1]

variable (cs : (m : ℕ) → (ℕ → ℝ) → (ℕ → ℝ) → ℝ → ℝ) (Nk : ℕ) (k : ℕ → ℝ)

/-- column `i` of `xi` at `s` -/
def xiAt (P : ℕ → ℕ → ℝ) (ells : List ℕ) (s : ℝ) (i : ℕ) : ℝ := forth (ells.getD i 0) (fineN Nk) (fineK Nk k) (fineP cs Nk k P i) s

theorem xiRow_ok (P : ℕ → ℕ → ℝ) (s : ℝ) (l : List (ℕ × ℕ)) (h : ∀ p ∈ l, p.1 ∈ [0, 2, 4, 6]) :
    xiRow cs Nk k P s l = .ok (l.map fun p => forth p.1 (fineN Nk) (fineK Nk k) (fineP cs Nk k P p.2) s) := by
  induction l with
  | nil => rfl
  | cons p l ih =>
    obtain ⟨ell, i⟩ := p
    rw [xiRow, forth_some (h (ell, i) List.mem_cons_self), ih fun p hp => h p (List.mem_cons_of_mem _ hp)]
    rfl

theorem zipIdx_orders {ells : List ℕ} (h : ∀ ell ∈ ells, ell ∈ [0, 2, 4, 6]) : ∀ p ∈ ells.zipIdx, p.1 ∈ [0, 2, 4, 6] :=
  fun _ hp => h _ (List.fst_mem_of_mem_zipIdx hp)

theorem xiRow_eq (P : ℕ → ℕ → ℝ) (s : ℝ) {ells : List ℕ} (h : ∀ ell ∈ ells, ell ∈ [0, 2, 4, 6]) :
    xiRow cs Nk k P s ells.zipIdx = .ok ((List.range ells.length).map (xiAt cs Nk k P ells s)) := by
  rw [xiRow_ok cs Nk k P s _ (zipIdx_orders h), zipIdx_range _ 0]
  rfl

theorem convRow_dry (P : ℕ → ℕ → ℝ) {ells : List ℕ} (h : ∀ ell ∈ ells, ell ∈ [0, 2, 4, 6]) (w : Win n) (spl : (Fin n → ℝ) → ℝ → ℝ) (s : ℝ) :
    convRow cs Nk k P ells w spl true s = .ok ((List.range ells.length).map (xiAt cs Nk k P ells s)) := by
  rw [convRow, xiRow_eq cs Nk k P s h]
  rfl

theorem convRow_window (P : ℕ → ℕ → ℝ) {ells : List ℕ} (h : ∀ ell ∈ ells, ell ∈ [0, 2, 4, 6]) (w : Win n) (spl : (Fin n → ℝ) → ℝ → ℝ) (s : ℝ) (out : List ℝ) :
    convRow cs Nk k P ells w spl false s = .ok out ↔ convolve w spl ells s ((List.range ells.length).map (xiAt cs Nk k P ells s)) = .ok out := by
  rw [convRow, xiRow_eq cs Nk k P s h]
  dsimp only
  rw [if_neg (by simp)]
  cases convolve w spl ells s ((List.range ells.length).map (xiAt cs Nk k P ells s)) with
  | error e => constructor <;> intro h <;> cases h
  | ok o => constructor <;> intro h <;> cases h <;> rfl

theorem convRows_of {row : Fin n → Except CErr (List ℝ)} {R : Fin n → List ℝ} {l : List (Fin n)} (h : ∀ a ∈ l, row a = .ok (R a)) : convRows row l = .ok (l.map R) := by
  induction l with
  | nil => rfl
  | cons a l ih =>
    rw [convRows, h a List.mem_cons_self, ih fun b hb => h b (List.mem_cons_of_mem _ hb)]
    rfl

theorem convRows_inv {row : Fin n → Except CErr (List ℝ)} {l : List (Fin n)} {rs : List (List ℝ)} (h : convRows row l = .ok rs) : ∀ a ∈ l, ∃ r, row a = .ok r := by
  induction l generalizing rs with
  | nil => intro a ha; cases ha
  | cons b l ih =>
    rw [convRows] at h
    cases hb : row b with
    | error e => rw [hb] at h; cases h
    | ok r =>
      rw [hb] at h
      dsimp only at h
      cases hl : convRows row l with
      | error e => rw [hl] at h; cases h
      | ok rs' =>
        intro a ha
        rcases List.mem_cons.1 ha with rfl | ha
        · exact ⟨r, hb⟩
        · exact ih hl a ha

theorem rows_getD (R : Fin n → List ℝ) (i : ℕ) : (fun a => (((List.finRange n).map R).getD a []).getD i 0) = arr fun a => (R a).getD i 0 := by
  funext a
  unfold arr
  by_cases h : a < n
  · rw [dif_pos h, List.getD_eq_getElem (n := a) _ _ (by simpa using h)]
    simp
  · rw [dif_neg h, List.getD_eq_default (n := a) _ _ (by simpa using h)]
    rfl

theorem outRow_ok (w : Win n) (R : Fin n → List ℝ) (kout : ℝ) (l : List (ℕ × ℕ)) (h : ∀ p ∈ l, p.1 ∈ [0, 2, 4, 6]) :
    outRow w ((List.finRange n).map R) kout l = .ok (l.map fun p => back p.1 w (fun a => (R a).getD p.2 0) kout) := by
  induction l with
  | nil => rfl
  | cons p l ih =>
    obtain ⟨ell, i⟩ := p
    rw [outRow, rows_getD, back_some (h (ell, i) List.mem_cons_self), ih fun p hp => h p (List.mem_cons_of_mem _ hp)]
    rfl

theorem outRows_ok (w : Win n) (R : Fin n → List ℝ) {ells : List ℕ} (h : ∀ ell ∈ ells, ell ∈ [0, 2, 4, 6]) (l : List ℕ) :
    outRows w ((List.finRange n).map R) k ells l =
      .ok (l.map fun j => (List.range ells.length).map fun i => back (ells.getD i 0) w (fun a => (R a).getD i 0) (k j)) := by
  induction l with
  | nil => rfl
  | cons j l ih =>
    rw [outRows, outRow_ok w R (k j) _ (zipIdx_orders h), ih, zipIdx_range _ 0]
    rfl

/-- what is asked of the arguments besides the window -/
def Valid (Nk cols : ℕ) (ells : List ℕ) : Prop := ells.length = cols ∧ (∀ ell ∈ ells, ell ∈ [0, 2, 4, 6]) ∧ 0 < Nk ∧ (ells ≠ [] → 4 ≤ Nk)

variable {cols : ℕ} {P : ℕ → ℕ → ℝ} {ells : List ℕ} {w : Win n} {spl : (Fin n → ℝ) → ℝ → ℝ} {dry : Bool}

theorem call_eq (hv : Valid Nk cols ells) {R : Fin n → List ℝ} (hR : ∀ a, convRow cs Nk k P ells w spl dry (w.s a) = .ok (R a)) :
    convolveMultipoles cs Nk cols k P ells w spl dry =
      .ok ((List.range Nk).map k, (List.range Nk).map fun j => (List.range ells.length).map fun i => back (ells.getD i 0) w (fun a => (R a).getD i 0) (k j)) := by
  obtain ⟨h1, h2, h3, h4⟩ := hv
  unfold convolveMultipoles
  rw [if_neg (not_not.2 h1), if_neg (not_not.2 h2), if_neg (by
      rintro (h | ⟨h, h'⟩)
      · omega
      · have := h4 h
        omega),
    convRows_of fun a _ => hR a]
  dsimp only
  rw [outRows_ok k w R h2]

theorem call_inv {out : List ℝ × List (List ℝ)} (h : convolveMultipoles cs Nk cols k P ells w spl dry = .ok out) :
    Valid Nk cols ells ∧ ∃ R : Fin n → List ℝ, ∀ a, convRow cs Nk k P ells w spl dry (w.s a) = .ok (R a) := by
  unfold convolveMultipoles at h
  split at h
  · cases h
  · rename_i h1
    split at h
    · cases h
    · rename_i h2
      split at h
      · cases h
      · rename_i h3
        push Not at h3
        refine ⟨⟨not_not.1 h1, not_not.1 h2, Nat.pos_of_ne_zero h3.1, fun he => h3.2 he⟩, ?_⟩
        cases hc : convRows (fun a => convRow cs Nk k P ells w spl dry (w.s a)) (List.finRange n) with
        | error e => rw [hc] at h; cases h
        | ok rows =>
          have := convRows_inv hc
          exact Classical.skolem.1 fun a => this a (List.mem_finRange a)

end

end Verif.ConvPoles
