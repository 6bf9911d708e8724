/-
C131: Gaussian covariance matrices of multipoles.
-/
import Verif.Lemmas.GaussCov

namespace Verif.GaussCov

open Verif.Priors Verif.Priors.Flt Verif.Legendre

noncomputable section

/-- what is asked of the wavenumbers: at least two, none 0, and a positive mean distance -/
structure GoodK (ks : List ℝ) (dk : ℝ) : Prop where
  two : 2 ≤ ks.length
  step : dk = (ks.getD (ks.length - 1) 0 - ks.getD 0 0) / (ks.length - 1 : ℕ)
  pos : 0 < dk
  nonzero : ∀ a < ks.length, ks.getD a 0 ≠ 0

/-- what is asked of a survey: some shells, with volume and objects -/
structure GoodSurvey (S : Survey) (Nz : ℕ) : Prop where
  some : 1 ≤ Nz
  volume : ∀ s < Nz, 0 < S.dV Nz s
  objects : ∀ s < Nz, 0 < S.n Nz s

theorem modes_eq (ks : List ℝ) (dk : ℝ) (hk : GoodK ks dk) (V : ℝ) (a : ℕ) : modes ks (fin V) a = fin (Spec.modes V (ks.getD a 0) dk) := by
  unfold modes
  rw [mul, div_fin _ _ (by positivity)]
  congr 1
  unfold shell Spec.modes
  rw [meanStep_eq ks hk.two, ← hk.step]
  have := Real.pi_ne_zero
  field_simp
  ring

theorem Spec_modes_ne (ks : List ℝ) (dk : ℝ) (hk : GoodK ks dk) (V : ℝ) (hV : V ≠ 0) (a : ℕ) (ha : a < ks.length) : Spec.modes V (ks.getD a 0) dk ≠ 0 := by
  unfold Spec.modes
  have h1 := hk.nonzero a ha
  have h2 := hk.pos.ne'
  have := Real.pi_ne_zero
  positivity

theorem Spec_modes_pos (ks : List ℝ) (dk : ℝ) (hk : GoodK ks dk) (V : ℝ) (hV : 0 < V) (a : ℕ) (ha : a < ks.length) : 0 < Spec.modes V (ks.getD a 0) dk := by
  unfold Spec.modes
  have h1 := hk.nonzero a ha
  have h2 := hk.pos
  positivity

theorem toBin_eq (P : ℝ → ℝ → ℝ) (ks : List ℝ) (ells : List ℕ) (Nmu : ℕ) (nbar : ℝ) (hn : nbar ≠ 0) (i j a m : ℕ) :
    toBin P ks ells Nmu nbar i j a m =
      fin (Spec.integrand (ells.getD i 0) (ells.getD j 0) (fun _ => (usedPower P ks Nmu a m + 1 / nbar) ^ 2) (m / Nmu)) := by
  unfold toBin
  rw [div_fin _ _ hn, add, sq, mul, mul, linspace_unit]
  unfold legWeight Spec.integrand
  congr 1
  ring

theorem usedPower_grid (P : ℝ → ℝ → ℝ) (ks : List ℝ) (Nmu a m : ℕ) (h : ks.length ≠ Nmu + 1) : usedPower P ks Nmu a m = P (ks.getD a 0) (m / Nmu) := by
  unfold usedPower
  rw [if_neg h, linspace_unit]

theorem integrand_comm (l l' : ℕ) (p2 : ℝ → ℝ) (mu : ℝ) : Spec.integrand l l' p2 mu = Spec.integrand l' l p2 mu := by
  unfold Spec.integrand
  ring

theorem min_max_comm {α : Type} (f : ℕ → ℕ → α) (h : ∀ i j, f i j = f j i) (i j : ℕ) : f (min i j) (max i j) = f i j := by
  rcases le_total i j with hij | hij
  · rw [min_eq_left hij, max_eq_right hij]
  · rw [min_eq_right hij, max_eq_left hij, h]

/-- C131: the coordinates of the element `(i, a)` of a matrix are the multipole number `i` and the wavenumber number `a`. -/
theorem C131_coordinates (big : ℝ) (P : ℝ → ℝ → ℝ) (ks : List ℝ) (ells : List ℕ) (nbar V : ℝ) (Nmu : ℕ) (S : Survey) (P0 : ℝ) (Nz : ℕ) (i a : ℕ) (hi : i < ells.length)
    (ha : a < ks.length) :
    ((periodic big P ks ells nbar V Nmu).k.getD (i * ks.length + a) 0 = ks.getD a 0 ∧ (periodic big P ks ells nbar V Nmu).ell.getD (i * ks.length + a) 0 = ells.getD i 0 ∧
      (periodic big P ks ells nbar V Nmu).size = ks.length * ells.length) ∧
    ((cutsky big P ks ells S P0 Nmu Nz).k.getD (i * ks.length + a) 0 = ks.getD a 0 ∧ (cutsky big P ks ells S P0 Nmu Nz).ell.getD (i * ks.length + a) 0 = ells.getD i 0 ∧
      (cutsky big P ks ells S P0 Nmu Nz).size = ks.length * ells.length) := by
  obtain ⟨h1, h2⟩ := coords ks ells i a hi ha
  exact ⟨⟨h1, h2, rfl⟩, ⟨h1, h2, rfl⟩⟩

/-- C131, a box: wavenumbers are not correlated, and at one wavenumber the covariance of two multipoles is the Gaussian one, with the volume, the density and the number of
angles asked for.  Missing: the number of wavenumbers must not be the number of angles, see the counterexample. -/
theorem C131_box_partial (big : ℝ) (P : ℝ → ℝ → ℝ) (ks : List ℝ) (dk : ℝ) (hk : GoodK ks dk) (ells : List ℕ) (nbar V : ℝ) (hn : nbar ≠ 0) (hV : V ≠ 0) (Nmu : ℕ)
    (hl : ks.length ≠ Nmu + 1) (i j a b : ℕ) (ha : a < ks.length) (hb : b < ks.length) :
    (periodic big P ks ells nbar V Nmu).entry (i * ks.length + a) (j * ks.length + b) =
      if a = b then Spec.gauss Nmu (Spec.modes V (ks.getD a 0) dk) (ells.getD i 0) (ells.getD j 0) (fun mu => (P (ks.getD a 0) mu + 1 / nbar) ^ 2) else 0 := by
  unfold periodic
  rw [assemble_entry big ks ells Nmu _ _ i j a b ha hb (Spec.modes V (ks.getD b 0) dk) (modes_eq ks dk hk V b) (Spec_modes_ne ks dk hk V hV b hb)
    (fun m => Spec.integrand (ells.getD i 0) (ells.getD j 0) (fun mu => (P (ks.getD a 0) mu + 1 / nbar) ^ 2) (m / Nmu))]
  · split_ifs with hab
    · subst hab
      rfl
    · rfl
  · intro _ m
    rw [toBin_eq P ks ells Nmu nbar hn, usedPower_grid P ks Nmu a m hl]
    congr 1
    rw [min_max_comm (fun i j => Spec.integrand (ells.getD i 0) (ells.getD j 0) (fun _ => (P (ks.getD a 0) (m / Nmu) + 1 / nbar) ^ 2) (m / Nmu))
      (fun i j => integrand_comm _ _ _ _)]
    rfl

theorem frac1 (L X A B : ℝ) (hA : A ≠ 0) : L * X / B = A ^ 2 / B * (L * (X / A ^ 2)) := by
  field_simp

theorem frac2 (c N S n : ℝ) (hc : c ≠ 0) : 2 / (c * N) * (c * S / n) = 2 / N * (S / n) := by
  rw [mul_div_assoc, ← mul_assoc]
  congr 1
  rw [div_mul_eq_mul_div, mul_comm 2 c]
  exact mul_div_mul_left 2 N hc

theorem frac3 (c N S n : ℝ) : 2 / N * (S * c⁻¹ / n) = 2 / (c * N) * (S / n) := by
  rw [mul_comm c N, ← div_div]
  ring

theorem mul_fin (a b : ℝ) : mul (fin a) (fin b) = fin (a * b) := rfl

theorem sq_fin (a : ℝ) : sq (fin a) = fin (a * a) := rfl

theorem u4_eq (S : Survey) (P0 : ℝ) (h0 : 0 ≤ P0) (Nz : ℕ) (hS : GoodSurvey S Nz) (s : ℕ) (hs : s < Nz) :
    S.nw P0 Nz s = fin (S.n Nz s * (1 / (1 + S.n Nz s * P0))) ∧ S.u4 P0 Nz s = fin ((S.n Nz s * (1 / (1 + S.n Nz s * P0))) ^ 4 * S.dV Nz s) := by
  have hn := hS.objects s hs
  have h1 : 1 + S.n Nz s * P0 ≠ 0 := by positivity
  have e : S.nw P0 Nz s = fin (S.n Nz s * (1 / (1 + S.n Nz s * P0))) := by
    unfold Survey.nw
    rw [div_fin _ _ h1, mul]
  refine ⟨e, ?_⟩
  unfold Survey.u4
  rw [e, sq_fin, sq_fin, mul_fin]
  congr 1
  ring

theorem total_congr (n : ℕ) (f : ℕ → Flt) (g : ℕ → ℝ) (h : ∀ s < n, f s = fin (g s)) : total ((List.range n).map f) = fin (∑ s ∈ Finset.range n, g s) := by
  rw [← total_range]
  congr 1
  exact List.map_congr_left fun s hs => h s (List.mem_range.1 hs)

theorem sums_pos (S : Survey) (P0 : ℝ) (h0 : 0 ≤ P0) (Nz : ℕ) (hS : GoodSurvey S Nz) :
    0 < (∑ s ∈ Finset.range Nz, (S.n Nz s * (1 / (1 + S.n Nz s * P0))) ^ 2 * S.dV Nz s) ∧ 0 < ∑ s ∈ Finset.range Nz, (S.n Nz s * (1 / (1 + S.n Nz s * P0))) ^ 4 * S.dV Nz s := by
  have hne : (Finset.range Nz).Nonempty := ⟨0, Finset.mem_range.2 hS.some⟩
  constructor
  all_goals
    refine Finset.sum_pos (fun s hs => ?_) hne
    have h1 := hS.objects s (Finset.mem_range.1 hs)
    have h2 := hS.volume s (Finset.mem_range.1 hs)
    positivity

/-- C131, a survey: wavenumbers are not correlated, and at one wavenumber the covariance of two multipoles is the Gaussian one, with the variance of a survey with FKP
weights.  Missing: the number of wavenumbers must not be the number of angles, and every shell must contain objects, see the counterexamples. -/
theorem C131_survey_partial (big : ℝ) (P : ℝ → ℝ → ℝ) (ks : List ℝ) (dk : ℝ) (hk : GoodK ks dk) (ells : List ℕ) (S : Survey) (P0 : ℝ) (h0 : 0 ≤ P0) (Nmu Nz : ℕ)
    (hS : GoodSurvey S Nz) (hl : ks.length ≠ Nmu + 1) (i j a b : ℕ) (ha : a < ks.length) (hb : b < ks.length) :
    (cutsky big P ks ells S P0 Nmu Nz).entry (i * ks.length + a) (j * ks.length + b) =
      if a = b then Spec.gauss Nmu (Spec.modes 1 (ks.getD a 0) dk) (ells.getD i 0) (ells.getD j 0)
        (fun mu => Spec.fkp Nz (S.dV Nz) (S.n Nz) (fun s => 1 / (1 + S.n Nz s * P0)) (P (ks.getD a 0) mu)) else 0 := by
  obtain ⟨w2, w4⟩ := sums_pos S P0 h0 Nz hS
  obtain ⟨A2, hA2⟩ : ∃ x, x = ∑ s ∈ Finset.range Nz, (S.n Nz s * (1 / (1 + S.n Nz s * P0))) ^ 2 * S.dV Nz s := ⟨_, rfl⟩
  obtain ⟨A4, hA4⟩ : ∃ x, x = ∑ s ∈ Finset.range Nz, (S.n Nz s * (1 / (1 + S.n Nz s * P0))) ^ 4 * S.dV Nz s := ⟨_, rfl⟩
  rw [← hA2] at w2
  rw [← hA4] at w4
  have e2 : S.W2 P0 Nz = fin A2 := by
    rw [hA2]
    refine total_congr _ _ _ fun s hs => ?_
    rw [(u4_eq S P0 h0 Nz hS s hs).1, sq, mul, mul]
    congr 1
    ring
  have e4 : S.W4 P0 Nz = fin A4 := by
    rw [hA4]
    exact total_congr _ _ _ fun s hs => (u4_eq S P0 h0 Nz hS s hs).2
  have eV : S.Veff P0 Nz = fin (A2 * A2 / A4) := by
    unfold Survey.Veff
    rw [e2, e4, sq, mul, div_fin _ _ w4.ne']
  have hVne : A2 * A2 / A4 ≠ 0 := by positivity
  unfold cutsky
  rw [assemble_entry big ks ells Nmu _ _ i j a b ha hb (Spec.modes (A2 * A2 / A4) (ks.getD b 0) dk) (by rw [eV]; exact modes_eq ks dk hk _ b)
    (Spec_modes_ne ks dk hk _ hVne b hb)
    (fun m => (∑ s ∈ Finset.range Nz, (S.n Nz s * (1 / (1 + S.n Nz s * P0))) ^ 4 * S.dV Nz s *
      Spec.integrand (ells.getD i 0) (ells.getD j 0) (fun _ => (P (ks.getD a 0) (m / Nmu) + 1 / S.n Nz s) ^ 2) (m / Nmu)) / A4)]
  · split_ifs with hab
    · subst hab
      unfold Spec.gauss Spec.angleMean
      have hm : ∀ m : ℕ, (∑ s ∈ Finset.range Nz, (S.n Nz s * (1 / (1 + S.n Nz s * P0))) ^ 4 * S.dV Nz s *
          Spec.integrand (ells.getD i 0) (ells.getD j 0) (fun _ => (P (ks.getD a 0) (m / Nmu) + 1 / S.n Nz s) ^ 2) (m / Nmu)) / A4 =
          A2 ^ 2 / A4 * Spec.integrand (ells.getD i 0) (ells.getD j 0) (fun mu => Spec.fkp Nz (S.dV Nz) (S.n Nz) (fun s => 1 / (1 + S.n Nz s * P0)) (P (ks.getD a 0) mu)) (m / Nmu) := by
        intro m
        unfold Spec.integrand Spec.fkp
        rw [← hA2]
        have : (∑ s ∈ Finset.range Nz, (S.n Nz s * (1 / (1 + S.n Nz s * P0))) ^ 4 * S.dV Nz s *
            ((2 * (ells.getD i 0 : ℝ) + 1) * leg (ells.getD i 0) (m / Nmu) * ((2 * (ells.getD j 0 : ℝ) + 1) * leg (ells.getD j 0) (m / Nmu)) *
              (P (ks.getD a 0) (m / Nmu) + 1 / S.n Nz s) ^ 2)) =
            (2 * (ells.getD i 0 : ℝ) + 1) * leg (ells.getD i 0) (m / Nmu) * ((2 * (ells.getD j 0 : ℝ) + 1) * leg (ells.getD j 0) (m / Nmu)) *
              ∑ s ∈ Finset.range Nz, (S.n Nz s * (1 / (1 + S.n Nz s * P0))) ^ 4 * S.dV Nz s * (P (ks.getD a 0) (m / Nmu) + 1 / S.n Nz s) ^ 2 := by
          rw [Finset.mul_sum]
          exact Finset.sum_congr rfl fun s _ => by ring
        rw [this]
        exact frac1 _ _ _ _ w2.ne'
      rw [Finset.sum_congr rfl fun m _ => hm m, ← Finset.mul_sum]
      have hN : Spec.modes (A2 * A2 / A4) (ks.getD a 0) dk = A2 ^ 2 / A4 * Spec.modes 1 (ks.getD a 0) dk := by
        unfold Spec.modes
        ring
      have hN1 := Spec_modes_ne ks dk hk 1 one_ne_zero a ha
      rw [hN]
      exact frac2 _ _ _ _ (by positivity)
    · rfl
  · intro _ m
    unfold overShells
    rw [total_congr Nz _ (fun s => (S.n Nz s * (1 / (1 + S.n Nz s * P0))) ^ 4 * S.dV Nz s *
      Spec.integrand (ells.getD i 0) (ells.getD j 0) (fun _ => (P (ks.getD a 0) (m / Nmu) + 1 / S.n Nz s) ^ 2) (m / Nmu)), e4, div_fin _ _ w4.ne']
    intro s hs
    rw [(u4_eq S P0 h0 Nz hS s hs).2, toBin_eq P ks ells Nmu _ (hS.objects s hs).ne', usedPower_grid P ks Nmu a m hl, mul]
    congr 2
    rw [min_max_comm (fun i j => Spec.integrand (ells.getD i 0) (ells.getD j 0) (fun _ => (P (ks.getD a 0) (m / Nmu) + 1 / S.n Nz s) ^ 2) (m / Nmu))
      (fun i j => integrand_comm _ _ _ _)]

theorem fkp_const (Nz : ℕ) (v n w : ℕ → ℝ) (c p x : ℝ) (hc : c ≠ 0) (hx : x ≠ 0) (hn : ∀ s < Nz, n s = c) (hw : ∀ s < Nz, w s = x) (hv : ∑ s ∈ Finset.range Nz, v s ≠ 0) :
    Spec.fkp Nz v n w p = (p + 1 / c) ^ 2 / ∑ s ∈ Finset.range Nz, v s := by
  unfold Spec.fkp
  have e1 : ∑ s ∈ Finset.range Nz, (n s * w s) ^ 4 * v s * (p + 1 / n s) ^ 2 = (c * x) ^ 4 * (p + 1 / c) ^ 2 * ∑ s ∈ Finset.range Nz, v s := by
    rw [Finset.mul_sum]
    refine Finset.sum_congr rfl fun s hs => ?_
    rw [hn s (Finset.mem_range.1 hs), hw s (Finset.mem_range.1 hs)]
    ring
  have e2 : ∑ s ∈ Finset.range Nz, (n s * w s) ^ 2 * v s = (c * x) ^ 2 * ∑ s ∈ Finset.range Nz, v s := by
    rw [Finset.mul_sum]
    refine Finset.sum_congr rfl fun s hs => ?_
    rw [hn s (Finset.mem_range.1 hs), hw s (Finset.mem_range.1 hs)]
  rw [e1, e2]
  field_simp

/-- C131: the shells of a survey lie between the edges of equal redshift bins that reach from `zmin` to `zmax`; their volume is the sky fraction times the difference of two
balls, and their density is taken in the middle of the bin. -/
theorem C131_shells (S : Survey) (Nz : ℕ) (hz : 1 ≤ Nz) (s : ℕ) :
    S.dV Nz s = S.fsky * (Spec.ball (S.R (Spec.edge S.zmin S.zmax Nz (s + 1))) - Spec.ball (S.R (Spec.edge S.zmin S.zmax Nz s))) ∧
    S.n Nz s = S.nbar ((Spec.edge S.zmin S.zmax Nz s + Spec.edge S.zmin S.zmax Nz (s + 1)) / 2) ∧
    Spec.edge S.zmin S.zmax Nz 0 = S.zmin ∧ Spec.edge S.zmin S.zmax Nz Nz = S.zmax := by
  have hl : ∀ s, linspace S.zmin S.zmax Nz s = Spec.edge S.zmin S.zmax Nz s := by
    intro s
    unfold linspace Spec.edge
    ring
  have hNz : (Nz : ℝ) ≠ 0 := by positivity
  refine ⟨?_, ?_, by simp [Spec.edge], by unfold Spec.edge; rw [div_self hNz]; ring⟩
  · unfold Survey.dV Spec.ball
    rw [hl, hl]
    ring
  · unfold Survey.n
    rw [hl, hl]
    congr 1
    ring

/-- C131: for a constant density a survey gives what a box of the volume of the survey gives: the part `fsky` of the sphere of radius `R(zmax)` without that of radius
`R(zmin)`; the weights do not matter. -/
theorem C131_constant (big : ℝ) (P : ℝ → ℝ → ℝ) (ks : List ℝ) (dk : ℝ) (hk : GoodK ks dk) (ells : List ℕ) (S : Survey) (P0 : ℝ) (h0 : 0 ≤ P0) (Nmu Nz : ℕ)
    (hS : GoodSurvey S Nz) (hl : ks.length ≠ Nmu + 1) (c : ℝ) (hc : ∀ z, S.nbar z = c) (i j a b : ℕ) (ha : a < ks.length) (hb : b < ks.length) :
    (cutsky big P ks ells S P0 Nmu Nz).entry (i * ks.length + a) (j * ks.length + b) =
      (periodic big P ks ells c (S.fsky * (4 * Real.pi / 3 * S.R S.zmax ^ 3 - 4 * Real.pi / 3 * S.R S.zmin ^ 3)) Nmu).entry (i * ks.length + a) (j * ks.length + b) := by
  have hNz : (Nz : ℝ) ≠ 0 := by have := hS.some; positivity
  have hc0 : 0 < c := by
    have := hS.objects 0 hS.some
    unfold Survey.n at this
    rwa [hc] at this
  have hV : ∑ s ∈ Finset.range Nz, S.dV Nz s = S.fsky * (4 * Real.pi / 3 * S.R S.zmax ^ 3 - 4 * Real.pi / 3 * S.R S.zmin ^ 3) := by
    have e : ∀ s, S.dV Nz s = (fun s => (4 / 3) * Real.pi * S.fsky * S.R (linspace S.zmin S.zmax Nz s) ^ 3) (s + 1) -
        (fun s => (4 / 3) * Real.pi * S.fsky * S.R (linspace S.zmin S.zmax Nz s) ^ 3) s := by
      intro s
      simp only [Survey.dV]
      ring
    rw [Finset.sum_congr rfl fun s _ => e s, Finset.sum_range_sub (fun s => (4 / 3) * Real.pi * S.fsky * S.R (linspace S.zmin S.zmax Nz s) ^ 3) Nz]
    have l0 : linspace S.zmin S.zmax Nz 0 = S.zmin := by simp [linspace]
    have l1 : linspace S.zmin S.zmax Nz Nz = S.zmax := by
      unfold linspace
      field_simp
      ring
    simp only [l0, l1]
    ring
  have hVpos : 0 < ∑ s ∈ Finset.range Nz, S.dV Nz s := Finset.sum_pos (fun s hs => hS.volume s (Finset.mem_range.1 hs)) ⟨0, Finset.mem_range.2 hS.some⟩
  rw [C131_survey_partial big P ks dk hk ells S P0 h0 Nmu Nz hS hl i j a b ha hb,
    C131_box_partial big P ks dk hk ells c _ hc0.ne' (by rw [← hV]; exact hVpos.ne') Nmu hl i j a b ha hb, ← hV]
  split_ifs with hab
  · have hx : 1 / (1 + c * P0) ≠ 0 := by positivity
    have hf : (fun mu => Spec.fkp Nz (S.dV Nz) (S.n Nz) (fun s => 1 / (1 + S.n Nz s * P0)) (P (ks.getD a 0) mu)) =
        fun mu => (P (ks.getD a 0) mu + 1 / c) ^ 2 / ∑ s ∈ Finset.range Nz, S.dV Nz s := by
      funext mu
      refine fkp_const Nz _ _ _ c _ (1 / (1 + c * P0)) hc0.ne' hx (fun s _ => ?_) (fun s _ => ?_) hVpos.ne'
      · exact hc _
      · simp only [Survey.n, hc]
    rw [hf]
    obtain ⟨W, hW⟩ : ∃ W, W = ∑ s ∈ Finset.range Nz, S.dV Nz s := ⟨_, rfl⟩
    rw [← hW] at hVpos ⊢
    unfold Spec.gauss Spec.angleMean
    have hm : ∀ m : ℕ, Spec.integrand (ells.getD i 0) (ells.getD j 0) (fun mu => (P (ks.getD a 0) mu + 1 / c) ^ 2 / W) (m / Nmu) =
        Spec.integrand (ells.getD i 0) (ells.getD j 0) (fun mu => (P (ks.getD a 0) mu + 1 / c) ^ 2) (m / Nmu) * W⁻¹ := by
      intro m
      unfold Spec.integrand
      ring
    rw [Finset.sum_congr rfl fun m _ => hm m, ← Finset.sum_mul]
    have hN : Spec.modes W (ks.getD a 0) dk = W * Spec.modes 1 (ks.getD a 0) dk := by
      unfold Spec.modes
      ring
    have hN1 := Spec_modes_ne ks dk hk 1 one_ne_zero a ha
    rw [hN]
    exact frac3 _ _ _ _
  · rfl

/-- The weights of Feldman, Kaiser and Peacock are the best ones. -/
theorem fkp_optimal (Nz : ℕ) (v n w : ℕ → ℝ) (P0 : ℝ) (h0 : 0 ≤ P0) (hz : 1 ≤ Nz) (hv : ∀ s < Nz, 0 < v s) (hn : ∀ s < Nz, 0 < n s)
    (hw : ∑ s ∈ Finset.range Nz, (n s * w s) ^ 2 * v s ≠ 0) :
    Spec.fkp Nz v n (fun s => 1 / (1 + n s * P0)) P0 = 1 / ∑ s ∈ Finset.range Nz, v s * (n s / (1 + n s * P0)) ^ 2 ∧
    Spec.fkp Nz v n (fun s => 1 / (1 + n s * P0)) P0 ≤ Spec.fkp Nz v n w P0 := by
  obtain ⟨T, hT⟩ : ∃ T, T = ∑ s ∈ Finset.range Nz, v s * (n s / (1 + n s * P0)) ^ 2 := ⟨_, rfl⟩
  have hTpos : 0 < T := by
    rw [hT]
    refine Finset.sum_pos (fun s hs => ?_) ⟨0, Finset.mem_range.2 hz⟩
    have h1 := hv s (Finset.mem_range.1 hs)
    have h2 := hn s (Finset.mem_range.1 hs)
    positivity
  have hopt : Spec.fkp Nz v n (fun s => 1 / (1 + n s * P0)) P0 = 1 / T := by
    unfold Spec.fkp
    have e1 : ∑ s ∈ Finset.range Nz, (n s * (1 / (1 + n s * P0))) ^ 4 * v s * (P0 + 1 / n s) ^ 2 = T := by
      rw [hT]
      refine Finset.sum_congr rfl fun s hs => ?_
      have h2 := hn s (Finset.mem_range.1 hs)
      have h3 : 1 + n s * P0 ≠ 0 := by positivity
      field_simp
      ring
    have e2 : ∑ s ∈ Finset.range Nz, (n s * (1 / (1 + n s * P0))) ^ 2 * v s = T := by
      rw [hT]
      refine Finset.sum_congr rfl fun s hs => ?_
      ring
    rw [e1, e2]
    field_simp
  rw [← hT]
  refine ⟨hopt, ?_⟩
  rw [hopt]
  unfold Spec.fkp
  have hsq : 0 < (∑ s ∈ Finset.range Nz, (n s * w s) ^ 2 * v s) ^ 2 := by positivity
  rw [div_le_div_iff₀ hTpos hsq, one_mul]
  have cs := Finset.sum_mul_sq_le_sq_mul_sq (Finset.range Nz) (fun s => (n s * w s) ^ 2 * Real.sqrt (v s) * (P0 + 1 / n s)) (fun s => Real.sqrt (v s) * (n s / (1 + n s * P0)))
  have c1 : ∑ s ∈ Finset.range Nz, ((n s * w s) ^ 2 * Real.sqrt (v s) * (P0 + 1 / n s)) * (Real.sqrt (v s) * (n s / (1 + n s * P0))) = ∑ s ∈ Finset.range Nz, (n s * w s) ^ 2 * v s := by
    refine Finset.sum_congr rfl fun s hs => ?_
    have h1 := Real.mul_self_sqrt (hv s (Finset.mem_range.1 hs)).le
    have h2 := hn s (Finset.mem_range.1 hs)
    have h3 : 1 + n s * P0 ≠ 0 := by positivity
    have h4 : (P0 + 1 / n s) * (n s / (1 + n s * P0)) = 1 := by
      field_simp
      ring
    calc _ = (n s * w s) ^ 2 * (Real.sqrt (v s) * Real.sqrt (v s)) * ((P0 + 1 / n s) * (n s / (1 + n s * P0))) := by ring
      _ = _ := by rw [h1, h4, mul_one]
  have c2 : ∑ s ∈ Finset.range Nz, ((n s * w s) ^ 2 * Real.sqrt (v s) * (P0 + 1 / n s)) ^ 2 = ∑ s ∈ Finset.range Nz, (n s * w s) ^ 4 * v s * (P0 + 1 / n s) ^ 2 := by
    refine Finset.sum_congr rfl fun s hs => ?_
    have h1 := Real.sq_sqrt (hv s (Finset.mem_range.1 hs)).le
    calc _ = (n s * w s) ^ 4 * Real.sqrt (v s) ^ 2 * (P0 + 1 / n s) ^ 2 := by ring
      _ = _ := by rw [h1]
  have c3 : ∑ s ∈ Finset.range Nz, (Real.sqrt (v s) * (n s / (1 + n s * P0))) ^ 2 = T := by
    rw [hT]
    refine Finset.sum_congr rfl fun s hs => ?_
    rw [mul_pow, Real.sq_sqrt (hv s (Finset.mem_range.1 hs)).le]
  rw [c1, c2, c3] at cs
  exact cs

/-- C131: the weights are the best ones for a spectrum of the size `FKP_P0`: at a wavenumber where the spectrum is `FKP_P0` in all directions, the variance of the monopole is
that of the effective volume `sum of dV (n P0 / (1 + n P0))^2`, and no other weights give a smaller one. -/
theorem C131_weights (big : ℝ) (P : ℝ → ℝ → ℝ) (ks : List ℝ) (dk : ℝ) (hk : GoodK ks dk) (ells : List ℕ) (S : Survey) (P0 : ℝ) (h0 : 0 < P0) (Nmu Nz : ℕ)
    (hS : GoodSurvey S Nz) (hl : ks.length ≠ Nmu + 1) (i a : ℕ) (ha : a < ks.length) (hi : ells.getD i 0 = 0) (hP : ∀ mu, P (ks.getD a 0) mu = P0) (w : ℕ → ℝ)
    (hw : ∑ s ∈ Finset.range Nz, (S.n Nz s * w s) ^ 2 * S.dV Nz s ≠ 0) :
    (cutsky big P ks ells S P0 Nmu Nz).entry (i * ks.length + a) (i * ks.length + a) =
      2 * P0 ^ 2 / Spec.modes (∑ s ∈ Finset.range Nz, S.dV Nz s * (S.n Nz s * P0 / (1 + S.n Nz s * P0)) ^ 2) (ks.getD a 0) dk ∧
    (cutsky big P ks ells S P0 Nmu Nz).entry (i * ks.length + a) (i * ks.length + a) ≤
      2 / Spec.modes 1 (ks.getD a 0) dk * Spec.fkp Nz (S.dV Nz) (S.n Nz) w P0 := by
  obtain ⟨f1, f2⟩ := fkp_optimal Nz (S.dV Nz) (S.n Nz) w P0 h0.le hS.some hS.volume hS.objects hw
  have hmean : ∀ c : ℝ, Spec.angleMean Nmu (Spec.integrand 0 0 fun _ => c) = c := by
    intro c
    unfold Spec.angleMean Spec.integrand
    have : (Nmu : ℝ) + 1 ≠ 0 := by positivity
    simp only [leg]
    rw [Finset.sum_const, Finset.card_range, nsmul_eq_mul]
    push_cast
    field_simp
    ring
  have e : (cutsky big P ks ells S P0 Nmu Nz).entry (i * ks.length + a) (i * ks.length + a) =
      2 / Spec.modes 1 (ks.getD a 0) dk * Spec.fkp Nz (S.dV Nz) (S.n Nz) (fun s => 1 / (1 + S.n Nz s * P0)) P0 := by
    rw [C131_survey_partial big P ks dk hk ells S P0 h0.le Nmu Nz hS hl i i a a ha ha, if_pos rfl, hi]
    unfold Spec.gauss
    simp only [hP]
    rw [hmean]
  have hpos := Spec_modes_pos ks dk hk 1 one_pos a ha
  constructor
  · rw [e, f1]
    have hs : ∑ s ∈ Finset.range Nz, S.dV Nz s * (S.n Nz s * P0 / (1 + S.n Nz s * P0)) ^ 2 = P0 ^ 2 * ∑ s ∈ Finset.range Nz, S.dV Nz s * (S.n Nz s / (1 + S.n Nz s * P0)) ^ 2 := by
      rw [Finset.mul_sum]
      exact Finset.sum_congr rfl fun s _ => by ring
    have hTpos : 0 < ∑ s ∈ Finset.range Nz, S.dV Nz s * (S.n Nz s / (1 + S.n Nz s * P0)) ^ 2 := by
      refine Finset.sum_pos (fun s hs => ?_) ⟨0, Finset.mem_range.2 hS.some⟩
      have h1 := hS.volume s (Finset.mem_range.1 hs)
      have h2 := hS.objects s (Finset.mem_range.1 hs)
      positivity
    rw [hs]
    obtain ⟨T, hT⟩ : ∃ T, T = ∑ s ∈ Finset.range Nz, S.dV Nz s * (S.n Nz s / (1 + S.n Nz s * P0)) ^ 2 := ⟨_, rfl⟩
    rw [← hT] at hTpos ⊢
    have hN : Spec.modes (P0 ^ 2 * T) (ks.getD a 0) dk = P0 ^ 2 * T * Spec.modes 1 (ks.getD a 0) dk := by
      unfold Spec.modes
      ring
    rw [hN]
    field_simp
  · rw [e]
    exact mul_le_mul_of_nonneg_left f2 (by positivity)

/-- quadratic forms of matrices that are diagonal in the wavenumber and sums of squares in the multipoles -/
theorem quad (N1 N2 : ℕ) (E : ℕ → ℕ → ℝ) (M : ℕ) (w q : ℕ → ℕ → ℝ) (c : ℕ → ℝ)
    (hE : ∀ i < N2, ∀ j < N2, ∀ a < N1, ∀ b < N1, E (i * N1 + a) (j * N1 + b) = if a = b then c a * ∑ m ∈ Finset.range M, w i m * w j m * q a m else 0) (x : ℕ → ℝ) :
    ∑ p ∈ Finset.range (N1 * N2), ∑ r ∈ Finset.range (N1 * N2), x p * E p r * x r =
      ∑ a ∈ Finset.range N1, c a * ∑ m ∈ Finset.range M, q a m * (∑ i ∈ Finset.range N2, x (i * N1 + a) * w i m) ^ 2 := by
  rw [sum_range_mul]
  have h1 : ∀ i ∈ Finset.range N2, ∀ a ∈ Finset.range N1, ∑ r ∈ Finset.range (N1 * N2), x (i * N1 + a) * E (i * N1 + a) r * x r =
      ∑ j ∈ Finset.range N2, c a * ∑ m ∈ Finset.range M, q a m * ((x (i * N1 + a) * w i m) * (x (j * N1 + a) * w j m)) := by
    intro i hi a ha
    rw [sum_range_mul]
    refine Finset.sum_congr rfl fun j hj => ?_
    rw [Finset.sum_eq_single_of_mem a ha]
    · rw [hE i (Finset.mem_range.1 hi) j (Finset.mem_range.1 hj) a (Finset.mem_range.1 ha) a (Finset.mem_range.1 ha), if_pos rfl]
      rw [Finset.mul_sum, Finset.mul_sum, Finset.mul_sum, Finset.sum_mul]
      exact Finset.sum_congr rfl fun m _ => by ring
    · intro b hb hba
      rw [hE i (Finset.mem_range.1 hi) j (Finset.mem_range.1 hj) a (Finset.mem_range.1 ha) b (Finset.mem_range.1 hb), if_neg (Ne.symm hba)]
      ring
  rw [Finset.sum_congr rfl fun i hi => Finset.sum_congr rfl fun a ha => h1 i hi a ha, Finset.sum_comm]
  refine Finset.sum_congr rfl fun a _ => ?_
  simp_rw [← Finset.mul_sum]
  congr 1
  have : ∀ i, ∑ j ∈ Finset.range N2, ∑ m ∈ Finset.range M, q a m * ((x (i * N1 + a) * w i m) * (x (j * N1 + a) * w j m)) =
      ∑ m ∈ Finset.range M, q a m * ((x (i * N1 + a) * w i m) * ∑ j ∈ Finset.range N2, x (j * N1 + a) * w j m) := by
    intro i
    rw [Finset.sum_comm]
    refine Finset.sum_congr rfl fun m _ => ?_
    rw [Finset.mul_sum, Finset.mul_sum]
  rw [Finset.sum_congr rfl fun i _ => this i, Finset.sum_comm]
  refine Finset.sum_congr rfl fun m _ => ?_
  rw [← Finset.mul_sum, ← Finset.sum_mul, pow_two]

theorem gauss_sum (n : ℕ) (N : ℝ) (l l' : ℕ) (p2 : ℝ → ℝ) :
    Spec.gauss n N l l' p2 = 2 / N / (n + 1) * ∑ m ∈ Finset.range (n + 1), ((2 * l + 1) * leg l (m / n)) * ((2 * l' + 1) * leg l' (m / n)) * p2 (m / n) := by
  unfold Spec.gauss Spec.angleMean Spec.integrand
  ring

theorem semidefinite_of (N1 N2 : ℕ) (E : ℕ → ℕ → ℝ) (ells : List ℕ) (n : ℕ) (N : ℕ → ℝ) (hN : ∀ a < N1, 0 < N a) (p2 : ℕ → ℝ → ℝ) (hp : ∀ a < N1, ∀ mu, 0 ≤ p2 a mu)
    (hE : ∀ i < N2, ∀ j < N2, ∀ a < N1, ∀ b < N1, E (i * N1 + a) (j * N1 + b) = if a = b then Spec.gauss n (N a) (ells.getD i 0) (ells.getD j 0) (p2 a) else 0) :
    Spec.Semidefinite (N1 * N2) E := by
  have key := quad N1 N2 E (n + 1) (fun i m => (2 * (ells.getD i 0 : ℝ) + 1) * leg (ells.getD i 0) (m / n)) (fun a m => p2 a (m / n)) (fun a => 2 / N a / (n + 1)) (by
    intro i hi j hj a ha b hb
    rw [hE i hi j hj a ha b hb]
    split_ifs with hab
    · exact gauss_sum _ _ _ _ _
    · rfl)
  constructor
  · intro p hp' q hq'
    have hN1 : 0 < N1 := by
      by_contra h
      have : N1 = 0 := by omega
      subst this
      simp at hp'
    have hd : ∀ p, p < N1 * N2 → p / N1 < N2 ∧ p % N1 < N1 ∧ p = p / N1 * N1 + p % N1 := fun p hp =>
      ⟨Nat.div_lt_of_lt_mul hp, Nat.mod_lt _ hN1, by rw [mul_comm]; exact (Nat.div_add_mod p N1).symm⟩
    obtain ⟨p1, p2', p3⟩ := hd p hp'
    obtain ⟨q1, q2, q3⟩ := hd q hq'
    rw [p3, q3, hE _ p1 _ q1 _ p2' _ q2, hE _ q1 _ p1 _ q2 _ p2']
    by_cases h : p % N1 = q % N1
    · rw [if_pos h, if_pos h.symm, h, gauss_sum, gauss_sum]
      congr 1
      exact Finset.sum_congr rfl fun m _ => by ring
    · rw [if_neg h, if_neg (Ne.symm h)]
  · intro x
    rw [key x]
    refine Finset.sum_nonneg fun a ha => mul_nonneg ?_ (Finset.sum_nonneg fun m _ => mul_nonneg (hp a (Finset.mem_range.1 ha) _) (sq_nonneg _))
    have := hN a (Finset.mem_range.1 ha)
    positivity

theorem definite_of (N1 N2 : ℕ) (E : ℕ → ℕ → ℝ) (ells : List ℕ) (hl : ells.length = N2) (hnd : ells.Nodup) (n : ℕ) (hn : 1 ≤ n) (hmax : ∀ l ∈ ells, l ≤ n) (N : ℕ → ℝ)
    (hN : ∀ a < N1, 0 < N a) (p2 : ℕ → ℝ → ℝ) (hp : ∀ a < N1, ∀ mu, 0 < p2 a mu)
    (hE : ∀ i < N2, ∀ j < N2, ∀ a < N1, ∀ b < N1, E (i * N1 + a) (j * N1 + b) = if a = b then Spec.gauss n (N a) (ells.getD i 0) (ells.getD j 0) (p2 a) else 0) :
    Spec.Definite (N1 * N2) E := by
  have key := quad N1 N2 E (n + 1) (fun i m => (2 * (ells.getD i 0 : ℝ) + 1) * leg (ells.getD i 0) (m / n)) (fun a m => p2 a (m / n)) (fun a => 2 / N a / (n + 1)) (by
    intro i hi j hj a ha b hb
    rw [hE i hi j hj a ha b hb]
    split_ifs with hab
    · exact gauss_sum _ _ _ _ _
    · rfl)
  rintro x ⟨p, hp', hx⟩
  rw [key x]
  have hN1 : 0 < N1 := by
    by_contra h
    have : N1 = 0 := by omega
    subst this
    simp at hp'
  have nonneg : ∀ a ∈ Finset.range N1, 0 ≤ 2 / N a / ((n : ℝ) + 1) * ∑ m ∈ Finset.range (n + 1), p2 a (m / n) *
      (∑ i ∈ Finset.range N2, x (i * N1 + a) * ((2 * (ells.getD i 0 : ℝ) + 1) * leg (ells.getD i 0) (m / n))) ^ 2 := by
    intro a ha
    have := hN a (Finset.mem_range.1 ha)
    exact mul_nonneg (by positivity) (Finset.sum_nonneg fun m _ => mul_nonneg (hp a (Finset.mem_range.1 ha) _).le (sq_nonneg _))
  have ha0 : p % N1 < N1 := Nat.mod_lt _ hN1
  refine Finset.sum_pos' nonneg ⟨p % N1, Finset.mem_range.2 ha0, ?_⟩
  have hNa := hN _ ha0
  refine mul_pos (by positivity) ?_
  by_contra hcon
  have hzero : ∑ m ∈ Finset.range (n + 1), p2 (p % N1) (m / n) *
      (∑ i ∈ Finset.range N2, x (i * N1 + p % N1) * ((2 * (ells.getD i 0 : ℝ) + 1) * leg (ells.getD i 0) (m / n))) ^ 2 = 0 :=
    le_antisymm (not_lt.1 hcon) (Finset.sum_nonneg fun m _ => mul_nonneg (hp _ ha0 _).le (sq_nonneg _))
  rw [Finset.sum_eq_zero_iff_of_nonneg fun m _ => mul_nonneg (hp _ ha0 _).le (sq_nonneg _)] at hzero
  have hvan : ∀ m ≤ n, ∑ i ∈ Finset.range N2, (x (i * N1 + p % N1) * (2 * (ells.getD i 0 : ℝ) + 1)) * leg (ells.getD i 0) (m / n) = 0 := by
    intro m hm
    have := hzero m (Finset.mem_range.2 (by omega))
    rcases mul_eq_zero.1 this with h | h
    · exact absurd h (hp _ ha0 _).ne'
    · rw [pow_eq_zero_iff two_ne_zero] at h
      rw [← h]
      exact Finset.sum_congr rfl fun i _ => by ring
  have hz := combination_zero N2 (fun i => ells.getD i 0) (by
    intro i hi j hj hij
    rw [List.getD_eq_getElem _ _ (by omega), List.getD_eq_getElem _ _ (by omega)] at hij
    exact (hnd.getElem_inj_iff).1 hij) n hn (by
    intro i hi
    rw [List.getD_eq_getElem _ _ (by omega)]
    exact hmax _ (List.getElem_mem _)) (fun i => x (i * N1 + p % N1) * (2 * (ells.getD i 0 : ℝ) + 1)) hvan (p / N1) (Nat.div_lt_of_lt_mul hp')
  rcases mul_eq_zero.1 hz with h | h
  · apply hx
    rw [mul_comm, Nat.div_add_mod] at h
    exact h
  · have : (0 : ℝ) < 2 * (ells.getD (p / N1) 0 : ℝ) + 1 := by positivity
    exact absurd h this.ne'

/-- C131: the matrix of a box is symmetric, no combination of the measurements has a negative variance, and if the multipoles are different, none is above the number of
angles, and power and noise do not cancel, none has variance 0: the matrix can be inverted. -/
theorem C131_box_definite (big : ℝ) (P : ℝ → ℝ → ℝ) (ks : List ℝ) (dk : ℝ) (hk : GoodK ks dk) (ells : List ℕ) (nbar V : ℝ) (hn : nbar ≠ 0) (hV : 0 < V) (Nmu : ℕ)
    (hl : ks.length ≠ Nmu + 1) :
    Spec.Semidefinite (periodic big P ks ells nbar V Nmu).size (periodic big P ks ells nbar V Nmu).entry ∧
    (ells.Nodup → 1 ≤ Nmu → (∀ l ∈ ells, l ≤ Nmu) → (∀ a < ks.length, ∀ mu, P (ks.getD a 0) mu + 1 / nbar ≠ 0) →
      Spec.Definite (periodic big P ks ells nbar V Nmu).size (periodic big P ks ells nbar V Nmu).entry) := by
  have hE := fun i (_ : i < ells.length) j (_ : j < ells.length) a (ha : a < ks.length) b (hb : b < ks.length) =>
    C131_box_partial big P ks dk hk ells nbar V hn hV.ne' Nmu hl i j a b ha hb
  constructor
  · exact semidefinite_of ks.length ells.length _ ells Nmu (fun a => Spec.modes V (ks.getD a 0) dk) (Spec_modes_pos ks dk hk V hV)
      (fun a mu => (P (ks.getD a 0) mu + 1 / nbar) ^ 2) (fun a _ mu => sq_nonneg _) hE
  · intro hnd h1 hmax hP
    exact definite_of ks.length ells.length _ ells rfl hnd Nmu h1 hmax (fun a => Spec.modes V (ks.getD a 0) dk) (Spec_modes_pos ks dk hk V hV)
      (fun a mu => (P (ks.getD a 0) mu + 1 / nbar) ^ 2) (fun a ha mu => by have := hP a ha mu; positivity) hE

/-- C131: the same for a survey, if the spectrum is not negative. -/
theorem C131_survey_definite (big : ℝ) (P : ℝ → ℝ → ℝ) (ks : List ℝ) (dk : ℝ) (hk : GoodK ks dk) (ells : List ℕ) (S : Survey) (P0 : ℝ) (h0 : 0 ≤ P0) (Nmu Nz : ℕ)
    (hS : GoodSurvey S Nz) (hl : ks.length ≠ Nmu + 1) :
    Spec.Semidefinite (cutsky big P ks ells S P0 Nmu Nz).size (cutsky big P ks ells S P0 Nmu Nz).entry ∧
    (ells.Nodup → 1 ≤ Nmu → (∀ l ∈ ells, l ≤ Nmu) → (∀ a < ks.length, ∀ mu, 0 ≤ P (ks.getD a 0) mu) →
      Spec.Definite (cutsky big P ks ells S P0 Nmu Nz).size (cutsky big P ks ells S P0 Nmu Nz).entry) := by
  have hE := fun i (_ : i < ells.length) j (_ : j < ells.length) a (ha : a < ks.length) b (hb : b < ks.length) =>
    C131_survey_partial big P ks dk hk ells S P0 h0 Nmu Nz hS hl i j a b ha hb
  have w2 := (sums_pos S P0 h0 Nz hS).1
  constructor
  · refine semidefinite_of ks.length ells.length _ ells Nmu (fun a => Spec.modes 1 (ks.getD a 0) dk) (Spec_modes_pos ks dk hk 1 one_pos)
      (fun a mu => Spec.fkp Nz (S.dV Nz) (S.n Nz) (fun s => 1 / (1 + S.n Nz s * P0)) (P (ks.getD a 0) mu)) (fun a _ mu => ?_) hE
    refine div_nonneg (Finset.sum_nonneg fun s hs => ?_) (sq_nonneg _)
    have h2 := hS.volume s (Finset.mem_range.1 hs)
    have h3 : 0 ≤ (S.n Nz s * (1 / (1 + S.n Nz s * P0))) ^ 4 := by positivity
    positivity
  · intro hnd h1 hmax hP
    refine definite_of ks.length ells.length _ ells rfl hnd Nmu h1 hmax (fun a => Spec.modes 1 (ks.getD a 0) dk) (Spec_modes_pos ks dk hk 1 one_pos)
      (fun a mu => Spec.fkp Nz (S.dV Nz) (S.n Nz) (fun s => 1 / (1 + S.n Nz s * P0)) (P (ks.getD a 0) mu)) (fun a ha mu => ?_) hE
    refine div_pos (Finset.sum_pos (fun s hs => ?_) ⟨0, Finset.mem_range.2 hS.some⟩) (by positivity)
    have h2 := hS.volume s (Finset.mem_range.1 hs)
    have h3 := hS.objects s (Finset.mem_range.1 hs)
    have h4 := hP a ha mu
    positivity

end

end Verif.GaussCov
