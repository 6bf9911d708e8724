/-
C120: the Halo-Zel'dovich correlation functions are the Fourier transforms of the power spectra.
-/
import Verif.Lemmas.HzptCF
import Verif.Props.Hzpt

namespace Verif.Hzpt

open MeasureTheory Set

noncomputable section

/-- `P` is the power spectrum of the correlation function `ξ` : the spherical Fourier transform, the integral being absolutely convergent -/
def PowerOf (ξ : ℝ → ℝ) (k P : ℝ) : Prop :=
  IntegrableOn (fun r => 4 * Real.pi * r ^ 2 * ξ r * (Real.sin (k * r) / (k * r))) (Ioi 0) ∧ ∫ r in Ioi (0:ℝ), 4 * Real.pi * r ^ 2 * ξ r * (Real.sin (k * r) / (k * r)) = P

theorem C120_fourier {c : Fin 5 → ℝ} (hR : 0 < c 1) (h2 : c 4 ≠ 0) (hd : 4 * c 4 ^ 4 < c 3 ^ 4) (hp : 1 - (c 3 / c 1) ^ 2 + (c 4 / c 1) ^ 4 ≠ 0) :
    ∃ ξ : ℝ → ℝ, (∀ r, 0 < r → broadbandCF c r = some (ξ r)) ∧ ∀ k, 0 < k → PowerOf ξ k (pade c k) := by
  obtain ⟨A0, hA0⟩ : ∃ A, A = c 0 := ⟨_, rfl⟩
  obtain ⟨R, hR'⟩ : ∃ A, A = c 1 := ⟨_, rfl⟩
  obtain ⟨R1, hR1⟩ : ∃ A, A = c 2 := ⟨_, rfl⟩
  obtain ⟨R1h, hR1h⟩ : ∃ A, A = c 3 := ⟨_, rfl⟩
  obtain ⟨R2h, hR2h⟩ : ∃ A, A = c 4 := ⟨_, rfl⟩
  rw [← hR'] at hR hp; rw [← hR2h] at h2 hd hp; rw [← hR1h] at hd hp
  obtain ⟨S, hS⟩ : ∃ A, A = Real.sqrt (R1h ^ 4 - 4 * R2h ^ 4) := ⟨_, rfl⟩
  have hS2 : S ^ 2 = R1h ^ 4 - 4 * R2h ^ 4 := by rw [hS]; exact Real.sq_sqrt (by linarith)
  have hS0 : 0 < S := by rw [hS]; exact Real.sqrt_pos.2 (by linarith)
  have hpos2 : 0 < R2h ^ 4 := by positivity
  have hSl : S < R1h ^ 2 := by
    refine lt_of_pow_lt_pow_left₀ 2 (by positivity) ?_
    nlinarith
  have hR0 : R ≠ 0 := hR.ne'
  refine ⟨fun r => (broadbandCF c r).getD 0, fun r hr => ?_, fun k hk => ?_⟩
  · unfold broadbandCF
    dsimp only
    rw [← hR', ← hR1h, ← hR2h]
    rw [if_neg (by
      push Not
      exact ⟨by linarith, h2, hR0, hr.ne', hp⟩)]
    rfl
  obtain ⟨u, hu⟩ : ∃ A, A = R1h ^ 2 - S := ⟨_, rfl⟩
  obtain ⟨v, hv⟩ : ∃ A, A = R1h ^ 2 + S := ⟨_, rfl⟩
  have hu0 : 0 < u := by rw [hu]; linarith
  have hv0 : 0 < v := by rw [hv]; nlinarith
  have huv : u < v := by rw [hu, hv]; linarith
  have eR1h : R1h ^ 2 = (u + v) / 2 := by rw [hu, hv]; ring
  have eS : S = (v - u) / 2 := by rw [hu, hv]; ring
  have eR2h : R2h ^ 4 = u * v / 4 := by rw [hu, hv]; nlinarith
  have eR1h4 : R1h ^ 4 = ((u + v) / 2) ^ 2 := by rw [← eR1h]; ring
  have m2 : 0 < Real.sqrt (1 / 2 * u) / R2h ^ 2 := by positivity
  have m3 : 0 < Real.sqrt (1 / 2 * v) / R2h ^ 2 := by positivity
  have s2 : (Real.sqrt (1 / 2 * u) / R2h ^ 2) ^ 2 = 2 / v := by
    rw [div_pow, Real.sq_sqrt (by positivity), ← pow_mul, eR2h]
    field_simp
    norm_num
  have s3 : (Real.sqrt (1 / 2 * v) / R2h ^ 2) ^ 2 = 2 / u := by
    rw [div_pow, Real.sq_sqrt (by positivity), ← pow_mul, eR2h]
    field_simp
    norm_num
  obtain ⟨M2, hM2⟩ : ∃ A, A = Real.sqrt (1 / 2 * u) / R2h ^ 2 := ⟨_, rfl⟩
  obtain ⟨M3, hM3⟩ : ∃ A, A = Real.sqrt (1 / 2 * v) / R2h ^ 2 := ⟨_, rfl⟩
  rw [← hM2] at m2 s2; rw [← hM3] at m3 s3
  obtain ⟨A, hA⟩ : ∃ A, A = (R ^ 2 * (-2 * R2h ^ 4 + R1 ^ 2 * (R1h ^ 2 - S)) + R2h ^ 4 * (R1h ^ 2 - S) + R1 ^ 2 * (-R1h ^ 4 + 2 * R2h ^ 4 + R1h ^ 2 * S)) / (2 * R2h ^ 4 * S) := ⟨_, rfl⟩
  obtain ⟨B, hB⟩ : ∃ A, A = (R2h ^ 4 * (R1h ^ 2 + S) - R1 ^ 2 * (R1h ^ 4 - 2 * R2h ^ 4 + R1h ^ 2 * S) + R ^ 2 * (-2 * R2h ^ 4 + R1 ^ 2 * (R1h ^ 2 + S))) * (-1) / (2 * R2h ^ 4 * S) := ⟨_, rfl⟩
  obtain ⟨D, hD⟩ : ∃ A, A = 1 - (R1h / R) ^ 2 + (R2h / R) ^ 4 := ⟨_, rfl⟩
  rw [← hD] at hp
  have key := three_transform (N := -A0 / (R ^ 2 * D)) (c1 := 1 - (R1 / R) ^ 2) (c2 := A) (c3 := B) (one_div_pos.2 hR) m2 m3 hk (f := fun r => (broadbandCF c r).getD 0) (by
    intro r hr
    unfold broadbandCF
    dsimp only
    rw [← hA0, ← hR', ← hR1, ← hR1h, ← hR2h, ← hS, ← hA, ← hB, ← hD, ← hu, ← hv, ← hM2, ← hM3]
    rw [if_neg (by
      push Not
      exact ⟨by linarith, h2, hR0, hr.ne', hp⟩)]
    rw [Option.getD_some]
    have e2 : Real.exp (r * (1 / R - M2)) = Real.exp (-M2 * r) / Real.exp (-r / R) := by
      rw [← Real.exp_sub]; congr 1; field_simp; ring
    have e3 : Real.exp (r * (1 / R - M3)) = Real.exp (-M3 * r) / Real.exp (-r / R) := by
      rw [← Real.exp_sub]; congr 1; field_simp; ring
    have e1 : Real.exp (-(1 / R) * r) = Real.exp (-r / R) := by congr 1; field_simp
    rw [e1, e2, e3]
    have h0 := (Real.exp_pos (-r / R)).ne'
    have hpi := Real.pi_ne_zero
    have hk0 := hk.ne'
    have hr0 := hr.ne'
    field_simp)
  refine ⟨key.1, key.2.trans ?_⟩
  unfold pade
  dsimp only
  rw [← hA0, ← hR', ← hR1, ← hR1h, ← hR2h, s2, s3, hA, hB]
  have hsub : v - u ≠ 0 := by linarith
  have n1 : 1 / R ^ 2 + k ^ 2 ≠ 0 := by positivity
  have n2 : 2 / v + k ^ 2 ≠ 0 := by positivity
  have n3 : 2 / u + k ^ 2 ≠ 0 := by positivity
  have eD : D = (R ^ 4 - (u + v) / 2 * R ^ 2 + u * v / 4) / R ^ 4 := by
    rw [hD, div_pow, div_pow, eR1h, eR2h]
    field_simp
  have hE : R ^ 4 - (u + v) / 2 * R ^ 2 + u * v / 4 ≠ 0 := by
    intro h
    rw [h, zero_div] at eD
    exact hp eD
  have q1 : (k * R1h) ^ 2 = k ^ 2 * ((u + v) / 2) := by rw [mul_pow, eR1h]
  have q2 : (k * R2h) ^ 4 = k ^ 4 * (u * v / 4) := by rw [mul_pow, eR2h]
  rw [q1, q2, eR2h, eR1h4, eR1h, eS, eD]
  have p1 : 1 + (k * R) ^ 2 ≠ 0 := by positivity
  have p2 : 1 + k ^ 2 * ((u + v) / 2) + k ^ 4 * (u * v / 4) = (1 + k ^ 2 * u / 2) * (1 + k ^ 2 * v / 2) := by ring
  have p3 : R ^ 4 - (u + v) / 2 * R ^ 2 + u * v / 4 = (R ^ 2 - u / 2) * (R ^ 2 - v / 2) := by ring
  rw [p3] at hE ⊢
  have f1 : R ^ 2 - u / 2 ≠ 0 := left_ne_zero_of_mul hE
  have f2 : R ^ 2 - v / 2 ≠ 0 := right_ne_zero_of_mul hE
  have t1 : 1 / (1 / R ^ 2 + k ^ 2) = R ^ 2 / (1 + (k * R) ^ 2) := by field_simp
  have t2 : 1 / (2 / v + k ^ 2) = v / 2 / (1 + k ^ 2 * v / 2) := by field_simp
  have t3 : 1 / (2 / u + k ^ 2) = u / 2 / (1 + k ^ 2 * u / 2) := by field_simp
  have g2 : 1 + k ^ 2 * v / 2 ≠ 0 := by positivity
  have g3 : 1 + k ^ 2 * u / 2 ≠ 0 := by positivity
  rw [p2, one_div_pow, div_eq_mul_one_div (1 - (R1 / R) ^ 2), t1, div_eq_mul_one_div _ (2 / v + k ^ 2), t2, div_eq_mul_one_div _ (2 / u + k ^ 2), t3]
  -- the coefficients, simplified
  have cA : (R ^ 2 * (-2 * (u * v / 4) + R1 ^ 2 * ((u + v) / 2 - (v - u) / 2)) + u * v / 4 * ((u + v) / 2 - (v - u) / 2) + R1 ^ 2 * (-((u + v) / 2) ^ 2 + 2 * (u * v / 4) + (u + v) / 2 * ((v - u) / 2))) / (2 * (u * v / 4) * ((v - u) / 2)) =
      (R1 ^ 2 - v / 2) * (2 * R ^ 2 - u) / (v / 2 * (v - u)) := by
    field_simp
    ring
  have cB : (u * v / 4 * ((u + v) / 2 + (v - u) / 2) - R1 ^ 2 * (((u + v) / 2) ^ 2 - 2 * (u * v / 4) + (u + v) / 2 * ((v - u) / 2)) + R ^ 2 * (-2 * (u * v / 4) + R1 ^ 2 * ((u + v) / 2 + (v - u) / 2))) * (-1) / (2 * (u * v / 4) * ((v - u) / 2)) =
      -(R1 ^ 2 - u / 2) * (2 * R ^ 2 - v) / (u / 2 * (v - u)) := by
    field_simp
    ring
  rw [cA, cB]
  have hX : R ^ 2 ≠ 0 := by positivity
  have := pade_fractions (A0 := A0) (X := R ^ 2) (Y := R1 ^ 2) (K := k ^ 2) (α := v / 2) (β := u / 2) hX (by positivity) (by positivity) f2 f1 (fun h => hsub (by linarith))
    (by positivity) (by positivity) (by positivity)
  have w1 : (k * R) ^ 2 = k ^ 2 * R ^ 2 := by ring
  have w2 : (k * R1) ^ 2 = k ^ 2 * R1 ^ 2 := by ring
  have w3 : k ^ 2 * u / 2 = k ^ 2 * (u / 2) := by ring
  have w4 : k ^ 2 * v / 2 = k ^ 2 * (v / 2) := by ring
  rw [w1, w2, w3, w4, ← this]
  congr 1
  · field_simp
  · congr 1
    · congr 1
      · field_simp
      · have : 1 + k ^ 2 * (v / 2) ≠ 0 := by positivity
        have : v / 2 - u / 2 = (v - u) / 2 := by ring
        rw [this]
        field_simp
    · have : 1 + k ^ 2 * (u / 2) ≠ 0 := by positivity
      have : v / 2 - u / 2 = (v - u) / 2 := by ring
      rw [this]
      field_simp

/-- the positive value of sigma8 last asked for -/
def lastSigma8 (s : ℝ) (ops : List CFOp) : ℝ := ops.foldl (fun a op => match op with
  | .set s => if s ≤ 0 then a else s
  | .eval _ => a) s

/-- The invariant. -/
def CFInv (E : Env) (ks : List ℝ) (s : ℝ) (m : CFModel) : Prop :=
  0 < s ∧ m.sigma8 = s ∧ m.driver.s8 = s ∧ ∃ t, t ≠ 0 ∧ m.driver.pz = zelAt E t true ∧ m.driver.grid = ks.map ((zelAt E t true).eval E .p00)

theorem CFInv.zeldovich {E : Env} {ks : List ℝ} {s : ℝ} {m : CFModel} (h : CFInv E ks s m) (T : List (Option ℝ) → ℝ → ℝ → Option ℝ) (r : ℝ) :
    CFInv E ks s (m.zeldovich E ks T r).1 ∧ (m.zeldovich E ks T r).2 = (T (ks.map ((zelAt E s true).eval E .p00)) r 0).getD 0 := by
  obtain ⟨h0, h1, h2, t, ht, hp, hg⟩ := h
  have hsync : (m.driver.sync E ks).s8 = s ∧ (m.driver.sync E ks).pz = zelAt E s true ∧ (m.driver.sync E ks).grid = ks.map ((zelAt E s true).eval E .p00) := by
    unfold CF.sync
    rw [h2, hp]
    split
    · rw [set_zelAt E t s true ht]
      exact ⟨rfl, rfl, rfl⟩
    · rename_i hs
      have : s = t := by
        by_contra hne
        exact hs hne
      subst this
      exact ⟨h2, hp, hg⟩
  refine ⟨⟨h0, h1, hsync.1, s, h0.ne', hsync.2.1, hsync.2.2⟩, ?_⟩
  simp only [CFModel.zeldovich, CF.evaluate, hsync.2.2]

theorem CFInv.new {E : Env} (hE : E.s80 ≠ 0) (ks : List ℝ) {s : ℝ} (hs : 0 < s) : ∃ m, CFModel.new E ks s = some m ∧ CFInv E ks s m := by
  refine ⟨_, if_neg (not_le.2 hs), hs, rfl, rfl, E.s80, hE, ?_, ?_⟩
  · show (Zel.new E).setLowK = _
    rw [new_eq E hE]; rfl
  · show ks.map ((Zel.new E).setLowK.eval E .p00) = _
    rw [new_eq E hE]; rfl

theorem CFInv.run {E : Env} {ks : List ℝ} (T : List (Option ℝ) → ℝ → ℝ → Option ℝ) (ops : List CFOp) {s : ℝ} {m : CFModel} (h : CFInv E ks s m) :
    CFInv E ks (lastSigma8 s ops) (ops.foldl (CFModel.step E ks T) m) := by
  induction ops generalizing s m with
  | nil => exact h
  | cons op ops ih =>
    refine ih (s := match op with
      | .set u => if u ≤ 0 then s else u
      | .eval _ => s) ?_
    cases op with
    | eval r => exact (h.zeldovich T r).1
    | set u =>
      simp only [CFModel.step, CFModel.setSigma8]
      split
      · exact h
      · rename_i hu
        obtain ⟨h0, h1, h2, t, ht, hp, hg⟩ := h
        exact ⟨not_le.1 hu, rfl, rfl, t, ht, hp, hg⟩

/-- C120, history: an object made with a positive `sigma8_z` exists, and after any settings (refused ones included) and evaluations both correlation functions are those of the value last accepted:
the broadband term at its parameters and the transform of the Zel'dovich spectrum normalised to it, with the low-k approximation on; `b1` times the latter for halos. -/
theorem C120_history (E : Env) (hE : E.s80 ≠ 0) (ks : List ℝ) (T : List (Option ℝ) → ℝ → ℝ → Option ℝ) {s : ℝ} (hs : 0 < s) (ops : List CFOp) (P : Pars) (H : ParsHm) (b1 r : ℝ) :
    ∃ m, CFModel.new E ks s = some m ∧
      let a := lastSigma8 s ops
      let z := (T (ks.map ((zelAt E a true).eval E .p00)) r 0).getD 0
      ((ops.foldl (CFModel.step E ks T) m).call00 E ks T P r).2 = (broadbandCF (P.law a) r).map (· + z) ∧
      ((ops.foldl (CFModel.step E ks T) m).callHm E ks T H b1 r).2 = (broadbandCF (H.law b1 a) r).map (· + b1 * z) := by
  obtain ⟨m, hm, hi⟩ := CFInv.new hE ks hs
  refine ⟨m, hm, ?_⟩
  have hr := hi.run T ops
  simp only [CFModel.call00, CFModel.callHm, (hr.zeldovich T r).2, hr.2.1, and_self]

/-- C120: a `sigma8_z` that is not positive is refused, and nothing changes -/
theorem C120_refused (E : Env) (ks : List ℝ) (m : CFModel) {s : ℝ} (hs : s ≤ 0) : CFModel.new E ks s = none ∧ m.setSigma8 s = m :=
  ⟨if_pos hs, if_pos hs⟩

theorem PowerOf.add {ξ η : ℝ → ℝ} {k P Q : ℝ} (h : PowerOf ξ k P) (h' : PowerOf η k Q) : PowerOf (fun r => ξ r + η r) k (P + Q) := by
  have e : (fun r => 4 * Real.pi * r ^ 2 * (ξ r + η r) * (Real.sin (k * r) / (k * r))) = fun r => 4 * Real.pi * r ^ 2 * ξ r * (Real.sin (k * r) / (k * r)) + 4 * Real.pi * r ^ 2 * η r * (Real.sin (k * r) / (k * r)) := by
    funext r; ring
  unfold PowerOf
  rw [e]
  exact ⟨h.1.add h'.1, by rw [integral_add h.1 h'.1, h.2, h'.2]⟩

theorem PowerOf.mul {ξ : ℝ → ℝ} {k P : ℝ} (h : PowerOf ξ k P) (b : ℝ) : PowerOf (fun r => b * ξ r) k (b * P) := by
  have e : (fun r => 4 * Real.pi * r ^ 2 * (b * ξ r) * (Real.sin (k * r) / (k * r))) = fun r => b * (4 * Real.pi * r ^ 2 * ξ r * (Real.sin (k * r) / (k * r))) := by
    funext r; ring
  unfold PowerOf
  rw [e]
  exact ⟨h.1.const_mul b, by rw [integral_const_mul, h.2]⟩

theorem PowerOf.congr {ξ η : ℝ → ℝ} {k P : ℝ} (h : PowerOf ξ k P) (e : ∀ r, 0 < r → ξ r = η r) : PowerOf η k P := by
  have e' : ∀ r ∈ Ioi (0:ℝ), 4 * Real.pi * r ^ 2 * ξ r * (Real.sin (k * r) / (k * r)) = 4 * Real.pi * r ^ 2 * η r * (Real.sin (k * r) / (k * r)) := fun r hr => by rw [e r hr]
  exact ⟨h.1.congr_fun e' measurableSet_Ioi, by rw [← setIntegral_congr_fun measurableSet_Ioi e', h.2]⟩

theorem law_ne {P : Pars} {s : ℝ} (hs : 0 < s) {j : Fin 5} (h : P.amp j ≠ 0) : P.law s j ≠ 0 := mul_ne_zero h (Real.rpow_pos_of_pos (by positivity) _).ne'

/-- the conditions of `C120_fourier` -/
def Good (c : Fin 5 → ℝ) : Prop := 0 < c 1 ∧ c 4 ≠ 0 ∧ 4 * c 4 ^ 4 < c 3 ^ 4 ∧ 1 - (c 3 / c 1) ^ 2 + (c 4 / c 1) ^ 4 ≠ 0

theorem good_of {R R1h R2h : ℝ} (c : Fin 5 → ℝ) (e1 : c 1 = R) (e3 : c 3 = R1h) (e4 : c 4 = R2h) (h1 : 0 < R) (h3 : 0 < R1h) (h4 : 0 < R2h) (ha : 3 / 2 * R2h ≤ R1h) (hb : R1h ≤ R) : Good c := by
  refine ⟨by rw [e1]; exact h1, by rw [e4]; exact h4.ne', ?_, ?_⟩
  · rw [e3, e4]
    have : (3 / 2 * R2h) ^ 4 ≤ R1h ^ 4 := pow_le_pow_left₀ (by positivity) ha 4
    have h5 : 0 < R2h ^ 4 := by positivity
    nlinarith
  · rw [e1, e3, e4]
    have : (R1h / R) ^ 2 ≤ 1 := pow_le_one₀ (by positivity) ((div_le_one h1).2 hb)
    have h5 : 0 < (R2h / R) ^ 4 := by positivity
    intro h
    linarith

/-- C120, the shipped constants: for `sigma8_z` between 0.001 and 1.6 the broadband term of the dark matter correlation function is defined at all separations, and its power spectrum is that of
`HaloZeldovichP00` at all wavenumbers -/
theorem C120_shipped_dm {s : ℝ} (h1 : 1 / 1000 ≤ s) (h2 : s ≤ 8 / 5) : Good (shipped.c0.law s) := by
  obtain ⟨x, hx⟩ : ∃ x, x = s / (4 / 5) := ⟨_, rfl⟩
  have hx1 : 1 / 800 ≤ x := by rw [hx]; linarith
  have hx2 : x ≤ 2 := by rw [hx]; linarith
  have hx0 : 0 < x := by linarith
  refine good_of (R := 3176 / 100 * x ^ (1257 / 10000 : ℝ)) (R1h := 3768 / 1000 * x ^ (-1043 / 10000 : ℝ)) (R2h := 1699 / 1000 * x ^ (4224 / 10000 : ℝ)) _ (by rw [hx]; rfl) (by rw [hx]; rfl) (by rw [hx]; rfl)
    (by positivity) (by positivity) (by positivity) ?_ ?_
  · have e : x ^ (4224 / 10000 : ℝ) = x ^ (-1043 / 10000 : ℝ) * x ^ (5267 / 10000 : ℝ) := by
      rw [← Real.rpow_add hx0]; norm_num
    have hb : x ^ (5267 / 10000 : ℝ) ≤ 1478 / 1000 := by
      have t1 : x ^ (5267 / 10000 : ℝ) ≤ 2 ^ (5267 / 10000 : ℝ) := Real.rpow_le_rpow hx0.le hx2 (by norm_num)
      have t2 : (2:ℝ) ^ (5267 / 10000 : ℝ) ≤ 2 ^ (5 / 9 : ℝ) := Real.rpow_le_rpow_of_exponent_le (by norm_num) (by norm_num)
      have t3 : (2:ℝ) ^ (5 / 9 : ℝ) ≤ 1478 / 1000 := by
        rw [show (5 / 9 : ℝ) = 5 * (1 / 9) by norm_num, Real.rpow_mul (by norm_num), show (5:ℝ) = ((5:ℕ):ℝ) by norm_num, Real.rpow_natCast]
        rw [← Real.rpow_le_rpow_iff (z := 9) (by positivity) (by norm_num) (by norm_num), ← Real.rpow_mul (by positivity)]
        norm_num
      linarith
    rw [e]
    have : 0 < x ^ (-1043 / 10000 : ℝ) := by positivity
    nlinarith
  · have e : x ^ (-1043 / 10000 : ℝ) * x ^ (23 / 100 : ℝ) = x ^ (1257 / 10000 : ℝ) := by
      rw [← Real.rpow_add hx0]; norm_num
    have hb : 1 / 6 ≤ x ^ (23 / 100 : ℝ) := by
      have t1 : (1 / 800 : ℝ) ^ (23 / 100 : ℝ) ≤ x ^ (23 / 100 : ℝ) := Real.rpow_le_rpow (by norm_num) hx1 (by norm_num)
      have t2 : (1 / 800 : ℝ) ^ (1 / 4 : ℝ) ≤ (1 / 800) ^ (23 / 100 : ℝ) := Real.rpow_le_rpow_of_exponent_ge (by norm_num) (by norm_num) (by norm_num)
      have t3 : (1 / 6 : ℝ) ≤ (1 / 800 : ℝ) ^ (1 / 4 : ℝ) := by
        rw [← Real.rpow_le_rpow_iff (z := 4) (by positivity) (by positivity) (by norm_num), ← Real.rpow_mul (by positivity)]
        norm_num
      linarith
    rw [← e]
    have : 0 < x ^ (-1043 / 10000 : ℝ) := by positivity
    nlinarith

/-- C120, the shipped constants for halos: for `sigma8_z` between 0.1 and 1.6 and biases of at least one -/
theorem C120_shipped_hm {s b : ℝ} (h1 : 1 / 10 ≤ s) (h2 : s ≤ 8 / 5) (hb : 1 ≤ b) : Good (shipped.chm.law b s) := by
  obtain ⟨x, hx⟩ : ∃ x, x = s / (4 / 5) := ⟨_, rfl⟩
  have hx1 : 1 / 8 ≤ x := by rw [hx]; linarith
  have hx2 : x ≤ 2 := by rw [hx]; linarith
  have hx0 : 0 < x := by linarith
  have hb0 : 0 < b := by linarith
  refine good_of (R := 169 / 10 * b ^ (-1185 / 10000 : ℝ) * x ^ (-1067 / 1000 : ℝ)) (R1h := 8253 / 1000 * b ^ (-8421 / 10000 : ℝ) * x ^ (-1345 / 10000 : ℝ))
    (R2h := 3053 / 1000 * b ^ (-103 / 100 : ℝ) * x ^ (-3596 / 10000 : ℝ)) _
    (by rw [hx]; simp [ParsHm.law, shipped]) (by rw [hx]; simp [ParsHm.law, shipped]) (by rw [hx]; simp [ParsHm.law, shipped])
    (by positivity) (by positivity) (by positivity) ?_ ?_
  · have e1 : b ^ (-103 / 100 : ℝ) * b ^ (1879 / 10000 : ℝ) = b ^ (-8421 / 10000 : ℝ) := by
      rw [← Real.rpow_add hb0]; norm_num
    have e2 : x ^ (-3596 / 10000 : ℝ) * x ^ (2251 / 10000 : ℝ) = x ^ (-1345 / 10000 : ℝ) := by
      rw [← Real.rpow_add hx0]; norm_num
    have hbb : 1 ≤ b ^ (1879 / 10000 : ℝ) := Real.one_le_rpow hb (by norm_num)
    have hxx : 57 / 100 ≤ x ^ (2251 / 10000 : ℝ) := by
      have t1 : (1 / 8 : ℝ) ^ (2251 / 10000 : ℝ) ≤ x ^ (2251 / 10000 : ℝ) := Real.rpow_le_rpow (by norm_num) hx1 (by norm_num)
      have t2 : (1 / 8 : ℝ) ^ (1 / 4 : ℝ) ≤ (1 / 8) ^ (2251 / 10000 : ℝ) := Real.rpow_le_rpow_of_exponent_ge (by norm_num) (by norm_num) (by norm_num)
      have t3 : (57 / 100 : ℝ) ≤ (1 / 8 : ℝ) ^ (1 / 4 : ℝ) := by
        rw [← Real.rpow_le_rpow_iff (z := 4) (by positivity) (by positivity) (by norm_num), ← Real.rpow_mul (by positivity)]
        norm_num
      linarith
    rw [← e1, ← e2]
    have hp : 0 < b ^ (-103 / 100 : ℝ) * x ^ (-3596 / 10000 : ℝ) := by positivity
    have hq : 57 / 100 ≤ b ^ (1879 / 10000 : ℝ) * x ^ (2251 / 10000 : ℝ) := by nlinarith
    have := mul_le_mul_of_nonneg_left hq hp.le
    nlinarith
  · have e1 : b ^ (-8421 / 10000 : ℝ) * b ^ (7236 / 10000 : ℝ) = b ^ (-1185 / 10000 : ℝ) := by
      rw [← Real.rpow_add hb0]; norm_num
    have e2 : x ^ (-1067 / 1000 : ℝ) * x ^ (9325 / 10000 : ℝ) = x ^ (-1345 / 10000 : ℝ) := by
      rw [← Real.rpow_add hx0]; norm_num
    have hbb : 1 ≤ b ^ (7236 / 10000 : ℝ) := Real.one_le_rpow hb (by norm_num)
    have hxx : x ^ (9325 / 10000 : ℝ) ≤ 2 := by
      have t1 : x ^ (9325 / 10000 : ℝ) ≤ 2 ^ (9325 / 10000 : ℝ) := Real.rpow_le_rpow hx0.le hx2 (by norm_num)
      have t2 : (2:ℝ) ^ (9325 / 10000 : ℝ) ≤ 2 ^ (1:ℝ) := Real.rpow_le_rpow_of_exponent_le (by norm_num) (by norm_num)
      rw [Real.rpow_one] at t2
      linarith
    rw [← e1, ← e2]
    have hp : 0 < b ^ (-8421 / 10000 : ℝ) * x ^ (-1067 / 1000 : ℝ) := by positivity
    have hq : x ^ (9325 / 10000 : ℝ) ≤ 2 * b ^ (7236 / 10000 : ℝ) := by nlinarith
    have := mul_le_mul_of_nonneg_left hq hp.le
    have := mul_le_mul_of_nonneg_left hbb hp.le
    nlinarith

/-- C120, together: wherever the constants are good (`C120_shipped_dm`, `C120_shipped_hm`) and as far as the transform of the Zel'dovich term is exact, the power spectrum of each correlation function after any history is
the corresponding power spectrum of the Halo-Zel'dovich model (C84) with the same `sigma8_z` and bias. -/
theorem C120_power (E : Env) (hE : E.s80 ≠ 0) (ks : List ℝ) (T : List (Option ℝ) → ℝ → ℝ → Option ℝ) {s : ℝ} (hs : 0 < s) (ops : List CFOp) (K : Consts) (f b1 : ℝ)
    (hT : ∀ k, 0 < k → PowerOf (fun r => (T (ks.map ((zelAt E (lastSigma8 s ops) true).eval E .p00)) r 0).getD 0) k ((zelAt E (lastSigma8 s ops) true).zeldovich E .p00 k)) :
    ∃ m, CFModel.new E ks s = some m ∧
      let a := lastSigma8 s ops
      let m := ops.foldl (CFModel.step E ks T) m
      (Good (K.c0.law a) → ∃ ξ : ℝ → ℝ, (∀ r, 0 < r → (m.call00 E ks T K.c0 r).2 = some (ξ r)) ∧ ∀ k, 0 < k → PowerOf ξ k (total K .P00 a f b1 k ((zelAt E a true).zeldovich E .p00 k))) ∧
      (Good (K.chm.law b1 a) → ∃ ξ : ℝ → ℝ, (∀ r, 0 < r → (m.callHm E ks T K.chm b1 r).2 = some (ξ r)) ∧ ∀ k, 0 < k → PowerOf ξ k (total K .Phm a f b1 k ((zelAt E a true).zeldovich E .p00 k))) := by
  obtain ⟨m, hm, hi⟩ := CFInv.new hE ks hs
  refine ⟨m, hm, ?_⟩
  have hr := hi.run T ops
  refine ⟨fun ⟨g1, g2, g3, g4⟩ => ?_, fun ⟨g1, g2, g3, g4⟩ => ?_⟩
  · obtain ⟨ξ, hξ, hp⟩ := C120_fourier g1 g2 g3 g4
    refine ⟨_, fun r h => ?_, fun k hk => (hp k hk).add (hT k hk)⟩
    simp only [CFModel.call00, (hr.zeldovich T r).2, hr.2.1, hξ r h, Option.map_some]
  · obtain ⟨ξ, hξ, hp⟩ := C120_fourier g1 g2 g3 g4
    refine ⟨_, fun r h => ?_, fun k hk => (hp k hk).add ((hT k hk).mul b1)⟩
    simp only [CFModel.callHm, (hr.zeldovich T r).2, hr.2.1, hξ r h, Option.map_some]

/-- C120 is false of the code for large amplitudes: from `sigma8_z` = 2.4 on the dark matter correlation function is NaN at every separation, while the power spectrum is an ordinary number -/
theorem C120_large_counterexample {s : ℝ} (hs : 12 / 5 ≤ s) (r : ℝ) : broadbandCF (shipped.c0.law s) r = none := by
  obtain ⟨x, hx⟩ : ∃ x, x = s / (4 / 5) := ⟨_, rfl⟩
  have hx1 : 3 ≤ x := by rw [hx]; linarith
  have hx0 : 0 < x := by linarith
  have e3 : shipped.c0.law s 3 = 3768 / 1000 * x ^ (-1043 / 10000 : ℝ) := by rw [hx]; rfl
  have e4 : shipped.c0.law s 4 = 1699 / 1000 * x ^ (4224 / 10000 : ℝ) := by rw [hx]; rfl
  unfold broadbandCF
  dsimp only
  rw [if_pos]
  left
  rw [e3, e4]
  have e : x ^ (4224 / 10000 : ℝ) = x ^ (-1043 / 10000 : ℝ) * x ^ (5267 / 10000 : ℝ) := by
    rw [← Real.rpow_add hx0]; norm_num
  have hb : 17 / 10 ≤ x ^ (5267 / 10000 : ℝ) := by
    have t1 : (3:ℝ) ^ (5267 / 10000 : ℝ) ≤ x ^ (5267 / 10000 : ℝ) := Real.rpow_le_rpow (by norm_num) hx1 (by norm_num)
    have t2 : (3:ℝ) ^ (1 / 2 : ℝ) ≤ 3 ^ (5267 / 10000 : ℝ) := Real.rpow_le_rpow_of_exponent_le (by norm_num) (by norm_num)
    have t3 : (17 / 10 : ℝ) ≤ 3 ^ (1 / 2 : ℝ) := by
      rw [← Real.sqrt_eq_rpow]
      exact Real.le_sqrt_of_sq_le (by norm_num)
    linarith
  rw [e]
  obtain ⟨y, hy⟩ : ∃ y, y = x ^ (-1043 / 10000 : ℝ) := ⟨_, rfl⟩
  obtain ⟨z, hz⟩ : ∃ y, y = x ^ (5267 / 10000 : ℝ) := ⟨_, rfl⟩
  have hy0 : 0 < y := by rw [hy]; positivity
  rw [← hz] at hb
  rw [← hy, ← hz]
  have hz4 : (17 / 10) ^ 4 ≤ z ^ 4 := pow_le_pow_left₀ (by norm_num) hb 4
  have hy4 : 0 < y ^ 4 := by positivity
  have : (3768 / 1000 * y) ^ 4 - 4 * (1699 / 1000 * (y * z)) ^ 4 = y ^ 4 * ((3768 / 1000) ^ 4 - 4 * (1699 / 1000) ^ 4 * z ^ 4) := by ring
  rw [this]
  refine mul_nonpos_of_nonneg_of_nonpos hy4.le ?_
  norm_num at hz4 ⊢
  linarith

/-- a cosmology whose Zel'dovich spectrum at `sigma8_z` = 0.8 is the Pade function of the shipped constants -/
def cfCase : Env where
  s80 := 4 / 5
  plin0 := pade (shipped.c0.law (4 / 5))
  r := fun _ => 1
  x0 := fun _ => 1
  y0 := fun _ => 0
  disp0 := 0
  w := fun n k i => if n = 0 ∧ i = 0 then pade (shipped.c0.law (4 / 5)) k / (4 * Real.pi * Real.sqrt (1 / 2 * Real.pi) * k ^ (-(3 / 2) : ℝ) * (Real.exp (-(1 / 2) * k ^ 2) - 1)) else 0
  quad := fun _ => 0
  quad_smul := by simp

theorem sum_first (N : ℕ) (g : ℕ → ℝ) (h : ∀ i, i ≠ 0 → g i = 0) : ((List.range (N + 1)).map g).sum = g 0 := by
  induction N with
  | zero => simp
  | succ N ih => rw [List.range_succ, List.map_append, List.sum_append, ih]; simp [h (N + 1) (by omega)]

theorem cfCase_zel {k : ℝ} (hk : 0 < k) : (zelAt cfCase (4 / 5) true).zeldovich cfCase .p00 k = pade (shipped.c0.law (4 / 5)) k := by
  have hn : (4 / 5 / cfCase.s80 : ℝ) = 1 := by show (4 / 5 / (4 / 5) : ℝ) = 1; norm_num
  unfold Zel.zeldovich Zel.eval
  show (if k0Low ≤ k ∨ true = false then fftlog cfCase (Arr.scale ((4 / 5 / cfCase.s80) ^ 2) (arr0 cfCase)) k .p00
    else lowKApprox cfCase (Arr.scale ((4 / 5 / cfCase.s80) ^ 2) (arr0 cfCase)).sq (4 / 5) k .p00) = _
  by_cases hk0 : k0Low ≤ k ∨ true = false
  · rw [if_pos hk0]
    unfold fftlog
    rw [sum_first 15 _ (fun n hn => by
      rw [sum_first 1023 _ (fun i hi => by simp [cfCase, hi])]
      simp [cfCase, hn])]
    rw [sum_first 1023 _ (fun i hi => by simp [cfCase, hi])]
    rw [if_pos rfl]
    have hw : cfCase.w 0 k 0 = pade (shipped.c0.law (4 / 5)) k / (4 * Real.pi * Real.sqrt (1 / 2 * Real.pi) * k ^ (-(3 / 2) : ℝ) * (Real.exp (-(1 / 2) * k ^ 2) - 1)) := by
      unfold cfCase
      dsimp only
      rw [if_pos ⟨rfl, rfl⟩]
    have hf : fprim cfCase ((arr0 cfCase).scale ((4 / 5 / cfCase.s80) ^ 2)) k 0 .p00 = Real.exp (-(1 / 2) * k ^ 2) - 1 := by
      rw [hn]
      simp [fprim, arr0, Arr.scale, cfCase]
    rw [hw, hf]
    have h1 : Real.exp (-(1 / 2) * k ^ 2) - 1 ≠ 0 := by
      have : Real.exp (-(1 / 2) * k ^ 2) < 1 := Real.exp_lt_one_iff.2 (by nlinarith [sq_pos_of_pos hk])
      linarith
    have h2 : Real.sqrt (1 / 2 * Real.pi) ≠ 0 := (Real.sqrt_pos.2 (by positivity)).ne'
    have h3 : k ^ (-(3 / 2) : ℝ) ≠ 0 := (Real.rpow_pos_of_pos hk _).ne'
    have h4 := Real.pi_ne_zero
    simp only [factor]
    obtain ⟨e, he⟩ : ∃ e, e = Real.exp (-(1 / 2) * k ^ 2) - 1 := ⟨_, rfl⟩
    obtain ⟨q, hq⟩ : ∃ e, e = Real.sqrt (1 / 2 * Real.pi) := ⟨_, rfl⟩
    obtain ⟨u, hu⟩ : ∃ e, e = k ^ (-(3 / 2) : ℝ) := ⟨_, rfl⟩
    rw [← he] at h1 ⊢; rw [← hq] at h2 ⊢; rw [← hu] at h3 ⊢
    field_simp
  · rw [if_neg hk0]
    simp only [lowKApprox, plin, q3, hn]
    simp [cfCase, arr0, Arr.scale]

/-- C120: a case that meets the hypotheses -/
theorem C120_case : cfCase.s80 ≠ 0 ∧ Good (shipped.c0.law (4 / 5)) ∧ Good (shipped.chm.law 2 (4 / 5)) ∧ (∃ k, 0 < k ∧ pade (shipped.c0.law (4 / 5)) k ≠ 0) ∧
    let T : List (Option ℝ) → ℝ → ℝ → Option ℝ := fun _ r _ => broadbandCF (shipped.c0.law (4 / 5)) r
    ∀ (ks : List ℝ) (k : ℝ), 0 < k → PowerOf (fun r => (T (ks.map ((zelAt cfCase (lastSigma8 (1 / 2) [.set (3 / 5), .eval 10, .set (4 / 5), .set (-1)]) true).eval cfCase .p00)) r 0).getD 0) k
      ((zelAt cfCase (lastSigma8 (1 / 2) [.set (3 / 5), .eval 10, .set (4 / 5), .set (-1)]) true).zeldovich cfCase .p00 k) := by
  have hl : lastSigma8 (1 / 2) [.set (3 / 5), .eval 10, .set (4 / 5), .set (-1)] = 4 / 5 := by
    simp only [lastSigma8, List.foldl]
    norm_num
  have hg := C120_shipped_dm (s := 4 / 5) (by norm_num) (by norm_num)
  refine ⟨by show (4 / 5 : ℝ) ≠ 0; norm_num, hg, C120_shipped_hm (by norm_num) (by norm_num) (by norm_num), ⟨1, one_pos, ?_⟩, ?_⟩
  · unfold pade
    have hc : ∀ j, shipped.c0.law (4 / 5) j = shipped.c0.amp j := fun j => by unfold Pars.law; norm_num
    simp only [hc]
    simp only [shipped]
    norm_num
    exact ⟨by positivity, by positivity⟩
  · intro T ks k hk
    rw [hl, cfCase_zel hk]
    obtain ⟨ξ, hξ, hp⟩ := C120_fourier hg.1 hg.2.1 hg.2.2.1 hg.2.2.2
    exact (hp k hk).congr fun r hr => by simp only [T, hξ r hr, Option.getD_some]

end
end Verif.Hzpt
