/-
C60 (the Alcock-Paczynski mapping) and C61 (it is applied exactly once).
-/
import Verif.Model.AP
import Mathlib.Tactic.FieldSimp
import Mathlib.Tactic.Linarith
import Mathlib.Tactic.Positivity
import Mathlib.Tactic.Ring

namespace Verif.AP

/-! ### C60 -/

/-- the quantity under the root, times F² -/
theorem under_pos {mu aperp apar : ℝ} (h1 : -1 ≤ mu) (h2 : mu ≤ 1) (hp : 0 < aperp) (hr : 0 < apar) :
    0 < 1 + mu ^ 2 * (1 / (apar / aperp) ^ 2 - 1) := by
  have hF : 0 < (apar / aperp) := div_pos hr hp
  have hmu : mu ^ 2 ≤ 1 := by nlinarith
  by_cases h0 : mu = 0
  · subst h0; norm_num
  · have : 0 < mu ^ 2 * (1 / (apar / aperp) ^ 2) := by positivity
    nlinarith

theorem kAP_eq {k mu aperp apar : ℝ} : kAP k mu aperp apar = (k / aperp) * √(1 + mu ^ 2 * (1 / (apar / aperp) ^ 2 - 1)) := by
  unfold kAP
  by_cases h : apar / aperp = 1
  · simp [h]
  · simp [h]

/-- **C60, geometry.** For positive dilations and `mu ∈ [-1, 1]` the true wavenumber and cosine have the observed components
along and across the line of sight divided by the respective dilation; the true wavenumber has the sign of the observed one, the true cosine is
again in `[-1, 1]`. -/
theorem C60_geometric (k mu aperp apar : ℝ) (h1 : -1 ≤ mu) (h2 : mu ≤ 1) (hp : 0 < aperp) (hr : 0 < apar) :
    let k' := kAP k mu aperp apar
    let mu' := muAP mu aperp apar
    k' * mu' = k * mu / apar ∧ k' ^ 2 * (1 - mu' ^ 2) = k ^ 2 * (1 - mu ^ 2) / aperp ^ 2 ∧
    (0 < k → 0 < k') ∧ (k = 0 → k' = 0) ∧ (0 ≤ mu → 0 ≤ mu') ∧ -1 ≤ mu' ∧ mu' ≤ 1 := by
  intro k' mu'
  have hN := under_pos h1 h2 hp hr
  have hs : 0 < √(1 + mu ^ 2 * (1 / (apar / aperp) ^ 2 - 1)) := Real.sqrt_pos.2 hN
  have hs2 := Real.sq_sqrt hN.le
  have ek : k' = (k / aperp) * √(1 + mu ^ 2 * (1 / (apar / aperp) ^ 2 - 1)) := kAP_eq
  have em : mu' = (mu / (apar / aperp)) * (√(1 + mu ^ 2 * (1 / (apar / aperp) ^ 2 - 1)))⁻¹ := rfl
  generalize √(1 + mu ^ 2 * (1 / (apar / aperp) ^ 2 - 1)) = s at *
  have hF : 0 < apar / aperp := div_pos hr hp
  have hmu : mu ^ 2 ≤ 1 := by nlinarith
  have hm2 : mu' ^ 2 ≤ 1 := by
    have : mu' ^ 2 = (mu ^ 2 / (apar / aperp) ^ 2) / s ^ 2 := by rw [em]; field_simp
    rw [this, hs2, div_le_one hN]
    have : mu ^ 2 * (1 / (apar / aperp) ^ 2) = mu ^ 2 / (apar / aperp) ^ 2 := by ring
    nlinarith
  refine ⟨?_, ?_, ?_, ?_, ?_, ?_, ?_⟩
  · rw [ek, em]; field_simp
  · have e1 : k' ^ 2 * mu' ^ 2 = k ^ 2 * mu ^ 2 / apar ^ 2 := by rw [ek, em]; field_simp
    have e2 : k' ^ 2 = k ^ 2 / aperp ^ 2 * s ^ 2 := by rw [ek]; ring
    rw [mul_sub, mul_one, e1, e2, hs2]
    field_simp
    ring
  · intro hk; rw [ek]; positivity
  · intro hk; rw [ek, hk]; simp
  · intro hm; rw [em]; positivity
  · nlinarith
  · nlinarith

example : (-1 : ℝ) ≤ 0.5 ∧ (0.5 : ℝ) ≤ 1 ∧ (0 : ℝ) < 1.02 ∧ (0 : ℝ) < 0.97 := by norm_num

/-- **C60, identity.** Without dilation nothing changes. -/
theorem C60_identity (k mu : ℝ) : kAP k mu 1 1 = k ∧ muAP mu 1 1 = mu := by
  constructor
  · simp [kAP]
  · simp [muAP]

/-- **C60, isotropic dilation.** With equal dilations only the wavenumber is rescaled. -/
theorem C60_isotropic (k mu a : ℝ) (ha : a ≠ 0) : kAP k mu a a = k / a ∧ muAP mu a a = mu := by
  constructor
  · simp [kAP, ha]
  · simp [muAP, ha]

/-- **C60, inverse.** Applying the mapping with the inverse dilations undoes it. -/
theorem C60_inverse (k mu aperp apar : ℝ) (hk : 0 < k) (h1 : -1 ≤ mu) (h2 : mu ≤ 1) (hp : 0 < aperp) (hr : 0 < apar) :
    kAP (kAP k mu aperp apar) (muAP mu aperp apar) (1 / aperp) (1 / apar) = k ∧
    muAP (muAP mu aperp apar) (1 / aperp) (1 / apar) = mu := by
  obtain ⟨a1, a2, a3, -, -, a6, a7⟩ := C60_geometric k mu aperp apar h1 h2 hp hr
  generalize kAP k mu aperp apar = k' at *
  generalize muAP mu aperp apar = m' at *
  have hk' := a3 hk
  obtain ⟨b1, b2, b3, -, -, b6, b7⟩ := C60_geometric k' m' (1 / aperp) (1 / apar) a6 a7 (by positivity) (by positivity)
  generalize kAP k' m' (1 / aperp) (1 / apar) = K at *
  generalize muAP m' (1 / aperp) (1 / apar) = M at *
  have c1 : K * M = k * mu := by rw [b1, a1]; field_simp
  have c2 : K ^ 2 * (1 - M ^ 2) = k ^ 2 * (1 - mu ^ 2) := by rw [b2, a2]; field_simp
  have hK := b3 hk'
  have c3 : K ^ 2 = k ^ 2 := by
    have : (K * M) ^ 2 = (k * mu) ^ 2 := by rw [c1]
    nlinarith
  have c4 : K = k := by
    rcases sq_eq_sq_iff_eq_or_eq_neg.1 c3 with h | h
    · exact h
    · linarith
  refine ⟨c4, ?_⟩
  rw [c4] at c1
  exact mul_left_cancel₀ hk.ne' c1

/-- **C60, injective**: different observed modes have different true modes. -/
theorem C60_injective (k mu k2 mu2 aperp apar : ℝ) (hk : 0 < k) (hk2 : 0 < k2) (h1 : -1 ≤ mu) (h2 : mu ≤ 1) (h3 : -1 ≤ mu2)
    (h4 : mu2 ≤ 1) (hp : 0 < aperp) (hr : 0 < apar)
    (ek : kAP k mu aperp apar = kAP k2 mu2 aperp apar) (em : muAP mu aperp apar = muAP mu2 aperp apar) :
    k = k2 ∧ mu = mu2 := by
  obtain ⟨a, b⟩ := C60_inverse k mu aperp apar hk h1 h2 hp hr
  obtain ⟨c, d⟩ := C60_inverse k2 mu2 aperp apar hk2 h3 h4 hp hr
  rw [ek, em] at a
  rw [em] at b
  exact ⟨a.symm.trans c, b.symm.trans d⟩

/-! ### C61 -/

variable {E : Type}

/-- Specification: the value of a body if decorations did not exist. -/
def bare : Body E → ℝ → ℝ → Except E ℝ
  | .prim g, k, mu => g k mu
  | .call _ φ b, k, mu => bare b (φ k mu).1 (φ k mu).2
  | .plain φ b, k, mu => bare b (φ k mu).1 (φ k mu).2
  | .comb op b c, k, mu =>
    match bare b k mu with
    | .error e => .error e
    | .ok x =>
      match bare c k mu with
      | .error e => .error e
      | .ok y => .ok (op x y)
  | .tryCatch b h, k, mu =>
    match bare b k mu with
    | .ok x => .ok x
    | .error _ => bare h k mu

theorem exec_locked (b : Body E) : ∀ k mu, exec b k mu true = (bare b k mu, true) := by
  induction b with
  | prim g => intro k mu; rfl
  | call a φ b ih => intro k mu; simp [exec, bare, ih]
  | plain φ b ih => intro k mu; simp [exec, bare, ih]
  | comb op b c ihb ihc =>
    intro k mu
    simp only [exec, bare, ihb]
    cases bare b k mu with
    | error e => rfl
    | ok x =>
      simp only [ihc]
      cases bare c k mu <;> rfl
  | tryCatch b h ihb ihh =>
    intro k mu
    simp only [exec, bare, ihb]
    cases bare b k mu with
    | ok x => rfl
    | error e => simp only [ihh]

/-- **C61.** Called from outside, a decorated method, however its body calls decorated methods (of this or of other objects,
inside `try` or not), returns the value of the undistorted computation at the true coordinates, rescaled once by
`alpha_drag³/(alpha_perp² alpha_par)`; an exception goes through unchanged; and the lock is free afterwards in either case. -/
theorem C61_once (a : Alphas) (φ) (b : Body E) (k mu : ℝ) :
    exec (.call a φ b) k mu false =
      ((bare b (kAP (φ k mu).1 (φ k mu).2 a.perp a.par) (muAP (φ k mu).2 a.perp a.par)).map
          (fun p => a.drag ^ 3 / (a.perp ^ 2 * a.par) * p), false) := by
  simp only [exec, Bool.not_false, if_true, exec_locked]
  cases bare b (kAP (φ k mu).1 (φ k mu).2 a.perp a.par) (muAP (φ k mu).2 a.perp a.par) with
  | error e => rfl
  | ok x => simp only [rescale, Except.map]; congr 2; ring

/-- **C61, lock.** Whatever is executed, the lock ends in the state it had, also after exceptions. -/
theorem C61_lock_restored (b : Body E) : ∀ k mu l, (exec b k mu l).2 = l := by
  induction b with
  | prim g => intro k mu l; rfl
  | call a φ b ih =>
    intro k mu l
    cases l with
    | true => rw [exec_locked]
    | false => rw [C61_once]
  | plain φ b ih => intro k mu l; exact ih _ _ l
  | comb op b c ihb ihc =>
    intro k mu l
    have h1 := ihb k mu l
    have h2 := ihc k mu l
    revert h1 h2
    simp only [exec]
    rcases exec b k mu l with ⟨r, l'⟩
    intro h1 h2
    simp only at h1
    subst h1
    cases r with
    | error e => rfl
    | ok x =>
      simp only
      rcases hc : exec c k mu l' with ⟨r, l''⟩
      rw [hc] at h2
      cases r <;> exact h2
  | tryCatch b h ihb ihh =>
    intro k mu l
    have h1 := ihb k mu l
    have h2 := ihh k mu l
    revert h1 h2
    simp only [exec]
    rcases exec b k mu l with ⟨r, l'⟩
    intro h1 h2
    simp only at h1
    subst h1
    cases r with
    | ok x => rfl
    | error e => exact h2

/-- The undistorted sum of `dmPower`. -/
theorem bare_dmPower (a : Alphas) (P : ℕ → ℝ → ℝ) (n : ℕ) (k mu : ℝ) :
    bare (dmPower (E := E) a (fun i k => .ok (P i k)) n) k mu = .ok (∑ i ∈ Finset.range (n + 1), mu ^ (2 * i) * P i k) := by
  induction n with
  | zero => simp [dmPower, bare]
  | succ n ih =>
    rw [Finset.sum_range_succ]
    simp [dmPower, bare, ih, Except.map]

/-- **C61 for the base class.** `DarkMatterSpectrum.power` is not decorated but its terms are: called from outside, the whole sum is
at the true coordinates and rescaled once; called from a decorated method it is left alone. -/
theorem C61_dm_power (a : Alphas) (P : ℕ → ℝ → ℝ) (n : ℕ) (k mu : ℝ) :
    exec (dmPower (E := E) a (fun i k => .ok (P i k)) n) k mu false =
      (.ok (a.drag ^ 3 / (a.perp ^ 2 * a.par) *
        ∑ i ∈ Finset.range (n + 1), muAP mu a.perp a.par ^ (2 * i) * P i (kAP k mu a.perp a.par)), false) ∧
    exec (dmPower (E := E) a (fun i k => .ok (P i k)) n) k mu true =
      (.ok (∑ i ∈ Finset.range (n + 1), mu ^ (2 * i) * P i k), true) := by
  constructor
  · induction n with
    | zero => simp [dmPower, C61_once, bare, Except.map]
    | succ n ih =>
      rw [Finset.sum_range_succ, mul_add]
      simp only [dmPower, exec.eq_4, ih, C61_once, bare, Except.map]
  · rw [exec_locked, bare_dmPower]

/-- The lock is global, not per model or per thread: while another thread is inside a decorated method, a decorated
call does no remapping and no rescaling.  E.g. with `alpha_drag = 2` a constant spectrum `1` is returned as `1` instead of `8`. -/
theorem C61_threads_counterexample :
    exec (E := Unit) (.call ⟨1, 1, 2⟩ (fun k mu => (k, mu)) (.prim (fun _ _ => .ok 1))) 0.1 0.5 true = (.ok 1, true) ∧
    exec (E := Unit) (.call ⟨1, 1, 2⟩ (fun k mu => (k, mu)) (.prim (fun _ _ => .ok 1))) 0.1 0.5 false = (.ok 8, false) := by
  constructor
  · rfl
  · rw [C61_once]; norm_num [bare, Except.map]

/-- A nested instance: a decorated method calling two decorated methods of which one raises and is caught. -/
example : ∃ b : Body Unit, exec (.call ⟨1, 1, 2⟩ (fun k mu => (k, mu)) b) 0.1 0.5 false = (.ok 24, false) ∧
    ∃ c d, b = .comb (· + ·) (.call ⟨3, 3, 3⟩ (fun k mu => (k, mu)) c) (.tryCatch (.call ⟨3, 3, 3⟩ (fun k mu => (k, mu)) d) c) := by
  refine ⟨_, ?_, .prim (fun _ _ => .ok 1.5), .prim (fun _ _ => .error ()), rfl⟩
  rw [C61_once]; norm_num [bare, Except.map]

end Verif.AP
