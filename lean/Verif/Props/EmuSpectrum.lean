/-
C137: the values of the emulated spectrum, and the range of wavenumbers.
-/
import Verif.Props.Emu

namespace Verif.Emu

open Set

noncomputable section

/-! ### The Hubble parameter of the object -/

theorem bisect_in (f : ℝ → ℝ) {a b : ℝ} : ∀ (fuel : ℕ) (lo hi y mid h : ℝ), a ≤ lo → lo ≤ hi → hi ≤ b → a ≤ mid → mid ≤ b → bisect f fuel lo hi y mid = some h → a ≤ h ∧ h ≤ b
  | 0, _, _, _, _, _, _, _, _, _, _, e => by simp [bisect] at e
  | fuel+1, lo, hi, y, mid, h, h0, h1, h2, h3, h4, e => by
    rw [bisect] at e
    split_ifs at e with hc
    · dsimp only at e
      split_ifs at e with h'
      · exact bisect_in f fuel lo ((hi + lo) / 2) _ _ h h0 (by linarith) (by linarith) (by linarith) (by linarith) e
      · exact bisect_in f fuel ((hi + lo) / 2) hi _ _ h (by linarith) (by linarith) h2 (by linarith) (by linarith) e
    · rw [← Option.some.inj e]
      exact ⟨h3, h4⟩

theorem h0_in {quad : (ℝ → ℝ) → ℝ → ℝ → ℝ} {wb wm w h : ℝ} (e : h0FromCMB quad wb wm w = some h) : 0.3 ≤ h ∧ h ≤ 1 := by
  unfold h0FromCMB solvehh at e
  exact bisect_in _ 20 _ _ _ _ h le_rfl (by norm_num) le_rfl (by norm_num) (by norm_num) e

/-! ### What is in the object -/

/-- the parameters that go to the emulators -/
def params6 (W : World) (c : Cosmo) : Fin W.T.p → ℝ := fun i => ![c.ob * c.h ^ 2, c.om * c.h ^ 2, c.ns, 100 * c.h, c.w, c.s8] (Fin.cast W.p i)

def params5 (W : World) (c : Cosmo) : Fin W.T'.p → ℝ := fun i => ![c.ob * c.h ^ 2, c.om * c.h ^ 2, c.ns, c.w, c.s8] (Fin.cast W.p' i)

theorem emu_ok {T : Table} {xs : Fin T.p → ℝ} {z : Num} {o : ℤ} {y : ℕ → ℝ × Num} (h : emu T xs z o = .ok y) :
    y = fun i => (T.ksim i, z.map fun z => convert o (T.ksim i) (atZ T (standard T xs) z i)) := by
  unfold emu at h
  split_ifs at h
  cases h
  rfl

theorem andThen_ok {α β : Type} {o : Out α} {f : α → Out β} {b : β} (h : o.andThen f = .ok b) : ∃ a, o = .ok a ∧ f a = .ok b := by
  cases o with
  | ok a => exact ⟨a, rfl, h⟩
  | raise => cases h
  | exit => cases h
  | undefined => cases h

/-- the object, from the wavenumbers and the values of the emulator -/
theorem create_ok {W : World} {c : Cosmo} {z : Num} {cmbh : Bool} {s : PS} (h : create W c z cmbh = .ok s) :
    verify c c.h z cmbh = true ∧
      (cmbh = false → s = finish W.mem W.T.ns c.h fun i => (W.T.ksim i, z.map fun z => convert 2 (W.T.ksim i) (atZ W.T (standard W.T (params6 W c)) z i))) ∧
      (cmbh = true → ∃ h', h0FromCMB W.quad (c.ob * c.h ^ 2) (c.om * c.h ^ 2) c.w = some h' ∧
        s = finish W.mem W.T'.ns h' fun i => (W.T'.ksim i, z.map fun z => convert 2 (W.T'.ksim i) (atZ W.T' (standard W.T' (params5 W c)) z i))) := by
  unfold create at h
  dsimp only at h
  split_ifs at h with h1 h2
  · refine ⟨by simpa using h1, fun h => by simp [h2] at h, fun _ => ?_⟩
    obtain ⟨y, hy, h⟩ := andThen_ok h
    have := emu_ok hy
    subst this
    obtain ⟨h', hh⟩ := h0_ends W.quad (c.ob * c.h ^ 2) (c.om * c.h ^ 2) c.w
    rw [hh] at h
    cases h
    exact ⟨h', hh, rfl⟩
  · refine ⟨by simpa using h1, fun _ => ?_, fun h => absurd h h2⟩
    obtain ⟨y, hy, h⟩ := andThen_ok h
    have := emu_ok hy
    subst this
    cases h
    rfl

theorem finish_some (mem : Spline.Arr) (N : ℕ) (h : ℝ) (k v : ℕ → ℝ) (z : ℝ) (g : ℝ → ℕ → ℝ) (hg : ∀ i, v i = g z i) :
    finish mem N h (fun i => (k i, (some z).map fun z => g z i)) = ⟨h, k 0 / h, k (N-1) / h, some (Spline.cubic N (fun i => k i / h) (fun i => v i * h ^ 3) mem)⟩ := by
  unfold finish
  have : v = g z := funext hg
  subst this
  simp

/-! ### Arrays of wavenumbers -/

theorem fold_fmin : ∀ (l : List ℝ) (a : ℝ), (l.map some).foldl fmin (some a) = some (l.foldl min a)
  | [], _ => rfl
  | b :: l, a => fold_fmin l (min a b)

theorem fold_fmax : ∀ (l : List ℝ) (a : ℝ), (l.map some).foldl fmax (some a) = some (l.foldl max a)
  | [], _ => rfl
  | b :: l, a => fold_fmax l (max a b)

theorem fold_min_lt {c : ℝ} : ∀ (l : List ℝ) (a : ℝ), l.foldl min a < c ↔ ∃ x ∈ a :: l, x < c
  | [], a => by simp
  | b :: l, a => by
    rw [List.foldl_cons, fold_min_lt l (min a b)]
    simp [or_assoc]

theorem fold_max_lt {c : ℝ} : ∀ (l : List ℝ) (a : ℝ), c < l.foldl max a ↔ ∃ x ∈ a :: l, c < x
  | [], a => by simp
  | b :: l, a => by
    rw [List.foldl_cons, fold_max_lt l (max a b)]
    simp [or_assoc]

theorem outside_iff (s : PS) {l : List ℝ} (hl : l ≠ []) : (lt (pmin (l.map some)) (some s.kmin) ∨ lt (some s.kmax) (pmax (l.map some))) ↔ ∃ k ∈ l, k ∉ Icc s.kmin s.kmax := by
  obtain ⟨a, l, rfl⟩ := List.exists_cons_of_ne_nil hl
  simp only [List.map_cons, pmin, pmax, fold_fmin, fold_fmax, lt, fold_min_lt, fold_max_lt]
  constructor
  · rintro (⟨x, hx, h⟩ | ⟨x, hx, h⟩)
    · exact ⟨x, hx, fun h' => absurd h (not_lt.2 h'.1)⟩
    · exact ⟨x, hx, fun h' => absurd h (not_lt.2 h'.2)⟩
  · rintro ⟨x, hx, h⟩
    by_cases h0 : x < s.kmin
    · exact Or.inl ⟨x, hx, h0⟩
    · exact Or.inr ⟨x, hx, by
        by_contra h1
        exact h ⟨not_lt.1 h0, not_lt.1 h1⟩⟩

theorem evalAll_of {s : PS} {F : ℝ → Num} (hF : ∀ k ∈ Icc s.kmin s.kmax, evalOne s (some k) = .ok (F k)) :
    ∀ l : List ℝ, (∀ k ∈ l, k ∈ Icc s.kmin s.kmax) → evalAll s (l.map some) = .ok (l.map F)
  | [], _ => rfl
  | a :: l, h => by
    rw [List.map_cons, evalAll, hF a (h a List.mem_cons_self), evalAll_of hF l fun k hk => h k (List.mem_cons_of_mem _ hk)]
    rfl

theorem evaluate_of {s : PS} {F : ℝ → Num} (hF : ∀ k ∈ Icc s.kmin s.kmax, evalOne s (some k) = .ok (F k)) {l : List ℝ} (hl : l ≠ []) :
    ((∀ k ∈ l, k ∈ Icc s.kmin s.kmax) → evaluate s (l.map some) = .ok (l.map F)) ∧ ((∃ k ∈ l, k ∉ Icc s.kmin s.kmax) → evaluate s (l.map some) = .raise) := by
  unfold evaluate
  refine ⟨fun h => ?_, fun h => if_pos ((outside_iff s hl).2 h)⟩
  rw [if_neg (mt (outside_iff s hl).1 (by push Not; exact h))]
  exact evalAll_of hF l h

/-- the object of a table of values -/
theorem spline_value {N : ℕ} (hN : 2 ≤ N) {k : ℕ → ℝ} (hk : ∀ i, i + 1 < N → k i < k (i+1)) {h : ℝ} (hh : 0 < h) (v : ℕ → ℝ) (mem : Spline.Arr) {s : PS}
    (hs : s = ⟨h, k 0 / h, k (N-1) / h, some (Spline.cubic N (fun i => k i / h) (fun i => v i * h ^ 3) mem)⟩) :
    ∃ F F' F'' : ℝ → ℝ, (∀ x ∈ Icc s.kmin s.kmax, HasDerivWithinAt F (F' x) (Icc s.kmin s.kmax) x ∧ HasDerivWithinAt F' (F'' x) (Icc s.kmin s.kmax) x) ∧
      ContinuousOn F'' (Icc s.kmin s.kmax) ∧ (∀ i < N, k i / h ∈ Icc s.kmin s.kmax ∧ F (k i / h) = v i * h ^ 3) ∧ ∀ x ∈ Icc s.kmin s.kmax, evalOne s (some x) = .ok (some (F x)) := by
  subst hs
  have hX : ∀ i, i + 1 < N → k i / h < k (i+1) / h := fun i hi => (div_lt_div_iff_of_pos_right hh).2 (hk i hi)
  obtain ⟨hv, F, F', F'', h1, h2, h3⟩ := Spline.C108_cubic hN hX (fun i => v i * h ^ 3) mem
  refine ⟨F, F', F'', h2, h3, fun i hi => ?_, fun x hx => ?_⟩
  · have hm : k i / h ∈ Icc (k 0 / h) (k (N-1) / h) :=
      ⟨Spline.mono_le hX (Nat.zero_le i) hi, Spline.mono_le hX (show i ≤ N - 1 by omega) (by omega)⟩
    refine ⟨hm, ?_⟩
    have := (h1 _ hm).1
    rw [hv i hi] at this
    exact (Option.some.inj this).symm
  · simp only [evalOne]
    rw [(h1 x hx).1]

/-! ### The theorems -/

theorem box_of {c : Cosmo} {z : ℝ} {cmbh : Bool} (h : verify c c.h (some z) cmbh = true) : Box c.ob c.om c.ns c.h c.w c.s8 z cmbh := (verify_iff c z cmbh).1 h

/-- the value of the emulator, in words of the specification -/
theorem convert_atZ {T : Table} (hT : T.Good) {u : Fin T.p → ℝ} {f : Fin T.q → (Fin T.p → ℝ) → ℝ}
    (hf : ∀ j, SimFit.IsMean (SimFit.gaussian (1 / T.lamz j) fun l => 1 / (2 * T.beta j l)) T.x (fun _ => 1 / Real.sqrt (T.lamws j)) (T.w j) (f j))
    {E : ℕ → ℝ} (hE : ∀ n, E n = T.mean n + T.sd * ∑ j, T.K n j * f j u) {i b r : ℕ} (hi : i < T.ns) (hb : b + 1 < T.nk) (hr : r + 1 < T.rs) {z : ℝ}
    (k0 : T.kemu b ≤ T.ksim i) (k1 : T.ksim i ≤ T.kemu (b+1)) (z0 : 1 / T.aemu (r+1) - 1 ≤ z) (z1 : z ≤ 1 / T.aemu r - 1) :
    convert 2 (T.ksim i) (atZ T u z i) = 2 * Real.pi ^ 2 / T.ksim i ^ (3 / 2 : ℝ) * (10:ℝ) ^ chord
      (1 / T.aemu (r+1) - 1) (chord (T.kemu b) (E ((r+1)*T.nk + b)) (T.kemu (b+1)) (E ((r+1)*T.nk + b + 1)) (T.ksim i))
      (1 / T.aemu r - 1) (chord (T.kemu b) (E (r*T.nk + b)) (T.kemu (b+1)) (E (r*T.nk + b + 1)) (T.ksim i)) z := by
  have hk : 0 < T.ksim i := hT.kpos.trans_le (Spline.mono_le hT.ksim (Nat.zero_le i) hi)
  have he : ∀ n, ystaremu T u n = E n := by
    intro n
    rw [hE n]
    unfold ystaremu
    have : ∀ j, wstar T u j = f j u := fun j => (congrFun (mean_eq hT (hf j)) u).symm
    simp only [this]
    ring
  rw [convert_power hk, atZ_chord hT u hb hr k0 k1 z0 z1]
  simp only [he, ← add_assoc]
  ring

/-- C137: the value of the spectrum.  Let `f j` be the mean of the Gaussian process (Gaussian kernel, variance `1/lamz`, noise `1/lamws`) through the weights of component `j` of the simulations, and `E` the
emulated table at the standardized parameters of the cosmology.  Then at the wavenumber `q` of the simulations the object returns, with `k = q/h`, the spectrum
`P = h³ 2π² q^(-3/2) 10^y`, where `y` is the linear interpolation of `E` in `q` and in redshift. -/
theorem C137_value {W : World} (hT : W.T.Good) {c : Cosmo} {z : ℝ} {s : PS} (h : create W c (some z) false = .ok s) {f : Fin W.T.q → (Fin W.T.p → ℝ) → ℝ}
    (hf : ∀ j, SimFit.IsMean (SimFit.gaussian (1 / W.T.lamz j) fun l => 1 / (2 * W.T.beta j l)) W.T.x (fun _ => 1 / Real.sqrt (W.T.lamws j)) (W.T.w j) (f j))
    {E : ℕ → ℝ} (hE : ∀ n, E n = W.T.mean n + W.T.sd * ∑ j, W.T.K n j * f j fun l =>
      (![c.ob * c.h ^ 2, c.om * c.h ^ 2, c.ns, 100 * c.h, c.w, c.s8] (Fin.cast W.p l) - W.T.xmin l) / W.T.xrange l)
    {i b r : ℕ} (hi : i < W.T.ns) (hb : b + 1 < W.T.nk) (hr : r + 1 < W.T.rs)
    (k0 : W.T.kemu b ≤ W.T.ksim i) (k1 : W.T.ksim i ≤ W.T.kemu (b+1)) (z0 : 1 / W.T.aemu (r+1) - 1 ≤ z) (z1 : z ≤ 1 / W.T.aemu r - 1) :
    s.h = c.h ∧ evaluate s [some (W.T.ksim i / c.h)] = .ok [some (c.h ^ 3 * (2 * Real.pi ^ 2 / W.T.ksim i ^ (3 / 2 : ℝ) * (10:ℝ) ^ chord
      (1 / W.T.aemu (r+1) - 1) (chord (W.T.kemu b) (E ((r+1)*W.T.nk + b)) (W.T.kemu (b+1)) (E ((r+1)*W.T.nk + b + 1)) (W.T.ksim i))
      (1 / W.T.aemu r - 1) (chord (W.T.kemu b) (E (r*W.T.nk + b)) (W.T.kemu (b+1)) (E (r*W.T.nk + b + 1)) (W.T.ksim i)) z))] := by
  obtain ⟨hv, h1, _⟩ := create_ok h
  have hs := h1 rfl
  rw [finish_some _ _ _ _ (fun i => convert 2 (W.T.ksim i) (atZ W.T (standard W.T (params6 W c)) z i)) z (fun z i => convert 2 (W.T.ksim i) (atZ W.T (standard W.T (params6 W c)) z i)) fun _ => rfl] at hs
  have hh : 0 < c.h := by
    have := (box_of hv).2.2.2.2.2.2 rfl
    linarith [this.1]
  obtain ⟨F, F', F'', _, _, hF, hev⟩ := spline_value hT.ns hT.ksim hh _ W.mem hs
  have hx := hF i hi
  refine ⟨by rw [hs], ?_⟩
  have := (evaluate_of (F := fun x => some (F x)) hev (l := [W.T.ksim i / c.h]) (by simp)).1 (by simpa using hx.1)
  have e : evaluate s [some (W.T.ksim i / c.h)] = _ := this
  rw [e, List.map_singleton, hx.2, mul_comm _ (c.h ^ 3), convert_atZ hT (u := standard W.T (params6 W c)) hf hE hi hb hr k0 k1 z0 z1]

/-- C137: likewise with the Hubble parameter of the CMB: the emulator has five parameters, and `h` in the units is that of the CMB, which is also what the object reports. -/
theorem C137_value_cmb {W : World} (hT : W.T'.Good) {c : Cosmo} {z : ℝ} {s : PS} (h : create W c (some z) true = .ok s) {f : Fin W.T'.q → (Fin W.T'.p → ℝ) → ℝ}
    (hf : ∀ j, SimFit.IsMean (SimFit.gaussian (1 / W.T'.lamz j) fun l => 1 / (2 * W.T'.beta j l)) W.T'.x (fun _ => 1 / Real.sqrt (W.T'.lamws j)) (W.T'.w j) (f j))
    {E : ℕ → ℝ} (hE : ∀ n, E n = W.T'.mean n + W.T'.sd * ∑ j, W.T'.K n j * f j fun l =>
      (![c.ob * c.h ^ 2, c.om * c.h ^ 2, c.ns, c.w, c.s8] (Fin.cast W.p' l) - W.T'.xmin l) / W.T'.xrange l)
    {i b r : ℕ} (hi : i < W.T'.ns) (hb : b + 1 < W.T'.nk) (hr : r + 1 < W.T'.rs)
    (k0 : W.T'.kemu b ≤ W.T'.ksim i) (k1 : W.T'.ksim i ≤ W.T'.kemu (b+1)) (z0 : 1 / W.T'.aemu (r+1) - 1 ≤ z) (z1 : z ≤ 1 / W.T'.aemu r - 1) :
    h0FromCMB W.quad (c.ob * c.h ^ 2) (c.om * c.h ^ 2) c.w = some s.h ∧ evaluate s [some (W.T'.ksim i / s.h)] = .ok [some (s.h ^ 3 * (2 * Real.pi ^ 2 / W.T'.ksim i ^ (3 / 2 : ℝ) * (10:ℝ) ^ chord
      (1 / W.T'.aemu (r+1) - 1) (chord (W.T'.kemu b) (E ((r+1)*W.T'.nk + b)) (W.T'.kemu (b+1)) (E ((r+1)*W.T'.nk + b + 1)) (W.T'.ksim i))
      (1 / W.T'.aemu r - 1) (chord (W.T'.kemu b) (E (r*W.T'.nk + b)) (W.T'.kemu (b+1)) (E (r*W.T'.nk + b + 1)) (W.T'.ksim i)) z))] := by
  obtain ⟨hv, _, h1⟩ := create_ok h
  obtain ⟨h', hc, hs⟩ := h1 rfl
  rw [finish_some _ _ _ _ (fun i => convert 2 (W.T'.ksim i) (atZ W.T' (standard W.T' (params5 W c)) z i)) z (fun z i => convert 2 (W.T'.ksim i) (atZ W.T' (standard W.T' (params5 W c)) z i)) fun _ => rfl] at hs
  have hh : 0 < h' := by linarith [(h0_in hc).1]
  obtain ⟨F, F', F'', _, _, hF, hev⟩ := spline_value hT.ns hT.ksim hh _ W.mem hs
  have hx := hF i hi
  have e' : s.h = h' := by rw [hs]
  rw [e']
  refine ⟨hc, ?_⟩
  have := (evaluate_of (F := fun x => some (F x)) hev (l := [W.T'.ksim i / h']) (by simp)).1 (by simpa using hx.1)
  have e : evaluate s [some (W.T'.ksim i / h')] = _ := this
  rw [e, List.map_singleton, hx.2, mul_comm _ (h' ^ 3), convert_atZ hT (u := standard W.T' (params5 W c)) hf hE hi hb hr k0 k1 z0 z1]

/-- C137: the predicted weights are determined: for every component there is exactly one mean of the process, whatever the design is. -/
theorem C137_weights {T : Table} (hT : T.Good) (j : Fin T.q) :
    (sigmaSim T j).PosDef ∧ ∃! f, SimFit.IsMean (SimFit.gaussian (1 / T.lamz j) fun l => 1 / (2 * T.beta j l)) T.x (fun _ => 1 / Real.sqrt (T.lamws j)) (T.w j) f :=
  ⟨sigmaSim_posDef hT j, SimFit.C129_unique (one_div_pos.2 (hT.lamz j)) (fun a => one_div_pos.2 (mul_pos two_pos (hT.beta j a)))
    fun _ => (one_div_pos.2 (Real.sqrt_pos.2 (hT.lamws j))).ne'⟩

/-- C137: the tables cover everything: every wavenumber of the output is between two of the components, every redshift up to 4 between two snapshots. -/
theorem C137_covered {T : Table} (hT : T.Good) : (∀ i < T.ns, ∃ b, b + 1 < T.nk ∧ T.kemu b ≤ T.ksim i ∧ T.ksim i ≤ T.kemu (b+1)) ∧
    ∀ z ∈ Icc (0:ℝ) 4, ∃ r, r + 1 < T.rs ∧ 1 / T.aemu (r+1) - 1 ≤ z ∧ z ≤ 1 / T.aemu r - 1 := by
  refine ⟨fun i hi => ?_, fun z hz => ?_⟩
  · obtain ⟨b, hb, h⟩ := Spline.interval hT.nk hT.kemu (hT.klo.trans (Spline.mono_le hT.ksim (Nat.zero_le i) hi)) ((Spline.mono_le hT.ksim (show i ≤ T.ns - 1 by omega) (by have := hT.ns; omega)).trans hT.khi)
    exact ⟨b, hb, h⟩
  · have h0 : zemu T 0 = 0 := by
      unfold zemu; rw [Nat.sub_zero, hT.alast]; norm_num
    have h1 : zemu T (T.rs-1) = 4 := by
      unfold zemu; rw [show T.rs - (T.rs - 1) - 1 = 0 by have := hT.rs; omega, hT.afirst]; norm_num
    obtain ⟨s, hs, h⟩ := Spline.interval hT.rs (X := zemu T) (fun i hi => zemu_step hT hi) (x := z) (by rw [h0]; exact hz.1) (by rw [h1]; exact hz.2)
    refine ⟨T.rs - (s+1) - 1, by omega, ?_, ?_⟩
    · rw [show T.rs - (s+1) - 1 + 1 = T.rs - s - 1 by omega]; exact h.1
    · exact h.2

theorem ksim_ends : ((ksimN.getD 0 0 : ℕ) : ℝ) / 10 ^ 19 = 0.0008694 ∧ ((ksimN.getD 581 0 : ℕ) : ℝ) / 10 ^ 19 = 8.5692 := by
  rw [show ksimN.getD 0 0 = 8694000000000000 from rfl, ksimN_last]
  constructor <;> norm_num

theorem shipped_tables {W : World} (hW : W.Shipped) :
    (W.T.Good ∧ W.T.ksim 0 = 0.0008694 ∧ W.T.ksim (W.T.ns-1) = 8.5692) ∧ W.T'.Good ∧ W.T'.ksim 0 = 0.0008694 ∧ W.T'.ksim (W.T'.ns-1) = 8.5692 := by
  obtain ⟨⟨x, w, K, mean, e⟩, x', w', K', mean', e'⟩ := hW
  rw [e, e']
  exact ⟨⟨shipped_good x w K mean, ksim_ends⟩, shippedNoh_good x' w' K' mean', ksim_ends⟩

/-- the range of the object, whichever emulator it is -/
theorem create_range {W : World} (hW : W.Shipped) {c : Cosmo} {z : ℝ} {cmbh : Bool} {s : PS} (h : create W c (some z) cmbh = .ok s) :
    0 < s.h ∧ s.kmin = 0.0008694 / s.h ∧ s.kmax = 8.5692 / s.h ∧
      ∃ F F' F'' : ℝ → ℝ, (∀ x ∈ Icc s.kmin s.kmax, HasDerivWithinAt F (F' x) (Icc s.kmin s.kmax) x ∧ HasDerivWithinAt F' (F'' x) (Icc s.kmin s.kmax) x) ∧
      ContinuousOn F'' (Icc s.kmin s.kmax) ∧ ∀ x ∈ Icc s.kmin s.kmax, evalOne s (some x) = .ok (some (F x)) := by
  obtain ⟨⟨g, a0, a1⟩, g', b0, b1⟩ := shipped_tables hW
  obtain ⟨hv, h1, h2⟩ := create_ok h
  cases cmbh
  · have hs := h1 rfl
    rw [finish_some _ _ _ _ (fun i => convert 2 (W.T.ksim i) (atZ W.T (standard W.T (params6 W c)) z i)) z (fun z i => convert 2 (W.T.ksim i) (atZ W.T (standard W.T (params6 W c)) z i)) fun _ => rfl] at hs
    have hh : 0 < c.h := by
      have := (box_of hv).2.2.2.2.2.2 rfl
      linarith [this.1]
    obtain ⟨F, F', F'', a, b, _, d⟩ := spline_value g.ns g.ksim hh _ W.mem hs
    refine ⟨by rw [hs]; exact hh, ?_, ?_, F, F', F'', a, b, d⟩
    · rw [hs]; dsimp only; rw [a0]
    · rw [hs]; dsimp only; rw [a1]
  · obtain ⟨h', hc, hs⟩ := h2 rfl
    rw [finish_some _ _ _ _ (fun i => convert 2 (W.T'.ksim i) (atZ W.T' (standard W.T' (params5 W c)) z i)) z (fun z i => convert 2 (W.T'.ksim i) (atZ W.T' (standard W.T' (params5 W c)) z i)) fun _ => rfl] at hs
    have hh : 0 < h' := by linarith [(h0_in hc).1]
    obtain ⟨F, F', F'', a, b, _, d⟩ := spline_value g'.ns g'.ksim hh _ W.mem hs
    refine ⟨by rw [hs]; exact hh, ?_, ?_, F, F', F'', a, b, d⟩
    · rw [hs]; dsimp only; rw [b0]
    · rw [hs]; dsimp only; rw [b1]

/-- C137: the range of wavenumbers.  On `[0.0008694/h, 8.5692/h]` the object is one twice continuously differentiable function, and an array of wavenumbers gives the array of its values; if one of
the wavenumbers is outside of the range there is an exception. -/
theorem C137_range_partial {W : World} (hW : W.Shipped) {c : Cosmo} {z : ℝ} {cmbh : Bool} {s : PS} (h : create W c (some z) cmbh = .ok s) :
    ∃ F F' F'' : ℝ → ℝ, (∀ x ∈ Icc (0.0008694 / s.h) (8.5692 / s.h), HasDerivWithinAt F (F' x) (Icc (0.0008694 / s.h) (8.5692 / s.h)) x ∧
        HasDerivWithinAt F' (F'' x) (Icc (0.0008694 / s.h) (8.5692 / s.h)) x) ∧ ContinuousOn F'' (Icc (0.0008694 / s.h) (8.5692 / s.h)) ∧
      ∀ l : List ℝ, l ≠ [] → ((∀ k ∈ l, k ∈ Icc (0.0008694 / s.h) (8.5692 / s.h)) → evaluate s (l.map some) = .ok (l.map fun k => some (F k))) ∧
        ((∃ k ∈ l, k ∉ Icc (0.0008694 / s.h) (8.5692 / s.h)) → evaluate s (l.map some) = .raise) := by
  obtain ⟨_, e0, e1, F, F', F'', a, b, d⟩ := create_range hW h
  rw [← e0, ← e1]
  exact ⟨F, F', F'', a, b, fun l hl => evaluate_of d hl⟩

/-- C137, what is missing: the empty array is an exception; nan is not looked at by the check of the range, and undefined after it. -/
theorem C137_array_counterexample {W : World} (hW : W.Shipped) {c : Cosmo} {z : ℝ} {cmbh : Bool} {s : PS} (h : create W c (some z) cmbh = .ok s) :
    evaluate s [] = .raise ∧ evaluate s [none] = .undefined ∧ ∀ k ∈ Icc s.kmin s.kmax, evaluate s [some k, none] = .undefined := by
  obtain ⟨h0, e0, e1, F, F', F'', _, _, d⟩ := create_range hW h
  have hpos : 0 < s.kmin := by rw [e0]; positivity
  refine ⟨?_, ?_, fun k hk => ?_⟩
  · unfold evaluate
    exact if_pos (Or.inl (show (0:ℝ) < s.kmin from hpos))
  · unfold evaluate
    rw [if_neg (by simp [pmin, pmax, lt])]
    rfl
  · unfold evaluate
    rw [if_neg]
    · rw [evalAll, d k hk]
      rfl
    · show ¬ (k < s.kmin ∨ s.kmax < k)
      push Not
      exact hk

/-- C137, what is missing: nan as a redshift is not outside of any limit: the object is made, and all its values are nan. -/
theorem C137_nan_counterexample {W : World} (hW : W.Shipped) {c : Cosmo} (hb : Box c.ob c.om c.ns c.h c.w c.s8 0 false) (h1 : c.w ≤ dy (-6305039478318695) 53) (h2 : c.s8 ≤ dy 8106479329266892 53) :
    ∃ s, create W c none false = .ok s ∧ ∀ l : List ℝ, l ≠ [] → (∀ k ∈ l, k ∈ Icc s.kmin s.kmax) → evaluate s (l.map some) = .ok (l.map fun _ => none) := by
  obtain ⟨T, T', hp, hp', quad, mem⟩ := W
  obtain ⟨⟨x, w, K, mean, e⟩, x', w', K', mean', e'⟩ := hW
  dsimp only at e e'
  subst e e'
  have hn : ¬ (dy (-6305039478318695) 53 < c.w ∨ dy 8106479329266892 53 < c.s8) := by push Not; exact ⟨h1, h2⟩
  have hv := (verify_iff c 0 false).2 hb
  rw [← verify_nan c 0 ⟨le_rfl, zero_le_one⟩] at hv
  refine ⟨finish mem 582 c.h fun i => ((shipped x w K mean).ksim i, none), ?_, fun l hl h => ?_⟩
  · unfold create
    dsimp only
    rw [hv]
    simp only [Bool.not_true, Bool.false_eq_true, if_false]
    rw [emu_in (T := shipped x w K mean) (xs := fun i => ![c.ob * c.h ^ 2, c.om * c.h ^ 2, c.ns, 100 * c.h, c.w, c.s8] (Fin.cast hp i)) (mt (within hb).1 hn) (by simp [lt])]
    rfl
  · refine (evaluate_of (F := fun _ => none) (fun k hk => ?_) hl).1 h
    have : (finish mem 582 c.h fun i => ((shipped x w K mean).ksim i, none)).spl = none := by
      unfold finish
      dsimp only
      rw [if_neg]
      intro h
      exact absurd (h 0 (by norm_num)) (by simp)
    simp only [evalOne, this]
    exact if_pos hk

end

end Verif.Emu
