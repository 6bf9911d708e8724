import Verif.Props.ExtrapolateExact

/-!
# C147: multipoles of an extrapolated power spectrum, and a changed model
-/

namespace Verif.Extrapolate

noncomputable section

open Classical ExtrapolateSpec

/-- The Simpson integral over mu, with `N` nodes from 0 to 1, of a function times `(2 ell + 1)` times the Legendre polynomial -/
def pole (f : ℝ → ℝ) (N ell : ℕ) : ℝ := Quad.simps N (Quad.linspace01 N) fun j => (2 * ell + 1) * Verif.Legendre.leg ell (Quad.linspace01 N j) * f (Quad.linspace01 N j)

theorem simps_congr (N : ℕ) (x y z : ℕ → ℝ) (hN : 3 ≤ N) (h : ∀ j < N, y j = z j) : Quad.simps N x y = Quad.simps N x z := by
  have hb : ∀ a b, b + 1 < N → Quad.basicSimps x y a b = Quad.basicSimps x z a b ∨ b ≤ a := by
    intro a b hb
    rcases Nat.lt_or_ge a b with hab | hab
    · left
      unfold Quad.basicSimps
      refine Finset.sum_congr rfl fun m hm => ?_
      rw [Finset.mem_range] at hm
      unfold Quad.panel
      rw [h (a + 2 * m) (by omega), h (a + 2 * m + 1) (by omega), h (a + 2 * m + 2) (by omega)]
    · exact .inr hab
  unfold Quad.simps
  split_ifs with he
  · have h1 : 4 ≤ N := by omega
    rw [(hb 0 (N - 3) (by omega)).resolve_right (by omega), (hb 1 (N - 2) (by omega)).resolve_right (by omega), h (N - 1) (by omega), h (N - 2) (by omega), h 1 (by omega), h 0 (by omega)]
  · exact (hb 0 (N - 2) (by omega)).resolve_right (by omega)

theorem polesOf_table (g : ℝ → ℝ → ℝ) (k : List ℝ) (ells : List ℕ) (N : ℕ) (hk : 2 ≤ k.length) (hN : 3 ≤ N) (hne : k.length ≠ N) (hl : ells.length ≠ k.length) (h0 : ells ≠ []) :
    polesOf g k ells N = .ok (.table (k.map fun q => ells.map fun l => pole (g q) N l)) := by
  obtain ⟨D, hD, t⟩ := Bcast.C113_grid g k.length N hne hk (by omega) (fun i => k.getD i 0) (fun i => Quad.linspace01 N i)
  unfold Bcast.vec at hD
  unfold polesOf
  rw [hD]
  dsimp only
  rw [if_pos hl, if_neg h0, t.shape]
  dsimp only
  congr 2
  apply List.ext_getElem
  · simp
  · intro i h1 h2
    simp only [List.length_map, List.length_range] at h1
    simp only [List.getElem_map, List.getElem_range]
    refine List.map_congr_left fun l _ => ?_
    unfold pole
    refine simps_congr N _ _ _ hN fun j hj => ?_
    rw [t.value i h1 j hj, List.getD_eq_getElem?_getD, List.getElem?_eq_getElem h1]
    rfl

theorem polesOf_flat (g : ℝ → ℝ → ℝ) (k : List ℝ) (ells : List ℕ) (N : ℕ) (hk : 2 ≤ k.length) (hN : 3 ≤ N) (hne : k.length ≠ N) (hl : ells.length = k.length) :
    polesOf g k ells N = .ok (.flat (List.zipWith (fun q l => pole (g q) N l) k ells)) := by
  obtain ⟨D, hD, t⟩ := Bcast.C113_grid g k.length N hne hk (by omega) (fun i => k.getD i 0) (fun i => Quad.linspace01 N i)
  unfold Bcast.vec at hD
  unfold polesOf
  rw [hD]
  dsimp only
  rw [if_neg (by simpa using hl), t.shape]
  dsimp only
  congr 2
  apply List.ext_getElem
  · simp [hl]
  · intro i h1 h2
    simp only [List.length_map, List.length_range] at h1
    simp only [List.getElem_map, List.getElem_range, List.getElem_zipWith]
    unfold pole
    refine simps_congr N _ _ _ hN fun j hj => ?_
    have hi : i < ells.length := by omega
    have g1 : k.getD i 0 = k[i] := by rw [List.getD_eq_getElem?_getD, List.getElem?_eq_getElem h1]; rfl
    have g2 : ells.getD i 0 = ells[i] := by rw [List.getD_eq_getElem?_getD, List.getElem?_eq_getElem hi]; rfl
    rw [t.value i h1 j hj, g1, g2]
    rfl

theorem polesOf_paired (g : ℝ → ℝ → ℝ) (k : List ℝ) (ells : List ℕ) (hk : 3 ≤ k.length) (hl : ells.length ≠ k.length) (h0 : ells ≠ []) :
    polesOf g k ells k.length = .ok (.table (k.zipIdx.map fun q => ells.map fun l => pole (fun _ => g q.1 (Quad.linspace01 k.length q.2)) k.length l)) := by
  obtain ⟨D, hD, t⟩ := Bcast.C113_paired g k.length (fun i => k.getD i 0) (fun i => Quad.linspace01 k.length i) false
  unfold Bcast.vec at hD
  unfold polesOf
  rw [hD]
  dsimp only
  rw [if_pos hl, if_neg h0, t.shape]
  dsimp only
  congr 2
  apply List.ext_getElem
  · simp
  · intro i h1 h2
    simp only [List.length_map, List.length_range] at h1
    simp only [List.getElem_map, List.getElem_range, List.getElem_zipIdx]
    refine List.map_congr_left fun l _ => ?_
    unfold pole
    refine simps_congr _ _ _ _ hk fun j hj => ?_
    rw [t.value i h1, List.getD_eq_getElem?_getD, List.getElem?_eq_getElem h1]
    simp [kern]

/-- The function of a state in a run extrapolates, and a run's `curve` computes with it at the wavenumbers given -/
theorem curve_run {T : Tools} {m : PModel} {o : Opts} {e : Ext} (h : Run T m o e) {P : ℝ → ℝ → ℝ} (hP : m.P = some P) (hlh : e.kLo ≤ e.kHi) {k : List ℝ} {g : (ℝ → ℝ → ℝ) × Ext} (hc : e.curve T k = .ok g) :
    Extrapolates P e.kLo e.kHi (e.fn T P) ∧ ∀ q ∈ k, ∀ mu, g.1 q mu = e.fn T P q mu := by
  obtain ⟨s, hm⟩ := run_sound h
  refine ⟨entry_extrapolates P hlh _ _, ?_⟩
  rcases curve_spec s (hm.trans hP) k with ⟨x, hx, -⟩ | ⟨g', e₂, hg, -, -, hq, -⟩
  · rw [hx] at hc; exact absurd hc (by simp)
  · rw [hg] at hc; injection hc with hc; subst hc; exact hq

/-- C147: the multipoles that `to_poles` returns, a row per wavenumber and a column per order, are the Simpson integrals over mu of the extrapolated power with the Legendre polynomials — for at least two
wavenumbers, not as many as there are mu, nor as there are orders. -/
theorem C147_poles {T : Tools} {m : PModel} {o : Opts} {e : Ext} (h : Run T m o e) {P : ℝ → ℝ → ℝ} (hP : m.P = some P) (hlh : e.kLo ≤ e.kHi) (k : List ℝ) (ells : List ℕ) (N : ℕ)
    (hk : 2 ≤ k.length) (hN : 3 ≤ N) (hne : k.length ≠ N) (hl : ells.length ≠ k.length) (h0 : ells ≠ []) :
    ∃ g, Extrapolates P e.kLo e.kHi g ∧ ∀ p e', e.toPoles T k ells N = .ok (p, e') → p = .table (k.map fun q => ells.map fun l => pole (g q) N l) := by
  refine ⟨e.fn T P, entry_extrapolates P hlh _ _, fun p e' hp => ?_⟩
  unfold Ext.toPoles at hp
  simp only [bind, Except.bind] at hp
  cases hc : e.curve T k with
  | error x => rw [hc] at hp; exact absurd hp (by simp)
  | ok g =>
    rw [hc] at hp
    dsimp only at hp
    rw [polesOf_table g.1 k ells N hk hN hne hl h0] at hp
    dsimp only at hp
    injection hp with hp
    injection hp with hp _
    rw [← hp]
    congr 1
    refine List.map_congr_left fun q hq => List.map_congr_left fun l _ => ?_
    unfold pole
    simp only [(curve_run h hP hlh hc).2 q hq]

/-- C147 is false of `to_poles` with as many orders as wavenumbers: instead of a table it returns one number per wavenumber, the multipole of the order at the same place. -/
theorem C147_poles_orders_counterexample {T : Tools} {m : PModel} {o : Opts} {e : Ext} (h : Run T m o e) {P : ℝ → ℝ → ℝ} (hP : m.P = some P) (hlh : e.kLo ≤ e.kHi) (k : List ℝ) (ells : List ℕ) (N : ℕ)
    (hk : 2 ≤ k.length) (hN : 3 ≤ N) (hne : k.length ≠ N) (hl : ells.length = k.length) :
    ∃ g, Extrapolates P e.kLo e.kHi g ∧ ∀ p e', e.toPoles T k ells N = .ok (p, e') → p = .flat (List.zipWith (fun q l => pole (g q) N l) k ells) := by
  refine ⟨e.fn T P, entry_extrapolates P hlh _ _, fun p e' hp => ?_⟩
  unfold Ext.toPoles at hp
  simp only [bind, Except.bind] at hp
  cases hc : e.curve T k with
  | error x => rw [hc] at hp; exact absurd hp (by simp)
  | ok g =>
    rw [hc] at hp
    dsimp only at hp
    rw [polesOf_flat g.1 k ells N hk hN hne hl] at hp
    dsimp only at hp
    injection hp with hp
    injection hp with hp _
    rw [← hp]
    congr 1
    apply List.ext_getElem
    · simp
    · intro i h1 h2
      simp only [List.getElem_zipWith]
      unfold pole
      simp only [(curve_run h hP hlh hc).2 _ (List.getElem_mem _)]

/-- C147 is false of `to_poles` with as many wavenumbers as mu (41 unless given): row `i` then holds the multipoles of the constant `P(k_i, mu_i)`. -/
theorem C147_poles_paired_counterexample {T : Tools} {m : PModel} {o : Opts} {e : Ext} (h : Run T m o e) {P : ℝ → ℝ → ℝ} (hP : m.P = some P) (hlh : e.kLo ≤ e.kHi) (k : List ℝ) (ells : List ℕ)
    (hk : 3 ≤ k.length) (hl : ells.length ≠ k.length) (h0 : ells ≠ []) :
    ∃ g, Extrapolates P e.kLo e.kHi g ∧ ∀ p e', e.toPoles T k ells k.length = .ok (p, e') →
      p = .table (k.zipIdx.map fun q => ells.map fun l => pole (fun _ => g q.1 (Quad.linspace01 k.length q.2)) k.length l) := by
  refine ⟨e.fn T P, entry_extrapolates P hlh _ _, fun p e' hp => ?_⟩
  unfold Ext.toPoles at hp
  simp only [bind, Except.bind] at hp
  cases hc : e.curve T k with
  | error x => rw [hc] at hp; exact absurd hp (by simp)
  | ok g =>
    rw [hc] at hp
    dsimp only at hp
    rw [polesOf_paired g.1 k ells hk hl h0] at hp
    dsimp only at hp
    injection hp with hp
    injection hp with hp _
    rw [← hp]
    congr 1
    refine List.map_congr_left fun q hq => List.map_congr_left fun l _ => ?_
    unfold pole
    have hq1 : q.1 ∈ k := List.fst_mem_of_mem_zipIdx hq
    simp only [(curve_run h hP hlh hc).2 q.1 hq1]

/-- C147: the smoothed correlation function multipoles are the transforms of the multipoles of the extrapolated power at a thousand wavenumbers from 1e-5 to 10. -/
theorem C147_correlation {T : Tools} {m : PModel} {o : Opts} {P : ℝ → ℝ → ℝ} (hP : m.P = some P) (r : List ℝ) (ells : List ℕ) (R : ℝ) (hl : ells.length ≠ 1000) (h0 : ells ≠ [])
    {x : List (List ℝ)} (h : smoothedXi T m o r ells R = .ok x) :
    ∃ e, init m o = .ok e ∧ (e.kLo ≤ e.kHi → ∃ g, Extrapolates P e.kLo e.kHi g ∧
      x = r.map fun s => ells.map fun l => T.toXi l (logspace ((10 : ℝ) ^ (-5 : ℝ)) 10 1000) ((logspace ((10 : ℝ) ^ (-5 : ℝ)) 10 1000).map fun k => pole (g k) 41 l) s R) := by
  unfold smoothedXi at h
  simp only [bind, Except.bind] at h
  cases he : init m o with
  | error y => rw [he] at h; exact absurd h (by simp)
  | ok e =>
    refine ⟨e, rfl, fun hlh => ?_⟩
    rw [he] at h
    dsimp only at h
    have hlen : (logspace ((10 : ℝ) ^ (-5 : ℝ)) 10 1000).length = 1000 := logspace_length _ _ _
    generalize logspace ((10 : ℝ) ^ (-5 : ℝ)) 10 1000 = K at hlen h ⊢
    obtain ⟨g, hg, hpoles⟩ := C147_poles (Run.init (T := T) e he) hP hlh K ells 41 (by omega) (by norm_num) (by omega) (by omega) h0
    cases hp : e.toPoles T K ells 41 with
    | error y => rw [hp] at h; exact absurd h (by simp)
    | ok p =>
      rw [hp] at h
      dsimp only at h
      rw [hpoles p.1 p.2 hp] at h
      dsimp only at h
      injection h with h
      refine ⟨g, hg, ?_⟩
      rw [← h]
      refine List.map_congr_left fun s _ => ?_
      apply List.ext_getElem
      · simp
      · intro i h1 h2
        simp only [List.length_map, List.length_zipIdx] at h1
        simp only [List.getElem_map, List.getElem_zipIdx, List.map_map]
        congr 1
        refine List.map_congr_left fun k _ => ?_
        simp [List.getD_eq_getElem?_getD, List.getElem?_map, List.getElem?_eq_getElem h1]

/-! ### A changed model -/

theorem getLow_keeps {T : Tools} {e e' : Ext} {f : ℝ → ℝ} (h : e.getLow T = .ok (f, e')) : e'.low = some f ∧ e'.kLo = e.kLo ∧ e'.kHi = e.kHi := by
  unfold Ext.getLow at h
  cases hl : e.low with
  | some g => rw [hl] at h; injection h with h; injection h with a b; subst a b; exact ⟨hl, rfl, rfl⟩
  | none =>
    rw [hl] at h
    simp only [bind, Except.bind] at h
    cases hI : e.getTable with
    | error x => rw [hI] at h; exact absurd h (by simp)
    | ok I =>
      rw [hI] at h
      dsimp only at h
      cases hf : e.newLow T I with
      | error x => rw [hf] at h; exact absurd h (by simp)
      | ok g => rw [hf] at h; injection h with h; injection h with a b; subst a b; exact ⟨rfl, rfl, rfl⟩

/-- C147 is false of a model that is changed after an evaluation: the extrapolation keeps the slopes of the old model, with the amplitude of the new one. -/
theorem C147_changed_model_counterexample {T : Tools} {m : PModel} {o : Opts} {e : Ext} (h : Run T m o e) {P Q : ℝ → ℝ → ℝ} (hP : m.P = some P) {f : ℝ → ℝ} (hf : e.lowOf T = .ok f) (k mu : ℝ)
    (hk : k < e.kLo) (hhi : e.kLo ≤ e.kHi) :
    (((e.step T (.call [(k, mu)])).step T (.model (some Q))).call T [(k, mu)]).map (·.1) = .ok [Q e.kLo mu * (k / e.kLo) ^ f mu] := by
  obtain ⟨s, hm⟩ := run_sound h
  rcases getLow_spec s with ⟨x, a, -⟩ | ⟨f', e', a, b, c, -⟩
  · rw [hf] at a; exact absurd a (by simp)
  · rw [hf] at a; injection a with a; subst a
    obtain ⟨d1, d2, d3⟩ := getLow_keeps b
    have h2 : ¬ ∃ q ∈ [k], e'.kHi < q := by
      rintro ⟨q, hq, h⟩
      rw [List.mem_singleton] at hq; subst hq
      linarith
    have hc : e.curve T ([(k, mu)].map (·.1)) = .ok (entry P e.kLo e.kHi f (fun _ => 0, fun _ => 0), e') := by
      simp only [Ext.curve, bind, Except.bind, Ext.lowFor, Ext.highFor, List.map_cons, List.map_nil]
      rw [if_pos ⟨k, List.mem_singleton.mpr rfl, hk⟩, b]
      simp only [if_neg h2, hm.trans hP]
    have hs : e.step T (.call [(k, mu)]) = e' := by
      unfold Ext.step Ext.call
      dsimp only
      rw [if_neg (by simp), hc]
      rfl
    rw [hs]
    obtain ⟨e₂, he₂⟩ : ∃ e₂, e₂ = e'.step T (.model (some Q)) := ⟨_, rfl⟩
    rw [← he₂]
    have g1 : e₂.getLow T = .ok (f, e₂) := by
      have : e₂.low = some f := by rw [he₂]; exact d1
      unfold Ext.getLow
      rw [this]
    have g2 : e₂.kLo = e.kLo := by rw [he₂]; exact d2
    have g3 : e₂.kHi = e.kHi := by rw [he₂]; exact d3
    have g4 : e₂.m.P = some Q := by rw [he₂]; rfl
    have h2' : ¬ ∃ q ∈ [k], e₂.kHi < q := by rw [g3, ← d3]; exact h2
    have hc2 : e₂.curve T ([(k, mu)].map (·.1)) = .ok (entry Q e₂.kLo e₂.kHi f (fun _ => 0, fun _ => 0), e₂) := by
      simp only [Ext.curve, bind, Except.bind, Ext.lowFor, Ext.highFor, List.map_cons, List.map_nil]
      rw [if_pos ⟨k, List.mem_singleton.mpr rfl, by rw [g2]; exact hk⟩, g1]
      simp only [if_neg h2', g4]
    unfold Ext.call
    rw [if_neg (by simp), hc2]
    simp only [Except.map, List.map_cons, List.map_nil, entry, g2, if_pos hk, powerLaw, zero_mul, add_zero]

/-! ### A concrete case -/

/-- Functions that fulfil the assumptions made of the other packages -/
def demoTools : Tools where
  fitLo A x y := if h : ∃ a, ∀ c, ssr A x y a 0 ≤ ssr A x y c 0 then h.choose else 0
  fitHi A x y := if h : ∃ a : ℝ × ℝ, ∀ c d, ssr A x y a.1 a.2 ≤ ssr A x y c d then h.choose else (0, 0)
  spline x y t := y.getD (x.findIdx fun s => decide (s = t)) 0
  toXi _ _ _ _ _ := 0

theorem demo_fitLo : LeastSquares1 demoTools.fitLo := by
  intro A x y a h
  have h' : ∃ a, ∀ c, ssr A x y a 0 ≤ ssr A x y c 0 := ⟨a, h⟩
  have : demoTools.fitLo A x y = h'.choose := dif_pos h'
  rw [this]
  exact h'.choose_spec a

theorem demo_fitHi : LeastSquares2 demoTools.fitHi := by
  intro A x y a b h
  have h' : ∃ a : ℝ × ℝ, ∀ c d, ssr A x y a.1 a.2 ≤ ssr A x y c d := ⟨(a, b), h⟩
  have : demoTools.fitHi A x y = h'.choose := dif_pos h'
  rw [this]
  exact h'.choose_spec a b

theorem demo_spline : Interpolates demoTools.spline := by
  intro x y hx _ i hi
  unfold demoTools
  dsimp only
  congr 1
  have e : x.getD i 0 = x[i] := by rw [List.getD_eq_getElem?_getD, List.getElem?_eq_getElem hi]; rfl
  rw [e, List.findIdx_eq hi]
  refine ⟨by simp, fun j hj => ?_⟩
  have := List.pairwise_iff_getElem.mp hx j i (by omega) hi hj
  simpa using this.ne

/-- A model with the power `1000 k`, extrapolated below 1 and above 100 -/
def demoModel : PModel := ⟨some fun k _ => 1000 * k, [], 1 / 1.05, 100 / 0.95⟩

def demoOpts : Opts := ⟨"Pgal", some 1, some 100, none, none⟩

theorem demo_init : init demoModel demoOpts = .ok ⟨demoModel, "Pgal", 1 / 1.05, 100 / 0.95, 1, 100, 5 * 1, 0.5 * 100, none, none, none⟩ := by
  unfold init
  have h : demoModel.has demoOpts.func := .inr ⟨rfl, rfl⟩
  rw [if_neg (not_not.mpr h)]
  rw [if_neg (by norm_num [demoOpts, demoModel]), if_neg (by norm_num [demoOpts, demoModel]), if_neg (by norm_num [demoOpts, demoModel]), if_neg (by norm_num [demoOpts, demoModel])]
  rfl

theorem demo_node (e : Ext) (h1 : e.kmin = 1 / 1.05) (h2 : e.kmax = 100 / 0.95) (i : ℕ) (hi : i < 200) : (10 : ℝ) ^ ((i : ℝ) * (2 / 199)) ∈ e.ks := by
  unfold Ext.ks logspace
  rw [List.mem_map]
  refine ⟨i, List.mem_range.mpr hi, ?_⟩
  rw [h1, h2]
  have a : (1 / 1.05 * 1.05 : ℝ) = 1 := by norm_num
  have b : (100 / 0.95 * 0.95 : ℝ) = (10 : ℝ) ^ (2 : ℝ) := by norm_num
  rw [a, b, Real.logb_one, Real.logb_rpow (by norm_num) (by norm_num)]
  norm_num

/-- Non-vacuity of the exactness: the power `1000 k` is continued to `k = 1/2` as 500. -/
example : ∃ e, init demoModel demoOpts = .ok e ∧ (e.call demoTools [(1 / 2, 0)]).map (·.1) = .ok [500] := by
  refine ⟨_, demo_init, ?_⟩
  have h := C147_exact_low demo_fitLo demo_spline (Run.init (T := demoTools) _ demo_init) (A := fun _ => 1000) (n := fun _ => 1) (P := fun k _ => 1000 * k) rfl
    (by norm_num) (by norm_num) (by norm_num) (by norm_num) ⟨_, demo_node _ rfl rfl 1 (by norm_num), ?_, ?_⟩ (by intros; norm_num) (by intros; simp) (by norm_num) (1 / 2) 0
    (by unfold mus; rw [List.mem_map]; exact ⟨0, by simp, by simp⟩) (by norm_num) (by norm_num)
  · rw [h]; norm_num
  · dsimp only; exact Real.one_lt_rpow (by norm_num) (by norm_num)
  · dsimp only
    calc (10 : ℝ) ^ (((1 : ℕ) : ℝ) * (2 / 199)) ≤ 10 ^ (1 / 2 : ℝ) := Real.rpow_le_rpow_of_exponent_le (by norm_num) (by norm_num)
      _ ≤ 5 * 1 := by
        rw [← Real.sqrt_eq_rpow]
        exact Real.sqrt_le_iff.mpr ⟨by norm_num, by norm_num⟩

/-- Non-vacuity at high wavenumbers: to `k = 1000` as 10⁶. -/
example : ∃ e, init demoModel demoOpts = .ok e ∧ (e.call demoTools [(1000, 0)]).map (·.1) = .ok [1000000] := by
  refine ⟨_, demo_init, ?_⟩
  have key : (50 : ℝ) ≤ 10 ^ ((197 : ℕ) * (2 / 199) : ℝ) := by
    have e : ((197 : ℕ) : ℝ) * (2 / 199) = 2 - 4 / 199 := by norm_num
    rw [e, Real.rpow_sub (by norm_num)]
    have : (10 : ℝ) ^ (4 / 199 : ℝ) ≤ 2 := by
      calc (10 : ℝ) ^ (4 / 199 : ℝ) ≤ 10 ^ (1 / 4 : ℝ) := Real.rpow_le_rpow_of_exponent_le (by norm_num) (by norm_num)
        _ ≤ 16 ^ (1 / 4 : ℝ) := Real.rpow_le_rpow (by norm_num) (by norm_num) (by norm_num)
        _ = 2 := by
          rw [show (16 : ℝ) = 2 ^ (4 : ℝ) by norm_num, ← Real.rpow_mul (by norm_num)]; norm_num
    rw [le_div_iff₀ (Real.rpow_pos_of_pos (by norm_num) _)]
    norm_num
    linarith
  have h := C147_exact_high demo_fitHi demo_spline (Run.init (T := demoTools) _ demo_init) (A := fun _ => 1000 * 100) (n := fun _ => 1) (b := fun _ => 0) (P := fun k _ => 1000 * k) rfl
    (by norm_num) (by norm_num) (by norm_num) (by norm_num) ⟨_, demo_node _ rfl rfl 197 (by norm_num), _, demo_node _ rfl rfl 198 (by norm_num), ?_, ?_, ?_⟩ (by intros; norm_num)
    (by intros; simp; ring) (by norm_num) 1000 0 (by unfold mus; rw [List.mem_map]; exact ⟨0, by simp, by simp⟩) (by norm_num)
  · rw [h]; norm_num
  · dsimp only; norm_num at key ⊢; exact key
  · exact Real.rpow_lt_rpow_of_exponent_lt (by norm_num) (by norm_num)
  · dsimp only
    calc (10 : ℝ) ^ (((198 : ℕ) : ℝ) * (2 / 199)) < 10 ^ (2 : ℝ) := Real.rpow_lt_rpow_of_exponent_lt (by norm_num) (by norm_num)
      _ = 100 := by norm_num

end

end Verif.Extrapolate
