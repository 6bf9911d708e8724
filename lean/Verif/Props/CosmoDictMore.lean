/-
C128: equality, the parameters of CLASS, and what fails.
-/
import Verif.Props.CosmoDict
import Mathlib.Tactic.NormNum

namespace Verif.CosmoDict

noncomputable section

open Classical

variable (A : Astropy)

/-! ### Changing the amplitude only -/

/-- C128: a clone with another amplitude can always be made. -/
theorem C128_clone_amplitude {c : Cosmo} (h : Made A c) (s : ℝ) :
    ∃ c', c.clone A (Dict.empty.set .sigma8 (.num s)) = .ok c' ∧ c'.getAttr .sigma8 = .ok (.num s) ∧
      ∀ k, k ≠ .sigma8 → k ≠ .flat → k ≠ .name → (k = .Ode0 → c.getAttr .flat = .ok (.flag false)) → c'.getAttr k = c.getAttr k := by
  obtain ⟨s0, n, hw⟩ := made_wf A h
  have hrest : (fun k => if c.engine.attr k = Option.none then Option.none else (Dict.empty.set .sigma8 (.num s)) k) = Dict.empty := by
    funext k
    by_cases hk : k = .sigma8
    · subst hk; simp [Engine.attr, Dict.empty]
    · simp [Dict.set, hk, Dict.empty]
  have he : c.engine.clone A Dict.empty = .ok c.engine := by simp [Engine.clone]
  have hmk := make_ok_of A (e := { c.engine with isFlat := decide (c.engine.Ok0 A = 0) }) ⟨hw.engine.masses, hw.engine.sane, by
      intro hf
      have hf' : c.engine.Ok0 A = 0 := by simpa using hf
      unfold Engine.Ok0 at hf'
      split_ifs at hf' with hff
      · exact hw.engine.closed hff
      · show c.engine.Ode0 = _; linarith⟩ (Ode0 := c.engine.Ode0) (Or.inr rfl)
  have hkind : c.engine.kind = if c.engine.kind.w0 = -1 then Kind.lambda else Kind.w c.engine.kind.w0 := by
    rcases hw.kind with ⟨h1, _⟩ | ⟨x, hx, h1, _⟩
    · simp [h1, Kind.w0]
    · simp [h1, Kind.w0, hx]
  obtain ⟨c', hc'⟩ : ∃ c', c.clone A (Dict.empty.set .sigma8 (.num s)) = .ok c' := by
    unfold Cosmo.clone
    dsimp only
    rw [hrest, he]
    refine ⟨_, initOn_of A (a := ⟨c.engine.H0, c.engine.Om0, c.engine.Ob0, c.engine.Ode0, c.engine.kind.w0, c.engine.Tcmb0, c.engine.Neff, c.engine.mnu, n, s,
      decide (c.engine.Ok0 A = 0), c.engine.name⟩) ?_ (by
        unfold Args.engine
        dsimp only
        rw [← hkind]
        exact hmk)⟩
    have hnm : ∀ (d : Dict), d .name = Option.none → (if d .name = Option.none then d.set .name (optStr c.engine.name) else d) = d.set .name (optStr c.engine.name) := by
      intro d hd; rw [if_pos hd]
    rw [hnm _ (by simp [Dict.set, validNames, Engine.attr])]
    have hw0 := (wf_w0 A hw).2
    refine ⟨fun s => by simp [Dict.set, validNames, Dict.empty, Engine.attr, hw.other], ?_, ?_, ?_, ?_, ?_, ?_, ?_, ?_, ?_, ?_, ?_, ?_⟩ <;>
      simp [Dict.set, validNames, Dict.empty, Engine.attr, hw.ns, hw0]
    rcases hw.kind with ⟨h1, _⟩ | ⟨x, hx, h1, _⟩ <;> simp [h1, Kind.w0]
  obtain ⟨g1, g2, g3, _⟩ := C128_clone A h hc'
  refine ⟨c', hc', g1 .sigma8 _ (by simp [Dict.set]) (by simp) (by simp), fun k h1 h2 h3 h4 => ?_⟩
  by_cases hm : k = .mnu
  · subst hm
    exact g3 (by simp [Dict.set, Dict.empty]) (by simp [Dict.set, Dict.empty]) (by simp [Dict.set, Dict.empty])
  · exact g2 k (by simp [Dict.set, Dict.empty, h1]) h2 hm h3 h4

/-! ### Equality -/

theorem isClose_refl (x : ℝ) : isClose x x := by
  unfold isClose
  have : 0 ≤ |x| := abs_nonneg x
  rw [sub_self, abs_zero]
  positivity

theorem closeKeys_step {c d : Cosmo} {k : Key} {ks : List Key} {x y : ℝ} (h1 : c.getAttr k = .ok (.num x)) (h2 : d.getAttr k = .ok (.num y)) (h3 : isClose x y) :
    closeKeys c d (k :: ks) = closeKeys c d ks := by
  have h4 : closeV (.num x) (.num y) = .ok true := by simp [closeV, h3]
  conv_lhs => unfold closeKeys
  rw [h1, h2]
  show (closeV (.num x) (.num y) >>= fun b => if b = true then closeKeys c d ks else pure false) = _
  rw [h4]
  rfl

theorem closeKeys_far {c d : Cosmo} {k : Key} {ks : List Key} {x y : ℝ} (h1 : c.getAttr k = .ok (.num x)) (h2 : d.getAttr k = .ok (.num y)) (h3 : ¬ isClose x y) :
    closeKeys c d (k :: ks) = .ok false := by
  have h4 : closeV (.num x) (.num y) = .ok false := by simp [closeV, h3]
  conv_lhs => unfold closeKeys
  rw [h1, h2]
  show (closeV (.num x) (.num y) >>= fun b => if b = true then closeKeys c d ks else pure false) = _
  rw [h4]
  rfl

theorem closeKeys_refl {c d : Cosmo} : ∀ ks : List Key, (∀ k ∈ ks, ∃ x y, c.getAttr k = .ok (.num x) ∧ d.getAttr k = .ok (.num y) ∧ isClose x y) →
    closeKeys c d ks = .ok true
  | [], _ => rfl
  | k :: ks, h => by
    obtain ⟨x, y, h1, h2, h3⟩ := h k (by simp)
    rw [closeKeys_step h1 h2 h3]
    exact closeKeys_refl ks (fun k hk => h k (by simp [hk]))

theorem zip_close (l : List ℝ) : ((l.zip l).all fun p => decide (isClose p.1 p.2)) = true := by
  rw [List.all_eq_true]
  intro p hp
  rw [List.mem_iff_getElem] at hp
  obtain ⟨i, hi, rfl⟩ := hp
  simp only [List.getElem_zip, decide_eq_true_eq]
  exact isClose_refl _

/-- The numbers of an object whose density of baryons is given. -/
theorem num_attr {c : Cosmo} {s n : ℝ} (hw : Wf A c s n) {ob : ℝ} (hob : c.engine.Ob0 = some ob) (k : Key) (hk : k ∈ eqKeys) : ∃ x, c.getAttr k = .ok (.num x) := by
  simp only [eqKeys, List.mem_cons, List.not_mem_nil, or_false] at hk
  rcases hk with rfl | rfl | rfl | rfl | rfl | rfl | rfl | rfl | rfl
  · exact ⟨_, wf_engine A hw rfl⟩
  · exact ⟨_, wf_engine A hw rfl⟩
  · exact ⟨ob, wf_engine A hw (by simp [Engine.attr, hob, optNum])⟩
  · exact ⟨_, wf_engine A hw rfl⟩
  · exact ⟨_, (wf_w0 A hw).1⟩
  · exact ⟨_, wf_engine A hw rfl⟩
  · exact ⟨_, wf_engine A hw rfl⟩
  · exact ⟨_, wf_dict A hw rfl hw.ns⟩
  · exact ⟨_, wf_dict A hw rfl hw.sigma8⟩

/-- C128: two objects with the same attributes are equal, if the density of baryons is given and there are masses: in particular an object and its copy, and an
object and what comes back from a pickle. -/
theorem C128_equal {c d : Cosmo} (hc : Made A c) (hd : Made A d) (h : ∀ k, d.getAttr k = c.getAttr k) {ob : ℝ} (hob : c.getAttr .Ob0 = .ok (.num ob)) {l : List ℝ}
    (hm : c.getAttr .mnu = .ok (.masses l)) : c.eq d = .ok true := by
  obtain ⟨s, n, hw⟩ := made_wf A hc
  have hob' : c.engine.Ob0 = some ob := by
    rw [wf_engine A hw rfl] at hob
    cases h' : c.engine.Ob0 <;> simp_all [optNum]
  unfold Cosmo.eq
  rw [h .flat, wf_dict A hw rfl hw.flat, h .mnu, hm]
  show (if c.engine.isFlat ≠ c.engine.isFlat then _ else _) = _
  rw [if_neg (by simp)]
  show (do let close ← closeMasses (.masses l) (.masses l); _) = _
  simp only [closeMasses, if_true, zip_close]
  show closeKeys c d eqKeys = _
  refine closeKeys_refl _ fun k hk => ?_
  obtain ⟨x, hx⟩ := num_attr A hw hob' k hk
  exact ⟨x, x, hx, by rw [h, hx], isClose_refl x⟩

/-- C128: the copy of an object is equal to it. -/
theorem C128_copy_equal {c c' : Cosmo} (hc : Made A c) (h : c.copy A = .ok c') {ob : ℝ} (hob : c.getAttr .Ob0 = .ok (.num ob)) {l : List ℝ}
    (hm : c.getAttr .mnu = .ok (.masses l)) : c.eq c' = .ok true := by
  obtain ⟨c'', h1, _, h3⟩ := C128_copy A hc
  rw [h] at h1
  cases h1
  exact C128_equal A hc (.copy hc h) h3 hob hm

/-- C128: equal objects have the same geometry and nearly the same parameters: no two that differ by more than a part in ten thousand (and 1e-8) in one of the
parameters compared are equal. -/
theorem C128_different {c d : Cosmo} {k : Key} (hk : k ∈ eqKeys) {x y : ℝ} (hx : c.getAttr k = .ok (.num x)) (hy : d.getAttr k = .ok (.num y))
    (hfar : 1 / 10 ^ 8 + 1 / 10 ^ 4 * |y| < |x - y|) : c.eq d ≠ .ok true := by
  intro h
  have hkeys : closeKeys c d eqKeys = .ok true := by
    obtain ⟨a, _, h⟩ := bind_ok h
    obtain ⟨b, _, h⟩ := bind_ok h
    cases a <;> cases b <;> try (cases h; done)
    rename_i a b
    dsimp only at h
    split_ifs at h with hab
    · cases h
    obtain ⟨m, _, h⟩ := bind_ok h
    obtain ⟨m', _, h⟩ := bind_ok h
    obtain ⟨cl, _, h⟩ := bind_ok h
    cases cl
    · cases h
    · exact h
  have aux : ∀ ks : List Key, k ∈ ks → closeKeys c d ks ≠ .ok true := by
    intro ks
    induction ks with
    | nil => intro hk; cases hk
    | cons k' ks ih =>
      intro hk h
      unfold closeKeys at h
      obtain ⟨a, ha, h⟩ := bind_ok h
      obtain ⟨b, hb, h⟩ := bind_ok h
      obtain ⟨cl, hcl, h⟩ := bind_ok h
      cases cl with
      | false => cases h
      | true =>
        rcases List.mem_cons.1 hk with rfl | hk
        · rw [hx] at ha
          rw [hy] at hb
          cases ha
          cases hb
          simp only [closeV, Except.ok.injEq, decide_eq_true_eq] at hcl
          unfold isClose at hcl
          linarith
        · exact ih hk h
  exact aux _ hk hkeys

/-! ### The parameters of CLASS -/

/-- C128: the parameters given to CLASS are those of the cosmology: the Hubble constant, the densities of photons, baryons and cold dark matter (together the
matter), the dark energy, the masses of the neutrinos in decreasing order, the spectral index.  What is asked for in addition comes on top. -/
theorem C128_class {c : Cosmo} (hc : Made A c) {ob : ℝ} (hob : c.getAttr .Ob0 = .ok (.num ob)) {m : V} (hm : c.getAttr .mnu = .ok m) (h3 : (massive m).length ≤ 3)
    (config : CDict) : ∃ p H Om T N w n, c.toClass A config = .ok p ∧ c.getAttr .H0 = .ok (.num H) ∧ c.getAttr .Om0 = .ok (.num Om) ∧ c.getAttr .Tcmb0 = .ok (.num T) ∧
      c.getAttr .Neff = .ok (.num N) ∧ c.getAttr .w0 = .ok (.num w) ∧ c.getAttr .ns = .ok (.num n) ∧ p "n_s" = some (.num n) ∧
      (config "h" = none → p "h" = some (.num (H / 100))) ∧ (config "Omega_g" = none → p "Omega_g" = some (.num (A.photons H T))) ∧
      (config "Omega_b" = none → p "Omega_b" = some (.num ob)) ∧ (config "Omega_cdm" = none → p "Omega_cdm" = some (.num (Om - ob))) ∧
      (config "w0_fld" = none → p "w0_fld" = some (.num w)) ∧ (config "wa_fld" = none → p "wa_fld" = some (.num 0)) ∧
      (config "N_ncdm" = none → p "N_ncdm" = some (.int (massive m).length)) ∧
      (config "m_ncdm" = none → massive m ≠ [] → ∃ l, p "m_ncdm" = some (.list l) ∧ l.Perm (massive m) ∧ l.Pairwise (fun a b => b ≤ a)) ∧
      (config "N_ur" = none → massive m = [] → p "N_ur" = some (.num N)) ∧
      (∀ k v, k ≠ "n_s" → config k = some v → p k = some v) := by
  obtain ⟨s, n, hw⟩ := made_wf A hc
  have hob' : c.engine.Ob0 = some ob := by
    rw [wf_engine A hw rfl] at hob
    cases h' : c.engine.Ob0 <;> simp_all [optNum]
  have hm' : c.engine.mnu = m := by
    rw [wf_engine A hw (k := .mnu) rfl] at hm
    simpa using hm
  have hns := wf_dict A hw rfl hw.ns
  have hsorted : (decreasing (massive m)).Pairwise (fun a b => b ≤ a) := by
    have := List.pairwise_mergeSort (le := fun a b : ℝ => decide (b ≤ a)) (by intro a b c; simp only [decide_eq_true_eq]; intro h1 h2; exact h2.trans h1)
      (by intro a b; simp only [Bool.or_eq_true, decide_eq_true_eq]; exact le_total b a) (massive m)
    simpa [decreasing] using this
  have hkind : ∃ p3 : CDict → CDict, (darkEnergy c.engine.kind = p3) ∧
      (∀ p k, k ≠ "w0_fld" → k ≠ "wa_fld" → k ≠ "Omega_Lambda" → p3 p k = p k) ∧ (∀ p, p3 p "w0_fld" = some (.num c.engine.kind.w0)) ∧
      (∀ p, p3 p "wa_fld" = some (.num 0)) := by
    rcases hw.kind with ⟨h1, _⟩ | ⟨x, _, h1, _⟩
    · exact ⟨fun p => (p.set "w0_fld" (.num (-1))).set "wa_fld" (.num 0), by rw [h1]; rfl, fun p k a b _ => by simp [CDict.set, a, b],
        fun p => by simp [CDict.set, h1, Kind.w0], fun p => by simp [CDict.set]⟩
    · exact ⟨fun p => ((p.set "w0_fld" (.num x)).set "wa_fld" (.num 0)).set "Omega_Lambda" (.num 0), by rw [h1]; rfl, fun p k a b c => by simp [CDict.set, a, b, c],
        fun p => by simp [CDict.set, h1, Kind.w0], fun p => by simp [CDict.set]⟩
  obtain ⟨p3, hp3, hq1, hq2, hq3⟩ := hkind
  obtain ⟨p2, hp2, hr1, hr2, hr3, hr4⟩ : ∃ p2 : CDict, classParams A c.engine config = .ok (fun k => (((let extra1 := if config "P_k_max_h/Mpc" = Option.none then config.set "P_k_max_h/Mpc" (.num 20) else config
      if extra1 "z_max_pk" = Option.none then extra1.set "z_max_pk" (.num 2) else extra1) : CDict) k).orElse fun _ => p3 p2 k) ∧
      (p2 "h" = some (.num (c.engine.H0 / 100)) ∧ p2 "Omega_g" = some (.num (A.photons c.engine.H0 c.engine.Tcmb0)) ∧ p2 "Omega_b" = some (.num ob) ∧
        p2 "Omega_cdm" = some (.num (c.engine.Om0 - ob))) ∧ p2 "N_ncdm" = some (.int (massive m).length) ∧
      (massive m ≠ [] → p2 "m_ncdm" = some (.list (decreasing (massive m)))) ∧ (massive m = [] → p2 "N_ur" = some (.num c.engine.Neff)) := by
    unfold classParams
    rw [hob', hm']
    dsimp only
    by_cases hmm : massive m = []
    · rw [if_neg (by simpa using hmm)]
      rw [hp3]
      refine ⟨_, rfl, ?_, ?_, ?_, ?_⟩
      · simp [CDict.set]
      · simp [CDict.set, hmm]
      · intro h; exact absurd hmm h
      · intro _; simp [CDict.set]
    · rw [if_pos hmm]
      have hlt : (massive m).length - 1 < Nur.length := by
        have : Nur.length = 3 := rfl
        have : (massive m).length ≠ 0 := by simpa using hmm
        omega
      rw [List.getElem?_eq_getElem hlt]
      rw [hp3]
      refine ⟨_, rfl, ?_, ?_, ?_, ?_⟩
      · simp [CDict.set]
      · simp [CDict.set]
      · intro _; simp [CDict.set]
      · intro h; exact absurd h hmm
  have hex : ∀ k v, config k = some v → (((let extra1 := if config "P_k_max_h/Mpc" = Option.none then config.set "P_k_max_h/Mpc" (.num 20) else config
      if extra1 "z_max_pk" = Option.none then extra1.set "z_max_pk" (.num 2) else extra1) : CDict) k) = some v := by
    intro k v hk
    dsimp only
    have h1 : (if config "P_k_max_h/Mpc" = Option.none then config.set "P_k_max_h/Mpc" (.num 20) else config) k = some v := by
      split_ifs with h
      · have : k ≠ "P_k_max_h/Mpc" := by rintro rfl; rw [hk] at h; cases h
        simp [CDict.set, this, hk]
      · exact hk
    generalize (if config "P_k_max_h/Mpc" = Option.none then config.set "P_k_max_h/Mpc" (.num 20) else config) = ex at h1 ⊢
    split_ifs with h
    · have : k ≠ "z_max_pk" := by rintro rfl; rw [h1] at h; cases h
      simp [CDict.set, this, h1]
    · exact h1
  have hno : ∀ k, config k = none → k ≠ "P_k_max_h/Mpc" → k ≠ "z_max_pk" → (((let extra1 := if config "P_k_max_h/Mpc" = Option.none then config.set "P_k_max_h/Mpc" (.num 20) else config
      if extra1 "z_max_pk" = Option.none then extra1.set "z_max_pk" (.num 2) else extra1) : CDict) k) = none := by
    intro k hk a b
    dsimp only
    split_ifs <;> simp [CDict.set, a, b, hk]
  generalize ((let extra1 := if config "P_k_max_h/Mpc" = Option.none then config.set "P_k_max_h/Mpc" (.num 20) else config
      if extra1 "z_max_pk" = Option.none then extra1.set "z_max_pk" (.num 2) else extra1) : CDict) = ex at hp2 hex hno
  have htc : c.toClass A config = .ok (CDict.set (fun k => (ex k).orElse fun _ => p3 p2 k) "n_s" (.num n)) := by
    unfold Cosmo.toClass
    rw [hp2, hns]
    rfl
  refine ⟨_, c.engine.H0, c.engine.Om0, c.engine.Tcmb0, c.engine.Neff, c.engine.kind.w0, n, htc, wf_engine A hw rfl, wf_engine A hw rfl, wf_engine A hw rfl,
    wf_engine A hw rfl, (wf_w0 A hw).1, hns, by simp [CDict.set], ?_, ?_, ?_, ?_, ?_, ?_, ?_, ?_, ?_, ?_⟩
  · intro h; simp [CDict.set, hno "h" h (by decide) (by decide), hq1, hr1]
  · intro h; simp [CDict.set, hno "Omega_g" h (by decide) (by decide), hq1, hr1]
  · intro h; simp [CDict.set, hno "Omega_b" h (by decide) (by decide), hq1, hr1]
  · intro h; simp [CDict.set, hno "Omega_cdm" h (by decide) (by decide), hq1, hr1]
  · intro h; simp [CDict.set, hno "w0_fld" h (by decide) (by decide), hq2]
  · intro h; simp [CDict.set, hno "wa_fld" h (by decide) (by decide), hq3]
  · intro h; simp [CDict.set, hno "N_ncdm" h (by decide) (by decide), hq1, hr2]
  · intro h hne
    exact ⟨_, by simp [CDict.set, hno "m_ncdm" h (by decide) (by decide), hq1, hr3 hne]; rfl, List.mergeSort_perm _ _, hsorted⟩
  · intro h he; simp [CDict.set, hno "N_ur" h (by decide) (by decide), hq1, hr4 he]
  · intro k v hk hv; simp [CDict.set, hk, hex k v hv]

/-- The dark energy of CLASS: what is left to one of the densities it is given (no curvature is given to it), with the density of the neutrinos that astropy has. -/
def leftOver (g b cdm nu : ℝ) : ℝ := 1 - g - b - cdm - nu

/-- C128: for a flat cosmology this is the dark energy of the cosmology. -/
theorem C128_class_flat {c : Cosmo} (hc : Made A c) (hf : c.getAttr .flat = .ok (.flag true)) (ob : ℝ) :
    ∃ H Om Ode T N m, c.getAttr .H0 = .ok (.num H) ∧ c.getAttr .Om0 = .ok (.num Om) ∧ c.getAttr .Ode0 = .ok (.num Ode) ∧ c.getAttr .Tcmb0 = .ok (.num T) ∧
      c.getAttr .Neff = .ok (.num N) ∧ c.getAttr .mnu = .ok m ∧ leftOver (A.photons H T) ob (Om - ob) (A.rad H T N m - A.photons H T) = Ode := by
  obtain ⟨H, Om, Ode, T, N, m, h1, h2, h3, h4, h5, h6, h7⟩ := C128_flat A hc hf
  refine ⟨H, Om, Ode, T, N, m, h1, h2, h3, h4, h5, h6, ?_⟩
  unfold leftOver
  linarith

/-! ### What fails -/

/-- C128 (counterexample): the curvature is not given to CLASS.  Two cosmologies that differ in the density of dark energy only have the same parameters. -/
theorem C128_curvature_counterexample {c d : Cosmo} {kw : Dict} {x y : ℝ} (hf : kw .flat = Option.none) (hc : init A (kw.set .Ode0 (.num x)) = .ok c)
    (hd : init A (kw.set .Ode0 (.num y)) = .ok d) (config : CDict) :
    c.getAttr .Ode0 = .ok (.num x) ∧ d.getAttr .Ode0 = .ok (.num y) ∧ c.toClass A config = d.toClass A config := by
  refine ⟨(C128_given A hc (by simp [Dict.set]) (by simp) (fun _ => Or.inl (by simpa [Dict.set] using hf))).1,
    (C128_given A hd (by simp [Dict.set]) (by simp) (fun _ => Or.inl (by simpa [Dict.set] using hf))).1, ?_⟩
  obtain ⟨a, ha, he, hdc, ho⟩ := initOn_ok A hc
  obtain ⟨b, hb, he', hdd, ho'⟩ := initOn_ok A hd
  have hab : a = { b with Ode0 := a.Ode0 } := by
    have h1 := args_ok.2 ha
    have h2 : args (kw.set .Ode0 (.num x)) = .ok { b with Ode0 := x } := args_ok.2 (by
      refine ⟨?_, ?_, ?_, ?_, Or.inr (by simp [Dict.set]), ?_, ?_, ?_, ?_, ?_, ?_, ?_, ?_⟩
      · simpa [Dict.set] using hb.other
      · simpa [Dict.set] using hb.H0
      · simpa [Dict.set] using hb.Om0
      · simpa [Dict.set] using hb.Ob0
      · simpa [Dict.set] using hb.w0
      · simpa [Dict.set] using hb.Tcmb0
      · simpa [Dict.set] using hb.Neff
      · simpa [Dict.set] using hb.ns
      · simpa [Dict.set] using hb.sigma8
      · simpa [Dict.set] using hb.flat
      · simpa [Dict.set] using hb.name
      · simpa [Dict.set] using hb.mnu)
    rw [h1] at h2
    have := Except.ok.inj h2
    rw [this]
  obtain ⟨h1, h2, h3, h4, h5, h6, h7, h8, h9, h10, h11⟩ := make_ok A he
  obtain ⟨h1', h2', h3', h4', h5', h6', h7', h8', h9', h10', h11'⟩ := make_ok A he'
  have e0 : a.H0 = b.H0 ∧ a.Om0 = b.Om0 ∧ a.Ob0 = b.Ob0 ∧ a.w0 = b.w0 ∧ a.Tcmb0 = b.Tcmb0 ∧ a.Neff = b.Neff ∧ a.mnu = b.mnu ∧ a.ns = b.ns := by
    rw [hab]; exact ⟨rfl, rfl, rfl, rfl, rfl, rfl, rfl, rfl⟩
  obtain ⟨q1, q2, q3, q4, q5, q6, q7, q8⟩ := e0
  have hm : c.engine.mnu = d.engine.mnu := by
    rw [q5, q6, q7, h1'] at h1
    exact (Option.some.inj h1).symm
  have hcp : classParams A c.engine config = classParams A d.engine config := by
    unfold classParams
    rw [h6, h6', h4, h4', h8, h8', h5, h5', h9, h9', hm, h2, h2', q1, q2, q3, q4, q5, q6]
  have hns : c.getAttr .ns = d.getAttr .ns := by
    simp [Cosmo.getAttr, ho, ho', Dict.empty, Engine.attr, hdc, hdd, Dict.update, Args.entries, q8]
  unfold Cosmo.toClass
  rw [hcp, hns]

/-- C128 (counterexample): an unpickled flat cosmology has the entry `Ode0` of the default cosmology. -/
theorem C128_pickle_counterexample {c c' b : Cosmo} (hdef : init A Dict.empty = .ok b) {kw : Dict} (hf : kw .flat = some (.flag true)) (hc : init A kw = .ok c)
    (h : c.pickle A = .ok c') :
    c'.getItem .Ode0 = .ok (.num 0.69) ∧ c'.getAttr .Ode0 = c.getAttr .Ode0 ∧ c.getItem .Ode0 = c.getAttr .Ode0 := by
  obtain ⟨c2, h1, _, h3⟩ := C128_pickle A (.init hc) ⟨b, hdef⟩
  rw [h] at h1
  cases h1
  obtain ⟨a, ha, he, hd, ho⟩ := initOn_ok A hc
  have haf : a.flat = true := by
    rcases ha.flat with ⟨h', _⟩ | h' <;> rw [hf] at h'
    · cases h'
    · simpa using h'.symm
  have hfl : c.engine.isFlat = true := by
    rw [(make_ok A he).2.2.1, haf]
  have hcd : c.dict .Ode0 = none := by
    rw [hd]; simp [Dict.update, Args.entries, haf, Dict.empty]
  refine ⟨?_, h3 _, ?_⟩
  · obtain ⟨b', hb', h2⟩ := pickle_eq A h
    rw [hdef] at hb'
    cases hb'
    obtain ⟨a', ha', he', hd', _⟩ := initOn_ok A h2
    obtain ⟨ab, hab, heb, hdb, _⟩ := initOn_ok A hdef
    have e1 : a'.flat = true := by
      rcases ha'.flat with ⟨h', _⟩ | h'
      · rw [hd] at h'; simp [Dict.update, Args.entries] at h'
      · rw [hd] at h'; simp [Dict.update, Args.entries, haf] at h'; exact h'
    have e2 : ab.flat = false := by
      rcases hab.flat with ⟨_, h'⟩ | h'
      · exact h'
      · simp [Dict.empty] at h'
    have e3 : ab.Ode0 = 0.69 := by
      rcases hab.Ode0 with ⟨_, h'⟩ | h'
      · exact h'
      · simp [Dict.empty] at h'
    have e4 : b.engine.Ode0 = 0.69 := by
      have := (make_ok A heb).2.2.2.2.2.2.1
      rw [e2, e3] at this
      simpa using this
    simp [Cosmo.getItem, hd', Dict.update, Args.entries, e1, hdb, e2, e4]
  · simp [Cosmo.getItem, Cosmo.getAttr, hcd, ho, Dict.empty, Engine.attr]

/-- C128 (counterexample): asking `clone` for a flat cosmology changes nothing. -/
theorem C128_clone_flat_counterexample {c c' : Cosmo} (hc : Made A c) (b : Bool) (h : c.clone A (Dict.empty.set .flat (.flag b)) = .ok c') :
    c'.getAttr .flat = .ok (.flag (decide (c.engine.Ok0 A = 0))) ∧ c'.getAttr .Ode0 = c.getAttr .Ode0 := by
  obtain ⟨s, n, hw⟩ := made_wf A hc
  obtain ⟨e, he, h⟩ := bind_ok h
  have hrest : (fun k => if c.engine.attr k = Option.none then Option.none else (Dict.empty.set .flat (.flag b)) k) = Dict.empty := by
    funext k
    by_cases hk : k = .flat
    · subst hk; simp [Engine.attr, Dict.empty]
    · simp [Dict.set, hk, Dict.empty]
  rw [hrest] at he
  have : e = c.engine := by
    simp [Engine.clone] at he
    exact he.symm
  subst this
  have hkind : c.engine.kind = .lambda ∨ ∃ x, c.engine.kind = .w x := by
    rcases hw.kind with ⟨h1, _⟩ | ⟨x, _, h1, _⟩
    · exact Or.inl h1
    · exact Or.inr ⟨x, h1⟩
  obtain ⟨s', n', hw', _, _, h1, h2, h3, h4, h5, h6, h7, h8, h9, h10⟩ := fromAstropy_ok A hw.engine hkind (by simp [Engine.attr]) h
  refine ⟨by rw [wf_dict A hw' rfl hw'.flat, h9], ?_⟩
  rw [wf_engine A hw' (k := .Ode0) rfl, wf_engine A hw (k := .Ode0) rfl, h4]

/-- C128 (counterexample): the dark energy of an astropy object with an equation of state that changes becomes constant, without a word. -/
theorem C128_w0wa_counterexample {e : Engine} {x wa : ℝ} (hk : e.kind = .w0wa x wa) {kw : Dict} {c : Cosmo} (h : fromAstropy A e kw = .ok c) :
    c.engine.kind = .lambda ∨ ∃ y, c.engine.kind = .w y := by
  let _ := hk
  obtain ⟨s, n, hw⟩ := init_wf A h
  rcases hw.kind with ⟨h1, _⟩ | ⟨x, _, h1, _⟩
  · exact Or.inl h1
  · exact Or.inr ⟨x, h1⟩

/-- C128 (counterexample): the additional parameters that `from_astropy` says it stores are refused. -/
theorem C128_extra_counterexample (e : Engine) (kw : Dict) (s : String) (v : V) : fromAstropy A e (kw.set (.other s) v) = .error .typeError := by
  unfold fromAstropy init initOn args
  have : ∃ t, (if (Dict.set (fun k => if k ∈ validNames then (e.attr k).orElse (fun _ => (kw.set (.other s) v) k) else (kw.set (.other s) v) k) .flat
      (.flag (decide (e.Ok0 A = 0)))) .name = Option.none then
      (Dict.set (Dict.set (fun k => if k ∈ validNames then (e.attr k).orElse (fun _ => (kw.set (.other s) v) k) else (kw.set (.other s) v) k) .flat
      (.flag (decide (e.Ok0 A = 0)))) .name (optStr e.name)) else (Dict.set (fun k => if k ∈ validNames then (e.attr k).orElse (fun _ => (kw.set (.other s) v) k)
      else (kw.set (.other s) v) k) .flat (.flag (decide (e.Ok0 A = 0))))) (.other t) ≠ Option.none := by
    refine ⟨s, ?_⟩
    split_ifs <;> simp [Dict.set, validNames]
  dsimp only
  rw [if_pos this]
  rfl

/-- C128: an item cannot be assigned. -/
theorem C128_read_only (c : Cosmo) (k : Key) (v : V) : c.setItem k v = .error .valueError := rfl

/-- C128 (counterexample): but `update` changes an entry, and not what is computed: key and attribute then differ, and a copy follows the entry; and an attribute can be
assigned. -/
theorem C128_read_only_counterexample {c : Cosmo} (hc : Made A c) (x : ℝ) :
    (c.update (Dict.empty.set .H0 (.num x))).getItem .H0 = .ok (.num x) ∧
    (c.update (Dict.empty.set .H0 (.num x))).getAttr .H0 = c.getAttr .H0 ∧
    (∃ c', (c.update (Dict.empty.set .H0 (.num x))).copy A = .ok c' ∧ c'.getAttr .H0 = .ok (.num x)) ∧
    (c.setAttr .H0 (.num x)).getAttr .H0 = .ok (.num x) ∧ (c.setAttr .H0 (.num x)).getItem .H0 = c.getItem .H0 := by
  obtain ⟨s, n, hw⟩ := made_wf A hc
  obtain ⟨a, ha, he, _, _, hd⟩ := wf_args A hw
  refine ⟨by simp [Cosmo.getItem, Cosmo.update, Dict.update, Dict.set], by simp only [Cosmo.getAttr, Cosmo.update, hw.own]; rfl, ?_, by simp [Cosmo.getAttr, Cosmo.setAttr, Dict.set],
    by simp [Cosmo.getItem, Cosmo.setAttr]⟩
  obtain ⟨h1, h2, h3, h4, h5, h6, h7, h8, h9, h10, h11⟩ := make_ok A he
  have ha' : ArgsOf (c.update (Dict.empty.set .H0 (.num x))).dict { a with H0 := x } := by
    refine ⟨?_, Or.inr (by simp [Cosmo.update, Dict.update, Dict.set]), ?_, ?_, ?_, ?_, ?_, ?_, ?_, ?_, ?_, ?_, ?_⟩
    · simpa [Cosmo.update, Dict.update, Dict.set, Dict.empty] using ha.other
    · simpa [Cosmo.update, Dict.update, Dict.set, Dict.empty] using ha.Om0
    · simpa [Cosmo.update, Dict.update, Dict.set, Dict.empty] using ha.Ob0
    · simpa [Cosmo.update, Dict.update, Dict.set, Dict.empty] using ha.Ode0
    · simpa [Cosmo.update, Dict.update, Dict.set, Dict.empty] using ha.w0
    · simpa [Cosmo.update, Dict.update, Dict.set, Dict.empty] using ha.Tcmb0
    · simpa [Cosmo.update, Dict.update, Dict.set, Dict.empty] using ha.Neff
    · simpa [Cosmo.update, Dict.update, Dict.set, Dict.empty] using ha.ns
    · simpa [Cosmo.update, Dict.update, Dict.set, Dict.empty] using ha.sigma8
    · simpa [Cosmo.update, Dict.update, Dict.set, Dict.empty] using ha.flat
    · simpa [Cosmo.update, Dict.update, Dict.set, Dict.empty] using ha.name
    · simpa [Cosmo.update, Dict.update, Dict.set, Dict.empty] using ha.mnu
  obtain ⟨e, he'⟩ : ∃ e, ({ a with H0 := x } : Args).engine A = .ok e := by
    have hs := hw.engine.sane
    rw [h5, h6] at hs
    unfold Args.engine Engine.make
    dsimp only
    rw [h1]
    dsimp only
    rw [if_neg hs]
    exact ⟨_, rfl⟩
  refine ⟨_, initOn_of A ha' he', ?_⟩
  have := (make_ok A he').2.2.2.1
  simp [Cosmo.getAttr, Dict.empty, Engine.attr, this]

/-- C128 (counterexample): with `Ob0 = None` objects cannot be compared. -/
theorem C128_none_counterexample {c d : Cosmo} (hd : ∀ k, d.getAttr k = c.getAttr k) (hc : Made A c) {l : List ℝ} (hm : c.getAttr .mnu = .ok (.masses l))
    (hob : c.getAttr .Ob0 = .ok .none) : c.eq d = .error .typeError := by
  obtain ⟨s, n, hw⟩ := made_wf A hc
  unfold Cosmo.eq
  rw [hd .flat, wf_dict A hw rfl hw.flat, hd .mnu, hm]
  show (if c.engine.isFlat ≠ c.engine.isFlat then _ else _) = _
  rw [if_neg (by simp)]
  show (do let close ← closeMasses (.masses l) (.masses l); _) = _
  simp only [closeMasses, if_true, zip_close]
  show closeKeys c d eqKeys = _
  unfold eqKeys
  have e1 := wf_engine A hw (k := .H0) rfl
  have e2 := wf_engine A hw (k := .Om0) rfl
  rw [closeKeys_step e1 (by rw [hd, e1]) (isClose_refl _), closeKeys_step e2 (by rw [hd, e2]) (isClose_refl _)]
  conv_lhs => unfold closeKeys
  rw [hd, hob]
  rfl

/-- C128: for an astropy object of any kind with massive neutrinos: with one, two or three of them CLASS is given the number of relativistic species that the CLASS notes ask for, scaled with
`Neff`; the dark energy is a fluid with the equation of state of the object, and no cosmological constant, unless the object has the constant. -/
theorem C128_class_neutrinos {e : Engine} {ob : ℝ} (hob : e.Ob0 = some ob) (hm : massive e.mnu ≠ []) (h3 : (massive e.mnu).length ≤ 3) (config : CDict) :
    ∃ p, classParams A e config = .ok p ∧
      (config "N_ur" = none → ((massive e.mnu).length = 1 → p "N_ur" = some (.num (e.Neff / 3.046 * 2.0328))) ∧
        ((massive e.mnu).length = 2 → p "N_ur" = some (.num (e.Neff / 3.046 * 1.0196))) ∧ ((massive e.mnu).length = 3 → p "N_ur" = some (.num (e.Neff / 3.046 * 0.00641)))) ∧
      (config "w0_fld" = none → config "wa_fld" = none → config "Omega_Lambda" = none → match e.kind with
        | .lambda => p "w0_fld" = some (.num (-1)) ∧ p "wa_fld" = some (.num 0) ∧ p "Omega_Lambda" = none
        | .w w0 => p "w0_fld" = some (.num w0) ∧ p "wa_fld" = some (.num 0) ∧ p "Omega_Lambda" = some (.num 0)
        | .w0wa w0 wa => p "w0_fld" = some (.num w0) ∧ p "wa_fld" = some (.num wa) ∧ p "Omega_Lambda" = some (.num 0)) := by
  unfold classParams
  rw [hob]
  dsimp only
  rw [if_pos hm]
  have hlt : (massive e.mnu).length - 1 < Nur.length := by
    have : Nur.length = 3 := rfl
    have : (massive e.mnu).length ≠ 0 := by simpa using hm
    omega
  rw [List.getElem?_eq_getElem hlt]
  refine ⟨_, rfl, ?_, ?_⟩
  · intro hc
    have hex : ∀ v w : CV, (if (if config "P_k_max_h/Mpc" = none then config.set "P_k_max_h/Mpc" v else config) "z_max_pk" = none then
        CDict.set (if config "P_k_max_h/Mpc" = none then config.set "P_k_max_h/Mpc" v else config) "z_max_pk" w else
        (if config "P_k_max_h/Mpc" = none then config.set "P_k_max_h/Mpc" v else config)) "N_ur" = none := by
      intro v w; split_ifs <;> simp [CDict.set, hc]
    simp only [hex, Option.orElse_none]
    refine ⟨?_, ?_, ?_⟩ <;> intro hl <;> cases e.kind <;> simp [darkEnergy, CDict.set, hl, Nur]
  · intro h1 h2 h4
    have hex : ∀ (v w : CV) (k : String), k ≠ "P_k_max_h/Mpc" → k ≠ "z_max_pk" → config k = none → (if (if config "P_k_max_h/Mpc" = none then config.set "P_k_max_h/Mpc" v else config) "z_max_pk" = none then
        CDict.set (if config "P_k_max_h/Mpc" = none then config.set "P_k_max_h/Mpc" v else config) "z_max_pk" w else
        (if config "P_k_max_h/Mpc" = none then config.set "P_k_max_h/Mpc" v else config)) k = none := by
      intro v w k a b c; split_ifs <;> simp [CDict.set, a, b, c]
    have e1 := hex (.num 20) (.num 2) "w0_fld" (by decide) (by decide) h1
    have e2 := hex (.num 20) (.num 2) "wa_fld" (by decide) (by decide) h2
    have e4 := hex (.num 20) (.num 2) "Omega_Lambda" (by decide) (by decide) h4
    simp only [e1, e2, e4, Option.orElse_none]
    cases e.kind <;> simp [darkEnergy, CDict.set]

end

end Verif.CosmoDict
