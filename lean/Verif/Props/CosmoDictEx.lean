/-
C128: equality is not symmetric and not transitive, `!=` fails, neutrinos; and concrete cosmologies that meet the hypotheses of the theorems.
-/
import Verif.Props.CosmoDictMore
import Mathlib.Tactic.FinCases

namespace Verif.CosmoDict

noncomputable section

open Classical

variable (A : Astropy)

theorem closeKeys_all {c d : Cosmo} (f g : Key → ℝ) : ∀ ks : List Key, (∀ k ∈ ks, c.getAttr k = .ok (.num (f k)) ∧ d.getAttr k = .ok (.num (g k))) →
    closeKeys c d ks = .ok (decide (∀ k ∈ ks, isClose (f k) (g k)))
  | [], _ => by simp [closeKeys]
  | k :: ks, h => by
    obtain ⟨h1, h2⟩ := h k (by simp)
    by_cases h3 : isClose (f k) (g k)
    · rw [closeKeys_step h1 h2 h3, closeKeys_all f g ks (fun k hk => h k (by simp [hk]))]
      simp [h3]
    · rw [closeKeys_far h1 h2 h3]
      simp [h3]

/-- C128: what equality means: the same geometry, as many neutrinos, and every mass and every parameter of the first within a part in ten thousand (and 1e-8) of that of the
SECOND. -/
theorem C128_equality {c d : Cosmo} (hc : Made A c) (hd : Made A d) {ob ob' : ℝ} (hob : c.getAttr .Ob0 = .ok (.num ob)) (hob' : d.getAttr .Ob0 = .ok (.num ob'))
    {l l' : List ℝ} (hm : c.getAttr .mnu = .ok (.masses l)) (hm' : d.getAttr .mnu = .ok (.masses l')) (hl : l.length = l'.length) :
    (c.eq d = .ok true ∨ c.eq d = .ok false) ∧
    (c.eq d = .ok true ↔ c.getAttr .flat = d.getAttr .flat ∧ (∀ p ∈ l.zip l', |p.1 - p.2| ≤ 1 / 10 ^ 8 + 1 / 10 ^ 4 * |p.2|) ∧
      ∀ k ∈ [Key.H0, .Om0, .Ob0, .Ode0, .w0, .Tcmb0, .Neff, .ns, .sigma8], ∀ x y, c.getAttr k = .ok (.num x) → d.getAttr k = .ok (.num y) →
        |x - y| ≤ 1 / 10 ^ 8 + 1 / 10 ^ 4 * |y|) := by
  obtain ⟨s, n, hw⟩ := made_wf A hc
  obtain ⟨s', n', hw'⟩ := made_wf A hd
  have hobe : c.engine.Ob0 = some ob := by
    rw [wf_engine A hw rfl] at hob
    cases h' : c.engine.Ob0 <;> simp_all [optNum]
  have hobe' : d.engine.Ob0 = some ob' := by
    rw [wf_engine A hw' rfl] at hob'
    cases h' : d.engine.Ob0 <;> simp_all [optNum]
  have hf : ∃ f : Key → ℝ, ∀ k ∈ eqKeys, c.getAttr k = .ok (.num (f k)) := by
    refine ⟨fun k => if h : k ∈ eqKeys then (num_attr A hw hobe k h).choose else 0, fun k hk => ?_⟩
    dsimp only
    rw [dif_pos hk]
    exact (num_attr A hw hobe k hk).choose_spec
  have hg : ∃ g : Key → ℝ, ∀ k ∈ eqKeys, d.getAttr k = .ok (.num (g k)) := by
    refine ⟨fun k => if h : k ∈ eqKeys then (num_attr A hw' hobe' k h).choose else 0, fun k hk => ?_⟩
    dsimp only
    rw [dif_pos hk]
    exact (num_attr A hw' hobe' k hk).choose_spec
  obtain ⟨f, hf⟩ := hf
  obtain ⟨g, hg⟩ := hg
  have hk := closeKeys_all f g eqKeys (fun k h => ⟨hf k h, hg k h⟩)
  have hcf := wf_dict A hw rfl hw.flat
  have hdf := wf_dict A hw' rfl hw'.flat
  have hcm : closeMasses (.masses l) (.masses l') = .ok ((l.zip l').all fun p => decide (isClose p.1 p.2)) := by
    simp [closeMasses, hl]
  have hmain : c.eq d = .ok (decide (c.engine.isFlat = d.engine.isFlat ∧ (∀ p ∈ l.zip l', isClose p.1 p.2) ∧ ∀ k ∈ eqKeys, isClose (f k) (g k))) := by
    unfold Cosmo.eq
    rw [hcf, hdf, hm, hm']
    show (if c.engine.isFlat ≠ d.engine.isFlat then _ else (closeMasses (.masses l) (.masses l') >>= fun close => if (!close) = true then _ else _)) = _
    by_cases hff : c.engine.isFlat = d.engine.isFlat
    · rw [if_neg (by simpa using hff), hcm]
      by_cases hz : ∀ p ∈ l.zip l', isClose p.1 p.2
      · have : ((l.zip l').all fun p => decide (isClose p.1 p.2)) = true := by
          rw [List.all_eq_true]; intro p hp; simpa using hz p hp
        rw [this]
        show closeKeys c d eqKeys = _
        rw [hk]
        congr 1
        refine decide_eq_decide.2 ?_
        exact ⟨fun h => ⟨hff, hz, h⟩, fun h => h.2.2⟩
      · have : ((l.zip l').all fun p => decide (isClose p.1 p.2)) = false := by
          rw [Bool.eq_false_iff]
          intro h
          rw [List.all_eq_true] at h
          exact hz fun p hp => by simpa using h p hp
        rw [this]
        show Except.ok false = _
        simp only [hz, false_and, and_false, decide_false]
    · rw [if_pos (by simpa using hff)]
      show Except.ok false = _
      simp only [hff, false_and, decide_false]
  constructor
  · rw [hmain]
    rcases Bool.eq_false_or_eq_true (decide (c.engine.isFlat = d.engine.isFlat ∧ (∀ p ∈ l.zip l', isClose p.1 p.2) ∧ ∀ k ∈ eqKeys, isClose (f k) (g k))) with h | h
    · exact Or.inl (by rw [h])
    · exact Or.inr (by rw [h])
  · rw [hmain, hcf, hdf]
    simp only [Except.ok.injEq, decide_eq_true_eq, V.flag.injEq]
    refine and_congr Iff.rfl (and_congr Iff.rfl ⟨fun h k hk x y hx hy => ?_, fun h k hk => h k hk _ _ (hf k hk) (hg k hk)⟩)
    have e1 := hf k hk
    have e2 := hg k hk
    rw [hx] at e1
    rw [hy] at e2
    have e1 : x = f k := by simpa using e1
    have e2 : y = g k := by simpa using e2
    rw [e1, e2]
    exact h k hk

/-! ### Concrete cosmologies -/

/-- A small astropy: the radiation has a fixed density, three species. -/
def toy : Astropy where
  rad := fun _ _ _ _ => 1 / 10000
  photons := fun _ _ => 1 / 20000
  expand := fun _ _ m => match m with
    | .none => some .none
    | .masses l => some (.masses l)
    | .num x => some (.masses [x, x, x])
    | _ => Option.none
  idem := by
    intro T N m m' h
    cases m <;> simp at h <;> subst h <;> rfl
  shape := by
    intro T N m m' h
    cases m <;> simp at h <;> subst h
    · exact Or.inr ⟨_, rfl⟩
    · exact Or.inr ⟨_, rfl⟩
    · exact Or.inl rfl

/-- The arguments of `Cosmology(H0=x, flat=b, m_nu=m)` -/
def argsOf (x : ℝ) (b : Bool) (m : V) : Args := ⟨x, 0.31, some 0.0486, 0.69, -1, 2.7255, 3.04, m, 0.9667, 0.8159, b, Option.none⟩

/-- Its astropy object, for masses that are expanded to `m` -/
def engineOf (x : ℝ) (b : Bool) (m : V) : Engine :=
  ⟨.lambda, b, x, 0.31, some 0.0486, if b then 0.6899 else 0.69, 2.7255, 3.04, m, Option.none⟩

/-- The object -/
def cosmoOf (x : ℝ) (b : Bool) (m m' : V) : Cosmo := ⟨engineOf x b m', Dict.empty.update ((argsOf x b m).entries (engineOf x b m')), Dict.empty⟩

/-- The arguments -/
def kwOf (x : ℝ) (b : Bool) (m : V) : Dict := ((Dict.empty.set .H0 (.num x)).set .flat (.flag b)).set .mnu m

theorem init_toy (x : ℝ) (b : Bool) {m m' : V} (h : toy.expand 2.7255 3.04 m = some m') : init toy (kwOf x b m) = .ok (cosmoOf x b m m') := by
  refine initOn_of toy (a := argsOf x b m) (e := engineOf x b m') ?_ ?_
  · refine ⟨fun s => by simp [kwOf, Dict.set, Dict.empty], ?_, ?_, ?_, ?_, ?_, ?_, ?_, ?_, ?_, ?_, ?_, ?_⟩ <;> simp [kwOf, Dict.set, Dict.empty, argsOf]
  · unfold Args.engine Engine.make
    simp only [argsOf]
    rw [h]
    dsimp only
    rw [if_neg (by norm_num)]
    congr 1
    unfold engineOf
    cases b
    · simp
    · simp [toy]
      norm_num

theorem made_toy (x : ℝ) (b : Bool) {m m' : V} (h : toy.expand 2.7255 3.04 m = some m') : Made toy (cosmoOf x b m m') := .init (init_toy x b h)

theorem toy_eq (x y : ℝ) : (cosmoOf x false (.num 0) (.masses [0, 0, 0])).eq (cosmoOf y false (.num 0) (.masses [0, 0, 0])) = .ok true ↔
    |x - y| ≤ 1 / 10 ^ 8 + 1 / 10 ^ 4 * |y| := by
  obtain ⟨_, h⟩ := C128_equality toy (made_toy x false (m := .num 0) (m' := .masses [0, 0, 0]) rfl) (made_toy y false (m := .num 0) (m' := .masses [0, 0, 0]) rfl)
    (ob := 0.0486) (ob' := 0.0486) rfl rfl (l := [0, 0, 0]) (l' := [0, 0, 0]) rfl rfl rfl
  rw [h]
  constructor
  · rintro ⟨_, _, h⟩
    exact h .H0 (by simp) x y rfl rfl
  · intro h
    refine ⟨rfl, by simp, fun k hk u v hu hv => ?_⟩
    by_cases hkH : k = .H0
    · subst hkH
      cases hu
      cases hv
      exact h
    · have : u = v := by
        simp only [List.mem_cons, List.not_mem_nil, or_false] at hk
        rcases hk with rfl | rfl | rfl | rfl | rfl | rfl | rfl | rfl | rfl
        · exact absurd rfl hkH
        all_goals
          cases hu
          cases hv
          rfl
      subst this
      exact isClose_refl u

/-- C128 (counterexample): equality is not symmetric. -/
theorem C128_symmetric_counterexample : ∃ (A : Astropy) (c d : Cosmo), Made A c ∧ Made A d ∧ c.eq d = .ok true ∧ d.eq c ≠ .ok true := by
  refine ⟨toy, cosmoOf 100 false (.num 0) (.masses [0, 0, 0]), cosmoOf 100.0100005 false (.num 0) (.masses [0, 0, 0]), made_toy _ _ rfl, made_toy _ _ rfl, ?_, ?_⟩
  · rw [toy_eq]
    rw [abs_of_nonpos (by norm_num), abs_of_nonneg (by norm_num)]
    norm_num
  · rw [Ne, toy_eq]
    rw [abs_of_nonneg (by norm_num), abs_of_nonneg (by norm_num)]
    norm_num

/-- C128 (counterexample): equality is not transitive. -/
theorem C128_transitive_counterexample : ∃ (A : Astropy) (c d e : Cosmo), Made A c ∧ Made A d ∧ Made A e ∧ c.eq d = .ok true ∧ d.eq e = .ok true ∧ c.eq e ≠ .ok true := by
  refine ⟨toy, cosmoOf 100 false (.num 0) (.masses [0, 0, 0]), cosmoOf 100.009 false (.num 0) (.masses [0, 0, 0]), cosmoOf 100.018 false (.num 0) (.masses [0, 0, 0]),
    made_toy _ _ rfl, made_toy _ _ rfl, made_toy _ _ rfl, ?_, ?_, ?_⟩
  · rw [toy_eq]
    rw [abs_of_nonpos (by norm_num), abs_of_nonneg (by norm_num)]
    norm_num
  · rw [toy_eq]
    rw [abs_of_nonpos (by norm_num), abs_of_nonneg (by norm_num)]
    norm_num
  · rw [Ne, toy_eq]
    rw [abs_of_nonpos (by norm_num), abs_of_nonneg (by norm_num)]
    norm_num

/-! ### The other comparison -/

theorem entriesEq_ok {c d : Dict} {k : Key} {ks : List Key} {v : V} (h : c k = some v) (h' : d k = some v) (hv : entryEq v v = .ok true) :
    entriesEq c d (k :: ks) = entriesEq c d ks := by
  conv_lhs => unfold entriesEq
  rw [h, h']
  dsimp only
  rw [hv]
  rfl

theorem optNum_eq (x : Option ℝ) : entryEq (optNum x) (optNum x) = .ok true := by cases x <;> simp [optNum, entryEq]

theorem optStr_eq (x : Option String) : entryEq (optStr x) (optStr x) = .ok true := by cases x <;> simp [optStr, entryEq]

/-- C128 (counterexample): an object and its copy cannot be compared with `!=` if there are two or more neutrinos: `!=` compares the dictionaries, and in them the lists of
masses. -/
theorem C128_ne_counterexample {c c' : Cosmo} {kw : Dict} (hc : init A kw = .ok c) (h : c.copy A = .ok c') {l : List ℝ} (hm : c.getAttr .mnu = .ok (.masses l))
    (hl : 2 ≤ l.length) : c.ne c' = .error .valueError := by
  obtain ⟨s, n, hw⟩ := made_wf A (.init hc)
  obtain ⟨a, ha, he, _, _, hd⟩ := wf_args A hw
  obtain ⟨a0, _, he0, hd0, _⟩ := initOn_ok A hc
  have hc' : c' = ⟨c.engine, Dict.empty.update (a.entries c.engine), Dict.empty⟩ := by
    have := initOn_of A (old := Dict.empty) (own := Dict.empty) ha he
    have h2 : c.copy A = .ok ⟨c.engine, Dict.empty.update (a.entries c.engine), Dict.empty⟩ := this
    rw [h] at h2
    exact Except.ok.inj h2
  have hf : a.flat = a0.flat := by rw [← (make_ok A he).2.2.1, (make_ok A he0).2.2.1]
  have hk : ∀ k, c'.dict k = c.dict k := by
    intro k
    by_cases hk : k = .Ode0
    · subst hk
      rw [hc', hd0]
      simp [Dict.update, Dict.empty, Args.entries, hf]
    · rw [hc', ← hd k hk]
      simp only [Dict.update, Dict.empty]
      cases a.entries c.engine k <;> rfl
  have hdict : c'.dict = c.dict := funext hk
  have hmm : c.dict .mnu = some (.masses l) := by
    rw [wf_engine A hw (k := .mnu) rfl] at hm
    rw [hw.mnu]
    exact congrArg some (Except.ok.inj hm)
  have hw0 : ∃ x, c.dict .w0 = some (.num x) := by
    rcases hw.kind with ⟨_, h⟩ | ⟨x, _, _, h⟩
    · exact ⟨_, h⟩
    · exact ⟨_, h⟩
  obtain ⟨w, hw0⟩ := hw0
  have hmain : entriesEq c.dict c.dict order = .error .valueError := by
    unfold order
    rw [entriesEq_ok hw.H0 hw.H0 (by simp [entryEq]), entriesEq_ok hw.Om0 hw.Om0 (by simp [entryEq]), entriesEq_ok hw.sigma8 hw.sigma8 (by simp [entryEq]),
      entriesEq_ok hw.ns hw.ns (by simp [entryEq]), entriesEq_ok hw.flat hw.flat (by simp [entryEq]), entriesEq_ok hw0 hw0 (by simp [entryEq]),
      entriesEq_ok hw.name hw.name (optStr_eq _), entriesEq_ok hw.Ob0 hw.Ob0 (optNum_eq _), entriesEq_ok hw.Tcmb0 hw.Tcmb0 (by simp [entryEq]),
      entriesEq_ok hw.Neff hw.Neff (by simp [entryEq])]
    conv_lhs => unfold entriesEq
    rw [hmm]
    have : entryEq (.masses l) (.masses l) = .error .valueError := by simp [entryEq, hl]
    dsimp only
    rw [this]
    rfl
  unfold Cosmo.ne
  rw [hdict, if_pos rfl, hmain]
  rfl

/-- C128 (counterexample): a flat cosmology that was unpickled is equal to its copy, and also different from it: the entry `Ode0` is not copied. -/
theorem C128_ne_pickle_counterexample {c c' b d : Cosmo} (hdef : init A Dict.empty = .ok b) {kw : Dict} (hf : kw .flat = some (.flag true)) (hc : init A kw = .ok c)
    (h : c.pickle A = .ok c') (hd : c'.copy A = .ok d) {ob : ℝ} (hob : c'.getAttr .Ob0 = .ok (.num ob)) {l : List ℝ} (hm : c'.getAttr .mnu = .ok (.masses l)) :
    c'.eq d = .ok true ∧ c'.ne d = .ok true := by
  have hmade : Made A c' := .pickle (.init hc) h
  refine ⟨C128_copy_equal A hmade hd hob hm, ?_⟩
  have h69 := (C128_pickle_counterexample A hdef hf hc h).1
  obtain ⟨s, n, hw⟩ := made_wf A hmade
  obtain ⟨a, ha, he, _, _, hdd⟩ := wf_args A hw
  have hd' : d = ⟨c'.engine, Dict.empty.update (a.entries c'.engine), Dict.empty⟩ := by
    have := initOn_of A (old := Dict.empty) (own := Dict.empty) ha he
    have h2 : c'.copy A = .ok ⟨c'.engine, Dict.empty.update (a.entries c'.engine), Dict.empty⟩ := this
    rw [hd] at h2
    exact Except.ok.inj h2
  have hfl : c'.engine.isFlat = true := by
    obtain ⟨a0, ha0, he0, hd0, ho⟩ := initOn_ok A hc
    obtain ⟨c2, h1, _, h3⟩ := C128_pickle A (.init hc) ⟨b, hdef⟩
    rw [h] at h1
    cases h1
    obtain ⟨s0, n0, hw0⟩ := made_wf A (.init hc)
    have hh := h3 .flat
    rw [wf_dict A hw rfl hw.flat, wf_dict A hw0 rfl hw0.flat] at hh
    have haf : a0.flat = true := by
      rcases ha0.flat with ⟨h', _⟩ | h' <;> rw [hf] at h'
      · cases h'
      · simpa using h'.symm
    have : c.engine.isFlat = true := by rw [(make_ok A he0).2.2.1, haf]
    rw [this] at hh
    simpa using hh
  have haf : a.flat = true := by rw [← (make_ok A he).2.2.1, hfl]
  obtain ⟨x, hx⟩ : ∃ x, c'.dict .Ode0 = some x := by
    rcases hw.Ode0' hfl with hn | ⟨x, hx⟩
    · obtain ⟨b', hb', h2⟩ := pickle_eq A h
      obtain ⟨a', _, he', hd2, _⟩ := initOn_ok A h2
      obtain ⟨ab, hab, heb, hdb, _⟩ := initOn_ok A hb'
      have e2 : ab.flat = false := by
        rcases hab.flat with ⟨_, h'⟩ | h'
        · exact h'
        · simp [Dict.empty] at h'
      rw [hd2] at hn
      simp only [Dict.update] at hn
      rw [hdb] at hn
      simp [Dict.update, Args.entries, e2] at hn
    · exact ⟨_, hx⟩
  have hdn : d.dict .Ode0 = Option.none := by
    rw [hd']; simp [Dict.update, Dict.empty, Args.entries, haf]
  have hsame : ∀ k, k ≠ .Ode0 → d.dict k = c'.dict k := by
    intro k hk
    rw [hd', ← hdd k hk]
    simp only [Dict.update, Dict.empty]
    cases a.entries c'.engine k <;> rfl
  unfold Cosmo.ne
  rw [if_neg]
  have hlen : (order.filter fun k => (c'.dict k).isSome).length = (order.filter fun k => (d.dict k).isSome).length + 1 := by
    simp only [order, List.filter_cons, List.filter_nil, hsame .H0 (by decide), hsame .Om0 (by decide), hsame .sigma8 (by decide), hsame .ns (by decide),
      hsame .flat (by decide), hsame .w0 (by decide), hsame .name (by decide), hsame .Ob0 (by decide), hsame .Tcmb0 (by decide), hsame .Neff (by decide),
      hsame .mnu (by decide), hx, hdn]
    have hw0 : ∃ x, c'.dict .w0 = some (.num x) := by
      rcases hw.kind with ⟨_, h⟩ | ⟨x, _, _, h⟩
      · exact ⟨_, h⟩
      · exact ⟨_, h⟩
    obtain ⟨w, hw0⟩ := hw0
    simp [hw.H0, hw.Om0, hw.sigma8, hw.ns, hw.flat, hw0, hw.name, hw.Ob0, hw.Tcmb0, hw.Neff, hw.mnu]
  omega

/-- C128 (counterexample): with more than three massive neutrinos the parameters of CLASS cannot be made. -/
theorem C128_neutrinos_counterexample {c : Cosmo} (hc : Made A c) {ob : ℝ} (hob : c.getAttr .Ob0 = .ok (.num ob)) {m : V} (hm : c.getAttr .mnu = .ok m)
    (h4 : 4 ≤ (massive m).length) (config : CDict) : c.toClass A config = .error .indexError := by
  obtain ⟨s, n, hw⟩ := made_wf A hc
  have hobe : c.engine.Ob0 = some ob := by
    rw [wf_engine A hw rfl] at hob
    cases h' : c.engine.Ob0 <;> simp_all [optNum]
  have hme : c.engine.mnu = m := by
    rw [wf_engine A hw (k := .mnu) rfl] at hm
    simpa using hm
  have : classParams A c.engine config = .error .indexError := by
    unfold classParams
    rw [hobe, hme]
    dsimp only
    have hne : massive m ≠ [] := by
      intro h; rw [h] at h4; simp at h4
    rw [if_pos hne, List.getElem?_eq_none (by simp [Nur]; omega)]
  unfold Cosmo.toClass
  rw [this]
  rfl

/-- C128: without the density of baryons there are no parameters of CLASS, and the error says so. -/
theorem C128_no_baryons {c : Cosmo} (hc : Made A c) (hob : c.getAttr .Ob0 = .ok .none) (config : CDict) : c.toClass A config = .error .valueError := by
  obtain ⟨s, n, hw⟩ := made_wf A hc
  have hobe : c.engine.Ob0 = none := by
    rw [wf_engine A hw rfl] at hob
    cases h' : c.engine.Ob0 <;> simp_all [optNum]
  have : classParams A c.engine config = .error .valueError := by
    unfold classParams
    rw [hobe]
  unfold Cosmo.toClass
  rw [this]
  rfl

/-! ### The hypotheses are met -/

/-- A flat cosmology with three massive neutrinos: its dark energy is not the default one. -/
example : ∃ c, init toy (kwOf 70 true (.masses [0.1, 0.05, 0])) = .ok c ∧ c.getAttr .H0 = .ok (.num 70) ∧ c.getAttr .Ode0 = .ok (.num 0.6899) ∧
    c.getAttr .flat = .ok (.flag true) ∧ c.getAttr .Ob0 = .ok (.num 0.0486) ∧ c.getAttr .mnu = .ok (.masses [0.1, 0.05, 0]) ∧ c.getItem .Ode0 = .ok (.num 0.6899) :=
  ⟨_, init_toy 70 true rfl, rfl, rfl, rfl, rfl, rfl, rfl⟩

/-- The default cosmology of this astropy. -/
theorem default_toy : init toy Dict.empty = .ok (cosmoOf 67.6 false (.num 0) (.masses [0, 0, 0])) := by
  refine initOn_of toy (a := argsOf 67.6 false (.num 0)) (e := engineOf 67.6 false (.masses [0, 0, 0])) ?_ ?_
  · refine ⟨fun s => by simp [Dict.empty], ?_, ?_, ?_, ?_, ?_, ?_, ?_, ?_, ?_, ?_, ?_, ?_⟩ <;> simp [Dict.empty, argsOf]
  · unfold Args.engine Engine.make
    simp only [argsOf, toy]
    rw [if_neg (by norm_num)]
    simp [engineOf]

/-- The unpickled flat cosmology: attribute 0.6899, entry 0.69. -/
example : ∃ c', (cosmoOf 70 true (.num 0) (.masses [0, 0, 0])).pickle toy = .ok c' ∧ c'.getItem .Ode0 = .ok (.num 0.69) ∧ c'.getAttr .Ode0 = .ok (.num 0.6899) := by
  have hc := init_toy 70 true (m := .num 0) (m' := .masses [0, 0, 0]) rfl
  obtain ⟨c', h, _, _⟩ := C128_pickle toy (.init hc) ⟨_, default_toy⟩
  obtain ⟨h1, h2, _⟩ := C128_pickle_counterexample toy default_toy (by simp [kwOf, Dict.set]) hc h
  exact ⟨c', h, h1, by rw [h2]; rfl⟩

/-- Four massive neutrinos. -/
example (config : CDict) : (cosmoOf 70 true (.masses [0.1, 0.1, 0.1, 0.1]) (.masses [0.1, 0.1, 0.1, 0.1])).toClass toy config = .error .indexError :=
  C128_neutrinos_counterexample toy (made_toy 70 true rfl) (ob := 0.0486) rfl (m := .masses [0.1, 0.1, 0.1, 0.1]) rfl
    (by norm_num [massive, List.filter_cons]) config

/-- Masses in the wrong order are put in order for CLASS. -/
example : ∃ p l, (cosmoOf 70 true (.masses [0.05, 0.1, 0]) (.masses [0.05, 0.1, 0])).toClass toy (fun _ => Option.none) = .ok p ∧ p "h" = some (.num (70 / 100)) ∧
    p "N_ncdm" = some (.int 2) ∧ p "m_ncdm" = some (.list l) ∧ l.Pairwise (fun a b => b ≤ a) ∧ l.Perm [0.05, 0.1] := by
  have hmass : massive (.masses [0.05, 0.1, 0]) = [0.05, 0.1] := by
    simp [massive]; norm_num
  obtain ⟨p, H, Om, T, N, w, n, h1, h2, _, _, _, _, _, _, h3, _, _, _, _, _, h4, h5, _⟩ :=
    C128_class toy (made_toy 70 true (m := .masses [0.05, 0.1, 0]) (m' := .masses [0.05, 0.1, 0]) rfl) (ob := 0.0486) rfl (m := .masses [0.05, 0.1, 0]) rfl
      (by rw [hmass]; simp) (fun _ => Option.none)
  obtain ⟨l, h6, h7, h8⟩ := h5 rfl (by rw [hmass]; simp)
  rw [hmass] at h4 h7
  cases h2
  exact ⟨p, l, h1, h3 rfl, h4 rfl, h6, h8, h7⟩

/-- A clone with another amplitude. -/
example : ∃ c', (cosmoOf 70 false (.num 0) (.masses [0, 0, 0])).clone toy (Dict.empty.set .sigma8 (.num 0.8)) = .ok c' ∧ c'.getAttr .sigma8 = .ok (.num 0.8) ∧
    c'.getAttr .H0 = .ok (.num 70) := by
  obtain ⟨c', h1, h2, h3⟩ := C128_clone_amplitude toy (made_toy 70 false (m := .num 0) (m' := .masses [0, 0, 0]) rfl) 0.8
  exact ⟨c', h1, h2, by rw [h3 .H0 (by decide) (by decide) (by decide) (by simp)]; rfl⟩

end

end Verif.CosmoDict
