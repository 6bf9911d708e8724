/-
C121: saving the Halo-Zel'dovich objects to a file and loading them.
-/
import Verif.Model.HzptSaved
import Verif.Props.HzptCF

namespace Verif.Hzpt

open Verif.Interp

noncomputable section

theorem saved_zelAt (E : Env) (s : ℝ) (b : Bool) : (zelAt E s b).saved = zelAt E s b := rfl

/-- At wavenumbers of at least 0.005 h/Mpc the approximation is not used. -/
theorem zelAt_high (E : Env) (s : ℝ) (b : Bool) (kind : Kind) {k : ℝ} (hk : 5 / 1000 ≤ k) : (zelAt E s b).zeldovich E kind k = (zelAt E s true).zeldovich E kind k := by
  unfold Zel.zeldovich Zel.eval zelAt
  simp only [k0Low, hk, true_or, if_true]

theorem tableRows_eqb (E : Env) (b : Bool) (kind : Kind) (ks : List ℝ) (l : List ℝ) (hl : ∀ s ∈ l, 0 < s) (s : ℝ) (hs : s ≠ 0) :
    (tableRows E kind ks l (zelAt E s b)).1 = l.map (fun s => ks.map ((zelAt E s b).zeldovich E kind)) ∧
    ∃ s' ≠ 0, (tableRows E kind ks l (zelAt E s b)).2 = zelAt E s' b := by
  induction l generalizing s with
  | nil => exact ⟨rfl, s, hs, rfl⟩
  | cons a l ih =>
    have ha := hl a List.mem_cons_self
    obtain ⟨i1, i2⟩ := ih (fun s h => hl s (List.mem_cons_of_mem _ h)) a ha.ne'
    simp only [tableRows, set_zelAt E s a b hs]
    exact ⟨by rw [i1]; rfl, i2⟩

/-- What matters of a history with loadings: what was asked for last; which models exist; which of them have lost the low-k approximation because they existed when the collection was saved; which tables exist, and
whether they were made without the approximation. -/
structure Past where
  asked : Asked
  made : Key → Bool
  lost : Key → Bool
  tab : Key → Option Bool

/-- the effect of an operation -/
def Past.step (p : Past) (op : SOp) : Past :=
  match op with
  | .op (.setSigma8 s) => ⟨p.asked.step (.setSigma8 s), p.made, p.lost, p.tab⟩
  | .op (.setF f) => ⟨p.asked.step (.setF f), p.made, p.lost, p.tab⟩
  | .op (.setInterpolate b) => ⟨p.asked.step (.setInterpolate b), p.made, p.lost, p.tab⟩
  | .op (.inner key s) => ⟨p.asked.step (.inner key s), Function.update p.made key true, p.lost, p.tab⟩
  | .op (.eval key _ _) => ⟨p.asked, Function.update p.made key true, p.lost,
      if p.asked.ib = true ∧ p.tab key = none then Function.update p.tab key (some (p.lost key)) else p.tab⟩
  | .reload => ⟨p.asked, p.made, p.made, p.tab⟩

/-- at the start -/
def Past.start (s f : ℝ) (b : Bool) : Past := ⟨⟨s, fun _ => s, f, b⟩, fun _ => false, fun _ => false, fun _ => none⟩

/-- the rows of a table made with or without the approximation -/
def rowsOf (E : Env) (G : Grid) (key : Key) (lost : Bool) : List (List ℝ) := G.s8s.map fun s => G.ks.map ((zelAt E s !lost).zeldovich E key.kind)

/-- The invariant. -/
structure InvS (E : Env) (G : Grid) (p : Past) (h : Models) : Prop where
  pos : 0 < p.asked.s
  poss : ∀ key, 0 < p.asked.each key
  base : h.base = zelAt E p.asked.s false
  s : h.sigma8 = p.asked.s
  f : h.f = p.asked.f
  ib : h.interpolate = p.asked.ib
  made : ∀ key, (h.models key).isSome = p.made key
  model : ∀ key m, h.models key = some m → (∃ t, 0 < t ∧ m.driver = zelAt E t !p.lost key) ∧ m.sigma8 = p.asked.each key ∧ (key = .P01 ∨ key = .P11 → m.f = p.asked.f)
  fresh : ∀ key, h.models key = none → p.asked.each key = p.asked.s ∧ p.lost key = false
  table : ∀ key, h.table key = (p.tab key).map (rowsOf E G key)

theorem InvS.new (E : Env) (hE : E.s80 ≠ 0) (G : Grid) (s f : ℝ) (hs : 0 < s) (b : Bool) : InvS E G (Past.start s f b) (Models.new E s f b) := by
  refine ⟨hs, fun _ => hs, ?_, rfl, rfl, rfl, fun _ => rfl, ?_, fun _ _ => ⟨rfl, rfl⟩, fun _ => rfl⟩
  · simp only [Models.new, new_eq E hE, set_zelAt E _ s false hE]; rfl
  · intro key m h; cases h

theorem InvS.update {E : Env} {G : Grid} {p : Past} {h : Models} (hi : InvS E G p h) (key : Key) (m : Model) (h1 : ∃ t, 0 < t ∧ m.driver = zelAt E t !p.lost key)
    (h2 : m.sigma8 = p.asked.each key) (h3 : key = .P01 ∨ key = .P11 → m.f = p.asked.f) :
    InvS E G { p with made := Function.update p.made key true } { h with models := Function.update h.models key (some m) } := by
  refine ⟨hi.pos, hi.poss, hi.base, hi.s, hi.f, hi.ib, ?_, ?_, ?_, hi.table⟩
  · intro key'
    by_cases hk : key' = key
    · subst hk; simp
    · simpa [hk] using hi.made key'
  · intro key' m' hm'
    by_cases hk : key' = key
    · subst hk
      simp only [Function.update_self, Option.some.injEq] at hm'
      subst hm'
      exact ⟨h1, h2, h3⟩
    · simp only [Function.update_of_ne hk] at hm'
      exact hi.model key' m' hm'
  · intro key' hk'
    by_cases hk : key' = key
    · subst hk; simp at hk'
    · simp only [Function.update_of_ne hk] at hk'
      exact hi.fresh key' hk'

theorem InvS.get {E : Env} {G : Grid} {p : Past} {h : Models} (hi : InvS E G p h) (key : Key) :
    ∃ h' m, h.get key = some (h', m) ∧ InvS E G { p with made := Function.update p.made key true } h' ∧ h'.models key = some m ∧ (∃ t, 0 < t ∧ m.driver = zelAt E t !p.lost key) ∧
      m.sigma8 = p.asked.each key ∧ (key = .P01 ∨ key = .P11 → m.f = p.asked.f) := by
  unfold Models.get
  cases hm : h.models key with
  | some m =>
    obtain ⟨h1, h2, h3⟩ := hi.model key m hm
    have e : Function.update p.made key true = p.made := by
      have := hi.made key
      rw [hm] at this
      rw [show true = p.made key from this, Function.update_eq_self]
    refine ⟨h, m, rfl, ?_, hm, h1, h2, h3⟩
    rw [e]
    exact hi
  | none =>
    have hs : ¬ h.sigma8 ≤ 0 := by rw [hi.s]; exact not_le.2 hi.pos
    obtain ⟨he, hl⟩ := hi.fresh key hm
    have e : ({ driver := h.base, sigma8 := h.sigma8, f := h.f, b1 := 0 } : Model).setSigma8 h.sigma8 = some ⟨zelAt E p.asked.s false, p.asked.s, h.f, 0⟩ := by
      unfold Model.setSigma8
      rw [if_neg hs, hi.base, hi.s, set_zelAt E _ _ false hi.pos.ne']
    simp only [e]
    have q1 : ∃ t, 0 < t ∧ (zelAt E p.asked.s false).setLowK = zelAt E t !p.lost key := ⟨p.asked.s, hi.pos, by rw [hl]; rfl⟩
    exact ⟨_, _, rfl, hi.update key _ q1 he.symm fun _ => hi.f, Function.update_self .., q1, he.symm, fun _ => hi.f⟩

theorem sync_zelAt {E : Env} {m : Model} {t : ℝ} {b : Bool} (ht : 0 < t) (h : m.driver = zelAt E t b) : m.sync = { m with driver := zelAt E m.sigma8 b } := by
  unfold Model.sync
  split
  · rw [h, set_zelAt E t _ b ht.ne']
  · rename_i hs
    have : t = m.sigma8 := by
      by_contra hne
      exact hs (by rw [h]; exact hne)
    cases m
    simp only at h this ⊢
    rw [h, this]

/-- the Zel'dovich terms for an array of wavenumbers -/
def zelPast (E : Env) (G : Grid) (p : Past) (key : Key) (ks : List ℝ) : List ℝ :=
  if p.asked.ib then fromRows E G (rowsOf E G key ((p.tab key).getD (p.lost key))) key ⟨zelAt E (p.asked.each key) !p.lost key, p.asked.each key, 0, 0⟩ ks
  else ks.map ((zelAt E (p.asked.each key) !p.lost key).zeldovich E key.kind)

theorem InvS.eval {E : Env} {G : Grid} {p : Past} {h : Models} (hi : InvS E G p h) (hG : ∀ s ∈ G.s8s, 0 < s) (K : Consts) (key : Key) (b1 : ℝ) (ks : List ℝ) :
    InvS E G (p.step (.op (.eval key b1 ks))) (h.eval E G K key b1 ks).1 ∧
    (h.eval E G K key b1 ks).2 = some (List.zipWith (fun k z => total K key (p.asked.each key) p.asked.f b1 k z) ks (zelPast E G p key ks)) := by
  obtain ⟨h', m, hg, hi', hm, ⟨t, ht, m1⟩, m2, m3⟩ := hi.get key
  have hs := sync_zelAt ht m1
  unfold Models.eval
  simp only [hg, hs]
  set m' : Model := if key = .Phm then { ({ m with driver := zelAt E m.sigma8 !p.lost key } : Model) with b1 := b1 } else { m with driver := zelAt E m.sigma8 !p.lost key } with hm'
  have n1 : m'.driver = zelAt E (p.asked.each key) !p.lost key := by rw [hm', ← m2]; split_ifs <;> rfl
  have n2 : m'.sigma8 = p.asked.each key := by rw [hm']; split_ifs <;> exact m2
  have n3 : key = .P01 ∨ key = .P11 → m'.f = p.asked.f := by rw [hm']; split_ifs <;> exact m3
  have n4 : key = .Phm → m'.b1 = b1 := by intro h; rw [hm', if_pos h]
  have hout : ∀ (mm : Model), mm.sigma8 = p.asked.each key → mm.f = m'.f → mm.b1 = m'.b1 → ∀ k z, total K key mm.sigma8 mm.f mm.b1 k z = total K key (p.asked.each key) p.asked.f b1 k z := by
    intro mm e1 e2 e3 k z
    rw [e1]
    exact total_congr K key _ _ _ _ _ k z (by rw [e2]; exact n3) (by rw [e3]; exact n4)
  have hu := hi'.update key m' ⟨_, hi.poss key, n1⟩ n2 n3
  simp only [Function.update_idem] at hu
  by_cases hib : h'.interpolate = true
  · rw [if_pos hib]
    have hib' : p.asked.ib = true := by rw [← hi'.ib, hib]
    cases ht : h'.table key with
    | some rows =>
      have htab := hi'.table key
      rw [ht] at htab
      obtain ⟨b, hb, hrows⟩ := Option.map_eq_some_iff.1 htab.symm
      have hb' : p.tab key = some b := hb
      refine ⟨?_, ?_⟩
      · simp only [Past.step, hb', reduceCtorEq, and_false, if_false]
        exact hu
      · simp only [zelPast, if_pos hib', hb', Option.getD_some]
        rw [fromRows_congr E G rows key m' ⟨zelAt E (p.asked.each key) !p.lost key, p.asked.each key, 0, 0⟩ n1 n2, hrows]
        congr 2
        funext k z
        exact hout m' n2 rfl rfl k z
    | none =>
      have htab := hi'.table key
      rw [ht] at htab
      have hb' : p.tab key = none := Option.map_eq_none_iff.1 htab.symm
      obtain ⟨t1, s', hs', t2⟩ := tableRows_eqb E (!p.lost key) key.kind G.ks G.s8s hG (p.asked.each key) (hi'.poss key).ne'
      have b1' : (buildTable E G key m').1 = rowsOf E G key (p.lost key) := by
        unfold buildTable; simp only [n1]; exact t1
      have b2' : (buildTable E G key m').2.driver = zelAt E (p.asked.each key) !p.lost key := by
        unfold buildTable; simp only [n1, t2, n2]; exact set_zelAt E s' _ _ hs'
      have b3' : (buildTable E G key m').2.sigma8 = p.asked.each key := n2
      refine ⟨?_, ?_⟩
      · have := hi'.update key (buildTable E G key m').2 ⟨_, hi.poss key, b2'⟩ b3' n3
        simp only [Function.update_idem] at this
        simp only [Past.step, hb', hib', and_self, if_true]
        refine ⟨this.pos, this.poss, this.base, this.s, this.f, this.ib, this.made, this.model, this.fresh, ?_⟩
        intro key'
        by_cases hk : key' = key
        · subst hk
          simp only [Function.update_self, Option.map_some, b1']
        · simpa [hk] using this.table key'
      · simp only [zelPast, if_pos hib', hb', Option.getD_none]
        rw [b1', fromRows_congr E G _ key (buildTable E G key m').2 ⟨zelAt E (p.asked.each key) !p.lost key, p.asked.each key, 0, 0⟩ b2' b3']
        congr 2
        funext k z
        exact hout _ b3' rfl rfl k z
  · rw [if_neg hib]
    have hib' : ¬ p.asked.ib = true := by rw [← hi'.ib]; exact hib
    refine ⟨?_, ?_⟩
    · simp only [Past.step, hib', Bool.false_eq_true, false_and, if_false]
      exact hu
    · simp only [zelPast, if_neg hib', n1]
      congr 2
      funext k z
      exact hout m' n2 rfl rfl k z

theorem InvS.setSigma8 {E : Env} {G : Grid} {p : Past} {h : Models} (hi : InvS E G p h) (s : ℝ) (hs : 0 < s) :
    InvS E G (p.step (.op (.setSigma8 s))) (h.setSigma8 s).1 := by
  obtain ⟨h1, h2⟩ := setEach_spec s hs [.P00, .P01, .P11, .Phm] (by decide) h.models
  have hmem : ∀ key, key ∈ [Key.P00, .P01, .P11, .Phm] := by intro key; cases key <;> simp
  refine ⟨hs, fun _ => hs, ?_, rfl, hi.f, hi.ib, ?_, ?_, ?_, hi.table⟩
  · simp only [Models.setSigma8, hi.base, set_zelAt E _ s false hi.pos.ne']; rfl
  · intro key
    simp only [Models.setSigma8, h2, if_pos (hmem key), Option.isSome_map]
    exact hi.made key
  · intro key m hm
    simp only [Models.setSigma8, h2] at hm
    rw [if_pos (hmem key)] at hm
    obtain ⟨m0, e0, rfl⟩ := Option.map_eq_some_iff.1 hm
    obtain ⟨⟨t, ht, g1⟩, g2, g3⟩ := hi.model key m0 e0
    exact ⟨⟨s, hs, by simp only [g1, set_zelAt E _ s _ ht.ne']; rfl⟩, rfl, g3⟩
  · intro key hm
    simp only [Models.setSigma8, h2] at hm
    rw [if_pos (hmem key)] at hm
    exact ⟨rfl, (hi.fresh key (Option.map_eq_none_iff.1 hm)).2⟩

theorem InvS.setF {E : Env} {G : Grid} {p : Past} {h : Models} (hi : InvS E G p h) (f : ℝ) : InvS E G (p.step (.op (.setF f))) (h.setF f) := by
  refine ⟨hi.pos, hi.poss, hi.base, hi.s, rfl, hi.ib, ?_, ?_, ?_, hi.table⟩
  · intro key
    simp only [Models.setF]
    split
    · rw [Option.isSome_map]; exact hi.made key
    · exact hi.made key
  · intro key m hm
    simp only [Models.setF] at hm
    split at hm
    · obtain ⟨m0, e0, rfl⟩ := Option.map_eq_some_iff.1 hm
      obtain ⟨g1, g2, g3⟩ := hi.model key m0 e0
      exact ⟨g1, g2, fun _ => rfl⟩
    · rename_i hk
      obtain ⟨g1, g2, g3⟩ := hi.model key m hm
      exact ⟨g1, g2, fun h => absurd h hk⟩
  · intro key hm
    simp only [Models.setF] at hm
    split at hm
    · exact hi.fresh key (Option.map_eq_none_iff.1 hm)
    · exact hi.fresh key hm

theorem InvS.inner {E : Env} {G : Grid} {p : Past} {h : Models} (hi : InvS E G p h) (K : Consts) (key : Key) (s : ℝ) (hs : 0 < s) :
    InvS E G (p.step (.op (.inner key s))) (h.step E G K (.inner key s)) := by
  obtain ⟨h', m, hg, hi', hm, ⟨t, ht, m1⟩, m2, m3⟩ := hi.get key
  simp only [Models.step, hg, Model.setSigma8, if_neg (not_le.2 hs)]
  refine ⟨hi'.pos, ?_, hi'.base, hi'.s, hi'.f, hi'.ib, ?_, ?_, ?_, hi'.table⟩
  · intro key'
    by_cases hk : key' = key
    · subst hk; simpa [Past.step, Asked.step] using hs
    · simpa [Past.step, Asked.step, hk] using hi'.poss key'
  · intro key'
    by_cases hk : key' = key
    · subst hk; simp [Past.step]
    · simpa [Past.step, hk] using hi'.made key'
  · intro key' m' hm'
    by_cases hk : key' = key
    · subst hk
      simp only [Function.update_self, Option.some.injEq] at hm'
      subst hm'
      exact ⟨⟨s, hs, by simp only [m1, set_zelAt E _ s _ ht.ne']; rfl⟩, by simp [Past.step, Asked.step], m3⟩
    · simp only [Function.update_of_ne hk] at hm'
      have := hi'.model key' m' hm'
      simpa [Past.step, Asked.step, hk] using this
  · intro key' hk'
    by_cases hk : key' = key
    · subst hk; simp at hk'
    · simp only [Function.update_of_ne hk] at hk'
      have := hi'.fresh key' hk'
      simpa [Past.step, Asked.step, hk] using this

theorem InvS.reload {E : Env} {G : Grid} {p : Past} {h : Models} (hi : InvS E G p h) : InvS E G (p.step .reload) h.saved := by
  refine ⟨hi.pos, hi.poss, ?_, hi.s, hi.f, hi.ib, ?_, ?_, ?_, hi.table⟩
  · simp only [Models.saved, hi.base]; rfl
  · intro key
    simp only [Models.saved, Option.isSome_map]
    exact hi.made key
  · intro key m hm
    obtain ⟨m0, e0, rfl⟩ := Option.map_eq_some_iff.1 hm
    obtain ⟨-, g2, g3⟩ := hi.model key m0 e0
    refine ⟨⟨p.asked.s, hi.pos, ?_⟩, g2, g3⟩
    have := hi.made key
    rw [e0] at this
    simp only [hi.base, Past.step, ← this, Option.isSome_some]
    rfl
  · intro key hm
    have hn : h.models key = none := Option.map_eq_none_iff.1 hm
    have := hi.made key
    rw [hn] at this
    exact ⟨(hi.fresh key hn).1, this.symm⟩

/-- positive values of sigma8 -/
def SOp.Pos : SOp → Prop
  | .op o => o.Pos
  | .reload => True

theorem InvS.run {E : Env} {G : Grid} (hG : ∀ s ∈ G.s8s, 0 < s) (K : Consts) {p : Past} {h : Models} (hi : InvS E G p h) (ops : List SOp) (hop : ∀ op ∈ ops, op.Pos) :
    InvS E G (ops.foldl Past.step p) (ops.foldl (Models.stepS E G K) h) := by
  induction ops generalizing p h with
  | nil => exact hi
  | cons op ops ih =>
    refine ih ?_ fun o ho => hop o (List.mem_cons_of_mem _ ho)
    have hp := hop op List.mem_cons_self
    cases op with
    | reload => exact hi.reload
    | op o =>
      cases o with
      | setSigma8 s => exact hi.setSigma8 s hp
      | setF f => exact hi.setF f
      | setInterpolate b => exact ⟨hi.pos, hi.poss, hi.base, hi.s, hi.f, rfl, hi.made, hi.model, hi.fresh, hi.table⟩
      | inner key s => exact hi.inner K key s hp
      | eval key b1 ks => exact (hi.eval hG K key b1 ks).1

theorem eval_new (E : Env) (hE : E.s80 ≠ 0) (G : Grid) (hG : ∀ s ∈ G.s8s, 0 < s) (K : Consts) (s f : ℝ) (hs : 0 < s) (b : Bool) (key : Key) (b1 : ℝ) (ks : List ℝ) :
    ((Models.new E s f b).eval E G K key b1 ks).2 = some (List.zipWith (fun k z => total K key s f b1 k z) ks (zelPast E G (Past.start s f b) key ks)) :=
  ((InvS.new E hE G s f hs b).eval hG K key b1 ks).2

/-- C121, collections of spectra (partial: see the two violations): after any history of changes, evaluations, savings and loadings, a spectrum is that of a new collection with the parameters last asked for in each of
three cases: (1) the spectrum had not been used whenever the collection was saved; (2) no interpolation, and all wavenumbers are at least 0.005 h/Mpc; (3) with interpolation, the table had been made
by a spectrum as in (1), and all points asked for are inside of it. -/
theorem C121_collection_partial (E : Env) (hE : E.s80 ≠ 0) (G : Grid) (hG : ∀ s ∈ G.s8s, 0 < s) (K : Consts) (s f : ℝ) (hs : 0 < s) (b : Bool) (ops : List SOp) (hop : ∀ op ∈ ops, op.Pos)
    (key : Key) (b1 : ℝ) (ks : List ℝ) :
    let p := ops.foldl Past.step (Past.start s f b)
    (p.lost key = false ∧ p.tab key ≠ some true ∨
      p.asked.ib = false ∧ (∀ k ∈ ks, 5 / 1000 ≤ k) ∨
      p.asked.ib = true ∧ p.tab key = some false ∧ ∃ v, Interp.call (interpOf G (rowsOf E G key false)) (ks.map fun k => [p.asked.each key, k]) none = .values v) →
    ((ops.foldl (Models.stepS E G K) (Models.new E s f b)).eval E G K key b1 ks).2 = ((Models.new E (p.asked.each key) p.asked.f p.asked.ib).eval E G K key b1 ks).2 := by
  intro p hcase
  have h1 := (InvS.new E hE G s f hs b).run hG K ops hop
  have hpos : 0 < p.asked.each key := h1.poss key
  rw [(h1.eval hG K key b1 ks).2, eval_new E hE G hG K _ _ hpos]
  congr 2
  show zelPast E G p key ks = _
  clear_value p
  simp only [zelPast, Past.start, Option.getD_none, Bool.not_false]
  rcases hcase with ⟨c1, c2⟩ | ⟨c1, c2⟩ | ⟨c1, c2, v, c3⟩
  · rw [c1]
    rcases ht : p.tab key with _ | b
    · rfl
    · cases b
      · rfl
      · exact absurd ht c2
  · rw [c1]
    simp only [Bool.false_eq_true, if_false]
    exact List.map_congr_left fun k hk => zelAt_high E _ _ _ (c2 k hk)
  · rw [c1, c2]
    simp only [if_true, Option.getD_some]
    unfold fromRows
    simp only [c3]

/-- C121: if the collection was saved before the spectrum was used, it has lost nothing, whatever is done with other spectra and whatever comes afterwards (until it is saved again) -/
theorem C121_unused (ops ops' : List SOp) (s f : ℝ) (b : Bool) (key : Key)
    (h : ∀ op ∈ ops, ∀ b1 ks s', op ≠ .op (.eval key b1 ks) ∧ op ≠ .op (.inner key s')) (h' : ∀ op ∈ ops', op ≠ .reload) :
    let p := (ops ++ ops').foldl Past.step (Past.start s f b)
    p.lost key = false ∧ p.tab key ≠ some true := by
  have a1 : ∀ (ops : List SOp) (p : Past), (∀ op ∈ ops, ∀ b1 ks s', op ≠ .op (.eval key b1 ks) ∧ op ≠ .op (.inner key s')) → p.made key = false → p.lost key = false → p.tab key = none →
      (ops.foldl Past.step p).made key = false ∧ (ops.foldl Past.step p).lost key = false ∧ (ops.foldl Past.step p).tab key = none := by
    intro ops
    induction ops with
    | nil => intro p _ h1 h2 h3; exact ⟨h1, h2, h3⟩
    | cons op ops ih =>
      intro p h h1 h2 h3
      have hop := h op List.mem_cons_self
      refine ih _ (fun o ho => h o (List.mem_cons_of_mem _ ho)) ?_ ?_ ?_
      all_goals
        cases op with
        | reload => first | exact h1 | exact h3
        | op o =>
          cases o with
          | setSigma8 s => assumption
          | setF f => assumption
          | setInterpolate b => assumption
          | inner key' s' =>
            have hk : key ≠ key' := by rintro rfl; exact (hop 0 [] s').2 rfl
            simp only [Past.step, Function.update_of_ne hk]
            assumption
          | eval key' b1 ks =>
            have hk : key ≠ key' := by rintro rfl; exact (hop b1 ks 0).1 rfl
            simp only [Past.step]
            first
            | (rw [Function.update_of_ne hk]; assumption)
            | assumption
            | (split
               · rw [Function.update_of_ne hk]; assumption
               · assumption)
  have a2 : ∀ (ops : List SOp) (p : Past), (∀ op ∈ ops, op ≠ .reload) → p.lost key = false → p.tab key ≠ some true →
      (ops.foldl Past.step p).lost key = false ∧ (ops.foldl Past.step p).tab key ≠ some true := by
    intro ops
    induction ops with
    | nil => intro p _ h1 h2; exact ⟨h1, h2⟩
    | cons op ops ih =>
      intro p h h1 h2
      refine ih _ (fun o ho => h o (List.mem_cons_of_mem _ ho)) ?_ ?_
      · cases op with
        | reload => exact absurd rfl (h _ List.mem_cons_self)
        | op o => cases o <;> exact h1
      · cases op with
        | reload => exact absurd rfl (h _ List.mem_cons_self)
        | op o =>
          cases o with
          | eval key' b1 ks =>
            simp only [Past.step]
            split
            · by_cases hk : key = key'
              · subst hk; simp [h1]
              · rw [Function.update_of_ne hk]; exact h2
            · exact h2
          | _ => exact h2
  intro p
  obtain ⟨g1, g2, g3⟩ := a1 ops (Past.start s f b) h rfl rfl rfl
  have := a2 ops' _ h' g2 (by rw [g3]; simp)
  simpa only [p, List.foldl_append] using this

theorem sum_zero (l : List ℕ) (g : ℕ → ℝ) (h : ∀ i, g i = 0) : (l.map g).sum = 0 := by
  induction l with
  | nil => rfl
  | cons a l ih => simp [h, ih]

theorem spike_fft (a : Arr) (k : ℝ) (kind : Kind) : fftlog spike a k kind = 0 := by
  unfold fftlog
  refine sum_zero _ _ fun n => ?_
  rw [sum_zero]
  · simp
  · intro i; simp [spike]

theorem spike_lost (s k : ℝ) : (zelAt spike s false).zeldovich spike .p00 k = 0 := by
  unfold Zel.zeldovich Zel.eval zelAt
  simp [spike_fft]

theorem small_pos : ∀ s ∈ smallGrid.s8s, 0 < s := by
  intro s hs
  simp only [smallGrid, List.mem_cons, List.not_mem_nil, or_false] at hs
  rcases hs with rfl | rfl <;> norm_num

/-- C121, violation (1): a collection whose density spectrum has been used no longer has the same spectrum at wavenumbers below 0.005 h/Mpc after it was saved and loaded: the low-k approximation is turned off -/
theorem C121_lowk_counterexample (K : Consts) : ∃ v w,
    (([.op (.eval .P00 0 [1])].foldl (Models.stepS spike smallGrid K) (Models.new spike 1 0 false)).eval spike smallGrid K .P00 0 [2 / 1000]).2 = some [v] ∧
    (([.op (.eval .P00 0 [1]), .reload].foldl (Models.stepS spike smallGrid K) (Models.new spike 1 0 false)).eval spike smallGrid K .P00 0 [2 / 1000]).2 = some [w] ∧ v = w + 1 := by
  have hE : spike.s80 ≠ 0 := by simp [spike]
  have r1 := (InvS.new spike hE smallGrid 1 0 one_pos false).run small_pos K [.op (.eval .P00 0 [1])] (by simp [SOp.Pos, Op.Pos])
  have r2 := (InvS.new spike hE smallGrid 1 0 one_pos false).run small_pos K [.op (.eval .P00 0 [1]), .reload] (by simp [SOp.Pos, Op.Pos])
  refine ⟨total K .P00 1 0 0 (2 / 1000) 1, total K .P00 1 0 0 (2 / 1000) 0, (r1.eval small_pos K .P00 0 [2 / 1000]).2.trans ?_, (r2.eval small_pos K .P00 0 [2 / 1000]).2.trans ?_, ?_⟩
  · simp only [List.foldl, Past.step, Past.start, zelPast, Bool.false_eq_true, if_false, List.map_cons, List.map_nil, Bool.not_false, Key.kind, false_and]
    rw [spike_zel _ _ (by norm_num [k0Low])]
    simp
  · simp only [List.foldl, Past.step, Past.start, zelPast, Bool.false_eq_true, if_false, List.map_cons, List.map_nil, Key.kind, Function.update_self, Bool.not_true, false_and]
    rw [spike_lost]
    simp
  · simp [total]

/-- C121: cases that meet the hypotheses of `C121_collection_partial`: after the same history (used, saved, loaded, sigma8 changed), (1) another spectrum, (2) the same spectrum at higher wavenumbers, (3) the same
one from its table -/
theorem C121_case : let ops : List SOp := [.op (.eval .P00 0 [1]), .reload, .op (.setSigma8 (3 / 4)), .op (.setInterpolate false)]
    let p := ops.foldl Past.step (Past.start 1 0 true)
    (∀ op ∈ ops, op.Pos) ∧ (p.lost .Phm = false ∧ p.tab .Phm ≠ some true) ∧ p.asked.ib = false ∧ p.lost .P00 = true ∧ p.asked.each .P00 = 3 / 4 ∧
    let p' := (ops ++ [SOp.op (.setInterpolate true)]).foldl Past.step (Past.start 1 0 true)
    p'.asked.ib = true ∧ p'.tab .P00 = some false ∧ ∃ v, Interp.call (interpOf smallGrid (rowsOf spike smallGrid .P00 false)) ([2 / 1000].map fun k => [p'.asked.each .P00, k]) none = .values v := by
  intro ops p
  refine ⟨?_, ⟨by simp [p, ops, Past.step, Past.start], by simp [p, ops, Past.step, Past.start]⟩, rfl, by simp [p, ops, Past.step, Past.start], rfl, ?_⟩
  · intro op h
    simp only [ops, List.mem_cons, List.not_mem_nil, or_false] at h
    rcases h with rfl | rfl | rfl | rfl <;> simp only [SOp.Pos, Op.Pos]
    norm_num
  intro p'
  refine ⟨rfl, by simp [p', ops, Past.step, Past.start, Asked.step], ?_⟩
  have e : p'.asked.each .P00 = 3 / 4 := rfl
  have hgood : ∀ g ∈ (interpOf smallGrid (rowsOf spike smallGrid .P00 false)).grid, GoodGrid g := by
    intro g hg
    simp only [interpOf, smallGrid, List.mem_cons, List.not_mem_nil, or_false] at hg
    rcases hg with rfl | rfl <;> refine ⟨?_, by simp⟩ <;> simp <;> norm_num
  have hd := (C90_domain (interpOf smallGrid (rowsOf spike smallGrid .P00 false)) hgood rfl [[3 / 4, 2 / 1000]] (by simp [interpOf]) none).2 (by
    intro x hx
    rw [List.mem_singleton] at hx
    subst hx
    refine .cons ⟨by simp [smallGrid], ?_⟩ (.cons ⟨by simp [smallGrid], ?_⟩ .nil) <;> norm_num [smallGrid])
  exact ⟨_, by rw [e]; exact hd⟩

/-- C121, violation (2): a table made after loading holds the wrong values at low wavenumbers for good -/
theorem C121_table_counterexample (E : Env) (hE : E.s80 ≠ 0) (G : Grid) (hG : ∀ s ∈ G.s8s, 0 < s) (K : Consts) (s : ℝ) (hs : 0 < s) :
    (([.op (.eval .P00 0 []), .reload, .op (.setInterpolate true), .op (.eval .P00 0 [])].foldl (Models.stepS E G K) (Models.new E s 0 false)).table .P00) =
      some (G.s8s.map fun s => G.ks.map ((zelAt E s false).zeldovich E .p00)) := by
  have r := (InvS.new E hE G s 0 hs false).run hG K [.op (.eval .P00 0 []), .reload, .op (.setInterpolate true), .op (.eval .P00 0 [])] (by simp [SOp.Pos, Op.Pos])
  rw [r.table]
  simp [Past.step, Past.start, rowsOf, Key.kind, Asked.step]

/-- C121, spectra by themselves: loaded ones give what the one saved gave at wavenumbers of at least 0.005 h/Mpc, whatever sigma8 had been set to -/
theorem C121_single_partial (E : Env) (hE : E.s80 ≠ 0) (K : Consts) (key : Key) {s f : ℝ} (sets : List ℝ) {m0 m : Model} (h0 : Model.new E s f = some m0)
    (h : sets.foldl (fun m s => m.bind (Model.setSigma8 · s)) (some m0) = some m) (b1 : ℝ) {k : ℝ} (hk : 5 / 1000 ≤ k) :
    ((m.saved E).call E K key b1 k).2 = (m.call E K key b1 k).2 := by
  have hm0 : 0 < m0.sigma8 ∧ m0.driver = zelAt E m0.sigma8 true := by
    unfold Model.new Model.setSigma8 at h0
    split at h0
    · cases h0
    · rename_i hs
      rw [Option.map_some, Option.some.injEq] at h0
      subst h0
      refine ⟨not_le.1 hs, ?_⟩
      simp only [new_eq E hE, set_zelAt E _ s false hE]
      rfl
  have hm : 0 < m.sigma8 ∧ m.driver = zelAt E m.sigma8 true := by
    clear h0
    induction sets generalizing m0 with
    | nil => rw [List.foldl_nil, Option.some.injEq] at h; subst h; exact hm0
    | cons a l ih =>
      rw [List.foldl_cons, Option.bind_some] at h
      rcases hx : m0.setSigma8 a with _ | m1
      · rw [hx] at h
        exfalso
        have : ∀ l : List ℝ, l.foldl (fun m s => m.bind (Model.setSigma8 · s)) (none : Option Model) = none := by
          intro l; induction l with
          | nil => rfl
          | cons _ _ ih => exact ih
        rw [this] at h
        cases h
      · rw [hx] at h
        refine ih h ?_
        unfold Model.setSigma8 at hx
        split at hx
        · cases hx
        · rename_i hs
          rw [Option.some.injEq] at hx
          subst hx
          exact ⟨not_le.1 hs, by simp only [hm0.2, set_zelAt E _ a true hm0.1.ne']⟩
  have e1 : m.sync = m := sync_eq E m hm.2
  have h80 : E.s80 ≠ 0 := hE
  have e2 : (m.saved E).sync = { m with driver := zelAt E m.sigma8 false } := by
    unfold Model.sync Model.saved
    simp only [new_eq E hE]
    split
    · rw [set_zelAt E _ _ false hE]
    · rename_i hs
      have : E.s80 = m.sigma8 := by
        by_contra hne
        exact hs hne
      rw [this]
  unfold Model.call
  rw [e1, e2]
  dsimp only
  split
  · simp only [hm.2, zelAt_high E _ false _ hk]
  · simp only [hm.2, zelAt_high E _ false _ hk]

/-- C121, correlation functions: the Zel'dovich term of a loaded one is that of the normalisation of the cosmology at z = 0, whatever `sigma8_z` the object has (and still reports) -/
theorem C121_cf (E : Env) (hE : E.s80 ≠ 0) (ks : List ℝ) (T : List (Option ℝ) → ℝ → ℝ → Option ℝ) (P : Pars) (m : CFModel) (r : ℝ) :
    ((m.saved E ks).call00 E ks T P r).2 = (broadbandCF (P.law m.sigma8) r).map (· + (T (ks.map ((zelAt E E.s80 true).eval E .p00)) r 0).getD 0) ∧ (m.saved E ks).sigma8 = m.sigma8 := by
  refine ⟨?_, rfl⟩
  have e : (CF.new E ks).sync E ks = CF.new E ks := by
    unfold CF.sync
    rw [if_neg]
    exact fun h => h rfl
  simp only [CFModel.call00, CFModel.zeldovich, CF.evaluate, CFModel.saved, e]
  have : (CF.new E ks).grid = ks.map ((zelAt E E.s80 true).eval E .p00) := by
    show ks.map ((Zel.new E).setLowK.eval E .p00) = _
    rw [new_eq E hE]; rfl
  rw [this]

/-- C121, violation (3): a correlation function at half of the normalisation of the cosmology has another value after loading -/
theorem C121_cf_counterexample : ∃ (T : List (Option ℝ) → ℝ → ℝ → Option ℝ) (m : CFModel) (v w : ℝ), CFModel.new spike [2 / 1000] (1 / 2) = some m ∧
    (m.call00 spike [2 / 1000] T shipped.c0 1).2 = some v ∧ ((m.saved spike [2 / 1000]).call00 spike [2 / 1000] T shipped.c0 1).2 = some w ∧ w = v + 3 / 4 := by
  have hE : spike.s80 ≠ 0 := by simp [spike]
  obtain ⟨m, hm, hi⟩ := CFInv.new hE [2 / 1000] (s := 1 / 2) (by norm_num)
  have hz : ∀ s, (zelAt spike s true).eval spike .p00 (2 / 1000) = some (s ^ 2) := by
    intro s
    have h := spike_zel s (2 / 1000) (by norm_num [k0Low])
    rw [if_pos rfl, mul_one] at h
    unfold Zel.zeldovich at h
    have : ((zelAt spike s true).eval spike .p00 (2 / 1000)).isSome := by simp [Zel.eval, zelAt]
    obtain ⟨x, hx⟩ := Option.isSome_iff_exists.1 this
    rw [hx] at h ⊢
    simpa using h
  obtain ⟨ξ, hξ⟩ : ∃ ξ, broadbandCF (shipped.c0.law (1 / 2)) 1 = some ξ := by
    have hg := C120_shipped_dm (s := 1 / 2) (by norm_num) (by norm_num)
    obtain ⟨ξ, h, -⟩ := C120_fourier hg.1 hg.2.1 hg.2.2.1 hg.2.2.2
    exact ⟨ξ 1, h 1 one_pos⟩
  refine ⟨fun l _ _ => l.headD none, m, ξ + (1 / 2) ^ 2, ξ + 1 ^ 2, hm, ?_, ?_, by ring⟩
  · simp only [CFModel.call00, (hi.zeldovich _ _).2, hi.2.1, hξ, Option.map_some, List.map_cons, List.map_nil, hz, List.headD_cons, Option.getD_some]
  · rw [(C121_cf spike hE _ _ _ m 1).1, hi.2.1, hξ]
    simp only [Option.map_some, List.map_cons, List.map_nil, hz, List.headD_cons, Option.getD_some]
    rfl

/-- C121, linear power spectra: those made with a redshift are restored with their normalisation; violation (4): those made without one cannot be loaded -/
theorem C121_linear (sigma8At : ℝ → ℝ) (s : ℝ) :
    (∀ z, ({ Linear.new sigma8At (some z) with s8 := s } : Linear).saved sigma8At = some { Linear.new sigma8At (some z) with s8 := s }) ∧
    ({ Linear.new sigma8At none with s8 := s } : Linear).saved sigma8At = none := ⟨fun _ => rfl, rfl⟩

/-- C121, Kaiser spectra (partial): what is loaded computes with the growth rate given to the constructor, and with the bias given to it, or, if there was none, with the current one; so that it is as saved
exactly if these are the current ones -/
theorem C121_kaiser_partial (f : ℝ) (b : Option ℝ) (f' b' : ℝ) (P : ℝ → ℝ) :
    let K := ((KaiserObj.new f b).step (.setF f')).step (.setB b')
    K.toKaiser P = ⟨P, f', b'⟩ ∧ (K.saved.toKaiser P = K.toKaiser P ↔ f' = f ∧ (b = none ∨ b = some b')) := by
  refine ⟨rfl, ?_⟩
  cases b with
  | none => simp [KaiserObj.step, KaiserObj.new, KaiserObj.saved, KaiserObj.toKaiser, eq_comm]
  | some c => simp [KaiserObj.step, KaiserObj.new, KaiserObj.saved, KaiserObj.toKaiser, eq_comm]

/-- C121, violation (5): the monopole of a Kaiser spectrum whose growth rate has been set from 0 to 1 is another after loading -/
theorem C121_kaiser_counterexample : let K := (KaiserObj.new 0 none).step (.setF 1)
    (K.toKaiser fun _ => 1).Pell 0 1 = 28 / 15 ∧ (K.saved.toKaiser fun _ => 1).Pell 0 1 = 1 := by
  constructor <;> norm_num [KaiserObj.step, KaiserObj.new, KaiserObj.saved, KaiserObj.toKaiser, Xi.Kaiser.Pell, Xi.Kaiser.prefactor]

end
end Verif.Hzpt
