/-
C83, C84: Halo-Zel'dovich power spectra.
-/
import Verif.Model.Hzpt
import Verif.Props.Interp
import Mathlib.Analysis.SpecialFunctions.Pow.Deriv
import Mathlib.Analysis.Calculus.Deriv.Pow
import Mathlib.Analysis.Calculus.Deriv.Inv
import Mathlib.Tactic.FieldSimp

namespace Verif.Hzpt

open Verif.Interp

noncomputable section

/-- The integrals at z=0. -/
def arr0 (E : Env) : Arr := ⟨E.x0, fun i => E.x0 i + 2 * E.disp0, E.y0, E.disp0⟩

/-- A Zel'dovich object that is properly normalised to `s`. -/
def zelAt (E : Env) (s : ℝ) (lowk : Bool) : Zel := ⟨s, some ((arr0 E).scale ((s / E.s80) ^ 2)), s, lowk⟩

theorem new_eq (E : Env) (h : E.s80 ≠ 0) : Zel.new E = zelAt E E.s80 false := by
  simp [Zel.new, zelAt, arr0, Arr.scale, div_self h]

theorem set_zelAt (E : Env) (s t : ℝ) (b : Bool) (hs : s ≠ 0) : (zelAt E s b).setSigma8 t = zelAt E t b := by
  unfold Zel.setSigma8 zelAt
  rw [if_neg hs]
  simp only [Option.map_some, Arr.scale, Zel.mk.injEq, Option.some.injEq, Arr.mk.injEq, true_and, and_true]
  have : ∀ a : ℝ, a * (s / E.s80) ^ 2 * (t / s) ^ 2 = a * (t / E.s80) ^ 2 := by
    intro a
    rw [mul_assoc, ← mul_pow, mul_comm (s / E.s80), div_mul_div_cancel₀ hs]
  simp [this]

theorem tableRows_eq (E : Env) (kind : Kind) (ks : List ℝ) (l : List ℝ) (hl : ∀ s ∈ l, 0 < s) (s : ℝ) (hs : s ≠ 0) :
    (tableRows E kind ks l (zelAt E s true)).1 = l.map (fun s => ks.map ((zelAt E s true).zeldovich E kind)) ∧
    ∃ s' ≠ 0, (tableRows E kind ks l (zelAt E s true)).2 = zelAt E s' true := by
  induction l generalizing s with
  | nil => exact ⟨rfl, s, hs, rfl⟩
  | cons a l ih =>
    have ha := hl a List.mem_cons_self
    obtain ⟨i1, i2⟩ := ih (fun s h => hl s (List.mem_cons_of_mem _ h)) a ha.ne'
    simp only [tableRows, set_zelAt E s a true hs]
    exact ⟨by rw [i1]; rfl, i2⟩

/-- What the user last asked for: sigma8 of the collection, sigma8 of each model (they can be set separately), growth rate, interpolation. -/
structure Asked where
  s : ℝ
  each : Key → ℝ
  f : ℝ
  ib : Bool

/-- The effect of an operation on what was asked for. -/
def Asked.step (a : Asked) : Op → Asked
  | .setSigma8 s => ⟨s, fun _ => s, a.f, a.ib⟩
  | .setF f => { a with f := f }
  | .setInterpolate b => { a with ib := b }
  | .inner key s => { a with each := Function.update a.each key s }
  | .eval _ _ _ => a

/-- Operations with positive sigma8. -/
def Op.Pos : Op → Prop
  | .setSigma8 s => 0 < s
  | .inner _ s => 0 < s
  | _ => True

/-- The invariant. -/
structure Inv (E : Env) (G : Grid) (a : Asked) (h : Models) : Prop where
  pos : 0 < a.s
  poss : ∀ key, 0 < a.each key
  base : h.base = zelAt E a.s false
  s : h.sigma8 = a.s
  f : h.f = a.f
  ib : h.interpolate = a.ib
  model : ∀ key m, h.models key = some m → m.driver = zelAt E (a.each key) true ∧ m.sigma8 = a.each key ∧ (key = .P01 ∨ key = .P11 → m.f = a.f)
  fresh : ∀ key, h.models key = none → a.each key = a.s
  table : ∀ key rows, h.table key = some rows → rows = G.s8s.map fun s => G.ks.map ((zelAt E s true).zeldovich E key.kind)

theorem Inv.new (E : Env) (hE : E.s80 ≠ 0) (G : Grid) (s f : ℝ) (hs : 0 < s) (b : Bool) : Inv E G ⟨s, fun _ => s, f, b⟩ (Models.new E s f b) := by
  refine ⟨hs, fun _ => hs, ?_, rfl, rfl, rfl, ?_, ?_, ?_⟩
  · simp only [Models.new, new_eq E hE, set_zelAt E _ s false hE]
  · intro key m h; cases h
  · intro key _; rfl
  · intro key m h; cases h

theorem Inv.get {E : Env} {G : Grid} {a : Asked} {h : Models} (hi : Inv E G a h) (key : Key) :
    ∃ h' m, h.get key = some (h', m) ∧ Inv E G a h' ∧ h'.models key = some m ∧ m.driver = zelAt E (a.each key) true ∧ m.sigma8 = a.each key ∧
      (key = .P01 ∨ key = .P11 → m.f = a.f) := by
  unfold Models.get
  cases hm : h.models key with
  | some m =>
    obtain ⟨h1, h2, h3⟩ := hi.model key m hm
    exact ⟨h, m, rfl, hi, hm, h1, h2, h3⟩
  | none =>
    have hs : ¬ h.sigma8 ≤ 0 := by rw [hi.s]; exact not_le.2 hi.pos
    have he := hi.fresh key hm
    have e : ({ driver := h.base, sigma8 := h.sigma8, f := h.f, b1 := 0 } : Model).setSigma8 h.sigma8 = some ⟨zelAt E a.s false, a.s, h.f, 0⟩ := by
      unfold Model.setSigma8
      rw [if_neg hs, hi.base, hi.s, set_zelAt E _ _ false hi.pos.ne']
    simp only [e]
    refine ⟨_, _, rfl, ?_, Function.update_self .., ?_, he.symm, fun _ => hi.f⟩
    · refine ⟨hi.pos, hi.poss, hi.base, hi.s, hi.f, hi.ib, ?_, ?_, hi.table⟩
      · intro key' m' hm'
        by_cases hk : key' = key
        · subst hk
          simp only [Function.update_self, Option.some.injEq] at hm'
          subst hm'
          exact ⟨by rw [he]; rfl, he.symm, fun _ => hi.f⟩
        · simp only [Function.update_of_ne hk] at hm'
          exact hi.model key' m' hm'
      · intro key' hk'
        by_cases hk : key' = key
        · subst hk; exact he
        · simp only [Function.update_of_ne hk] at hk'
          exact hi.fresh key' hk'
    · rw [he]; rfl

theorem sync_eq (E : Env) (m : Model) (h : m.driver = zelAt E m.sigma8 true) : m.sync = m := by
  unfold Model.sync
  rw [if_neg]
  rw [h]; simp [zelAt]

/-- the Zel'dovich terms for an array of wavenumbers -/
def zelValues (E : Env) (G : Grid) (key : Key) (ib : Bool) (s : ℝ) (ks : List ℝ) : List ℝ :=
  if ib then fromRows E G (G.s8s.map fun s => G.ks.map ((zelAt E s true).zeldovich E key.kind)) key ⟨zelAt E s true, s, 0, 0⟩ ks
  else ks.map ((zelAt E s true).zeldovich E key.kind)

theorem fromRows_congr (E : Env) (G : Grid) (rows : List (List ℝ)) (key : Key) (m m' : Model) (h : m.driver = m'.driver) (h2 : m.sigma8 = m'.sigma8) (ks : List ℝ) :
    fromRows E G rows key m ks = fromRows E G rows key m' ks := by
  unfold fromRows; rw [h, h2]

theorem total_congr (K : Consts) (key : Key) (s f f' b b' k z : ℝ) (hf : key = .P01 ∨ key = .P11 → f = f') (hb : key = .Phm → b = b') :
    total K key s f b k z = total K key s f' b' k z := by
  cases key
  · rfl
  · simp only [total, hf (Or.inl rfl)]
  · simp only [total, hf (Or.inr rfl)]
  · simp only [total, hb rfl]

theorem Inv.update {E : Env} {G : Grid} {a : Asked} {h : Models} (hi : Inv E G a h) (key : Key) (m : Model) (h1 : m.driver = zelAt E (a.each key) true)
    (h2 : m.sigma8 = a.each key) (h3 : key = .P01 ∨ key = .P11 → m.f = a.f) : Inv E G a { h with models := Function.update h.models key (some m) } := by
  refine ⟨hi.pos, hi.poss, hi.base, hi.s, hi.f, hi.ib, ?_, ?_, hi.table⟩
  · intro key' m' hm'
    by_cases hk : key' = key
    · subst hk
      simp only [Function.update_self, Option.some.injEq] at hm'
      subst hm'
      exact ⟨h1, h2, h3⟩
    · simp only [Function.update_of_ne hk] at hm'
      exact hi.model key' m' hm'
  · intro key' hk'
    by_cases hk : key' = key
    · subst hk
      simp at hk'
    · simp only [Function.update_of_ne hk] at hk'
      exact hi.fresh key' hk'

theorem Inv.eval {E : Env} {G : Grid} {a : Asked} {h : Models} (hi : Inv E G a h) (hG : ∀ s ∈ G.s8s, 0 < s) (K : Consts) (key : Key) (b1 : ℝ) (ks : List ℝ) :
    Inv E G a (h.eval E G K key b1 ks).1 ∧
    (h.eval E G K key b1 ks).2 = some (List.zipWith (fun k z => total K key (a.each key) a.f b1 k z) ks (zelValues E G key a.ib (a.each key) ks)) := by
  obtain ⟨h', m, hg, hi', hm, m1, m2, m3⟩ := hi.get key
  have hs : m.sync = m := sync_eq E m (by rw [m1, m2])
  unfold Models.eval
  simp only [hg, hs]
  set m' : Model := if key = .Phm then { m with b1 := b1 } else m with hm'
  have n1 : m'.driver = zelAt E (a.each key) true := by rw [hm']; split_ifs <;> exact m1
  have n2 : m'.sigma8 = a.each key := by rw [hm']; split_ifs <;> exact m2
  have n3 : key = .P01 ∨ key = .P11 → m'.f = a.f := by rw [hm']; split_ifs <;> exact m3
  have n4 : key = .Phm → m'.b1 = b1 := by intro h; rw [hm', if_pos h]
  have hout : ∀ (mm : Model), mm.sigma8 = a.each key → mm.f = m'.f → mm.b1 = m'.b1 → ∀ k z, total K key mm.sigma8 mm.f mm.b1 k z = total K key (a.each key) a.f b1 k z := by
    intro mm e1 e2 e3 k z
    rw [e1]
    exact total_congr K key _ _ _ _ _ k z (by rw [e2]; exact n3) (by rw [e3]; exact n4)
  by_cases hib : h'.interpolate = true
  · rw [if_pos hib]
    have hib' : a.ib = true := by rw [← hi'.ib, hib]
    cases ht : h'.table key with
    | some rows =>
      refine ⟨hi'.update key m' n1 n2 n3, ?_⟩
      simp only [zelValues, if_pos hib']
      rw [fromRows_congr E G rows key m' ⟨zelAt E (a.each key) true, a.each key, 0, 0⟩ n1 n2, ← hi'.table key rows ht]
      congr 2
      funext k z
      exact hout m' n2 rfl rfl k z
    | none =>
      obtain ⟨t1, s', hs', t2⟩ := tableRows_eq E key.kind G.ks G.s8s hG (a.each key) (hi'.poss key).ne'
      have b1' : (buildTable E G key m').1 = G.s8s.map fun s => G.ks.map ((zelAt E s true).zeldovich E key.kind) := by
        unfold buildTable; simp only [n1]; exact t1
      have b2' : (buildTable E G key m').2.driver = zelAt E (a.each key) true := by
        unfold buildTable; simp only [n1, t2, n2]; exact set_zelAt E s' _ true hs'
      have b3' : (buildTable E G key m').2.sigma8 = a.each key := n2
      refine ⟨?_, ?_⟩
      · have := hi'.update key (buildTable E G key m').2 b2' b3' n3
        refine ⟨this.pos, this.poss, this.base, this.s, this.f, this.ib, this.model, this.fresh, ?_⟩
        intro key' rows hr
        by_cases hk : key' = key
        · subst hk
          simp only [Function.update_self, Option.some.injEq] at hr
          rw [← hr, b1']
        · simp only [Function.update_of_ne hk] at hr
          exact hi'.table key' rows hr
      · simp only [zelValues, if_pos hib']
        rw [fromRows_congr E G _ key (buildTable E G key m').2 ⟨zelAt E (a.each key) true, a.each key, 0, 0⟩ b2' b3', b1']
        congr 2
        funext k z
        exact hout _ b3' rfl rfl k z
  · rw [if_neg hib]
    have hib' : ¬ a.ib = true := by rw [← hi'.ib]; exact hib
    refine ⟨hi'.update key m' n1 n2 n3, ?_⟩
    simp only [zelValues, if_neg hib', n1]
    congr 2
    funext k z
    exact hout m' n2 rfl rfl k z

theorem setEach_spec (s : ℝ) (hs : 0 < s) (l : List Key) (hl : l.Nodup) (ms : Key → Option Model) :
    (setEach s l ms).2 = true ∧
    ∀ key, (setEach s l ms).1 key = if key ∈ l then (ms key).map (fun m => { m with driver := (m.driver.setSigma8 s), sigma8 := s }) else ms key := by
  induction l generalizing ms with
  | nil => exact ⟨rfl, fun _ => by simp [setEach]⟩
  | cons k t ih =>
    obtain ⟨hk, ht⟩ := List.nodup_cons.1 hl
    unfold setEach
    cases hm : ms k with
    | none =>
      refine ⟨(ih ht ms).1, fun key => ?_⟩
      simp only [(ih ht ms).2 key, List.mem_cons]
      by_cases h : key = k
      · subst h; simp [hm]
      · simp [h]
    | some m =>
      simp only [Model.setSigma8, if_neg (not_le.2 hs)]
      refine ⟨(ih ht _).1, fun key => ?_⟩
      simp only [(ih ht _).2 key, List.mem_cons]
      by_cases h : key = k
      · subst h; simp [hm, hk]
      · simp [h]

theorem Inv.setSigma8 {E : Env} {G : Grid} {a : Asked} {h : Models} (hi : Inv E G a h) (s : ℝ) (hs : 0 < s) :
    (h.setSigma8 s).2 = true ∧ Inv E G ⟨s, fun _ => s, a.f, a.ib⟩ (h.setSigma8 s).1 := by
  obtain ⟨h1, h2⟩ := setEach_spec s hs [.P00, .P01, .P11, .Phm] (by decide) h.models
  refine ⟨h1, ⟨hs, fun _ => hs, ?_, rfl, hi.f, hi.ib, ?_, fun _ _ => rfl, hi.table⟩⟩
  · simp only [Models.setSigma8, hi.base, set_zelAt E _ s false hi.pos.ne']
  · intro key m hm
    simp only [Models.setSigma8, h2] at hm
    have hmem : key ∈ [Key.P00, .P01, .P11, .Phm] := by cases key <;> simp
    rw [if_pos hmem] at hm
    obtain ⟨m0, e0, rfl⟩ := Option.map_eq_some_iff.1 hm
    obtain ⟨g1, g2, g3⟩ := hi.model key m0 e0
    exact ⟨by simp only [g1, set_zelAt E _ s true (hi.poss key).ne'], rfl, g3⟩

theorem Inv.setF {E : Env} {G : Grid} {a : Asked} {h : Models} (hi : Inv E G a h) (f : ℝ) : Inv E G { a with f := f } (h.setF f) := by
  refine ⟨hi.pos, hi.poss, hi.base, hi.s, rfl, hi.ib, ?_, ?_, hi.table⟩
  · intro key m hm
    simp only [Models.setF] at hm
    split at hm
    · obtain ⟨m0, e0, rfl⟩ := Option.map_eq_some_iff.1 hm
      obtain ⟨g1, g2, g3⟩ := hi.model key m0 e0
      exact ⟨g1, g2, fun _ => rfl⟩
    · rename_i hk
      obtain ⟨g1, g2, g3⟩ := hi.model key m hm
      exact ⟨g1, g2, fun h => absurd h hk⟩
  · intro key hm
    simp only [Models.setF] at hm
    split at hm
    · exact hi.fresh key (Option.map_eq_none_iff.1 hm)
    · exact hi.fresh key hm

theorem Inv.inner {E : Env} {G : Grid} {a : Asked} {h : Models} (hi : Inv E G a h) (K : Consts) (key : Key) (s : ℝ) (hs : 0 < s) :
    Inv E G { a with each := Function.update a.each key s } (h.step E G K (.inner key s)) := by
  obtain ⟨h', m, hg, hi', hm, m1, m2, m3⟩ := hi.get key
  simp only [Models.step, hg, Model.setSigma8, if_neg (not_le.2 hs)]
  refine ⟨hi'.pos, ?_, hi'.base, hi'.s, hi'.f, hi'.ib, ?_, ?_, hi'.table⟩
  · intro key'
    by_cases hk : key' = key
    · subst hk; simpa using hs
    · simpa [hk] using hi'.poss key'
  · intro key' m' hm'
    by_cases hk : key' = key
    · subst hk
      simp only [Function.update_self, Option.some.injEq] at hm' ⊢
      subst hm'
      exact ⟨by simp only [m1, set_zelAt E _ s true (hi'.poss _).ne'], rfl, m3⟩
    · simp only [Function.update_of_ne hk] at hm' ⊢
      exact hi'.model key' m' hm'
  · intro key' hk'
    by_cases hk : key' = key
    · subst hk; simp at hk'
    · simp only [Function.update_of_ne hk] at hk' ⊢
      exact hi'.fresh key' hk'

theorem Inv.step {E : Env} {G : Grid} (hG : ∀ s ∈ G.s8s, 0 < s) (K : Consts) {a : Asked} {h : Models} (hi : Inv E G a h) (op : Op) (hop : op.Pos) :
    Inv E G (a.step op) (h.step E G K op) := by
  cases op with
  | setSigma8 s => exact (hi.setSigma8 s hop).2
  | setF f => exact hi.setF f
  | setInterpolate b => exact ⟨hi.pos, hi.poss, hi.base, hi.s, hi.f, rfl, hi.model, hi.fresh, hi.table⟩
  | inner key s => exact hi.inner K key s hop
  | eval key b1 ks => exact (hi.eval hG K key b1 ks).1

theorem Inv.run {E : Env} {G : Grid} (hG : ∀ s ∈ G.s8s, 0 < s) (K : Consts) {a : Asked} {h : Models} (hi : Inv E G a h) (ops : List Op) (hop : ∀ op ∈ ops, op.Pos) :
    Inv E G (ops.foldl Asked.step a) (ops.foldl (Models.step E G K) h) := by
  induction ops generalizing a h with
  | nil => exact hi
  | cons op ops ih => exact ih (hi.step hG K op (hop op List.mem_cons_self)) fun o ho => hop o (List.mem_cons_of_mem _ ho)

/-- C84, history independence: after any sequence of changes of sigma8 (of the whole collection or of one model), of the growth rate and of the interpolation switch, and of
evaluations (which build tables and models on the way), evaluating a spectrum gives exactly what a newly made collection with the parameters last asked for gives. -/
theorem C84_history (E : Env) (hE : E.s80 ≠ 0) (G : Grid) (hG : ∀ s ∈ G.s8s, 0 < s) (K : Consts) (s f : ℝ) (hs : 0 < s) (b : Bool) (ops : List Op)
    (hop : ∀ op ∈ ops, op.Pos) (key : Key) (b1 : ℝ) (ks : List ℝ) :
    let a := ops.foldl Asked.step ⟨s, fun _ => s, f, b⟩
    ((ops.foldl (Models.step E G K) (Models.new E s f b)).eval E G K key b1 ks).2 = ((Models.new E (a.each key) a.f a.ib).eval E G K key b1 ks).2 := by
  intro a
  have h1 := (Inv.new E hE G s f hs b).run hG K ops hop
  have hpos : 0 < a.each key := h1.poss key
  rw [(h1.eval hG K key b1 ks).2, ((Inv.new E hE G (a.each key) a.f hpos a.ib).eval hG K key b1 ks).2]

/-- C84: the density-divergence spectrum of Jennings et al. is computed from the density spectra at its two normalisations, and leaves the collection as it was asked to be: all
later evaluations are again those of new collections. -/
theorem C84_jennings (E : Env) (hE : E.s80 ≠ 0) (G : Grid) (hG : ∀ s ∈ G.s8s, 0 < s) (K : Consts) (s f : ℝ) (hs : 0 < s) (b : Bool) (ops : List Op)
    (hop : ∀ op ∈ ops, op.Pos) (D : ℝ) (hD : 0 < D) (ks : List ℝ) :
    let h := ops.foldl (Models.step E G K) (Models.new E s f b)
    let a := ops.foldl Asked.step ⟨s, fun _ => s, f, b⟩
    let fresh := fun s' => ((Models.new E s' a.f a.ib).eval E G K .P00 0 ks).2.getD []
    (pdvJennings E G K h a.s a.f D ks).2 = some (List.zipWith (fun p0 p =>
        let g := (-(124838 / 10) * p0 ^ (1 / 2 : ℝ) + 2554 / 1000 * p0 ^ 2) / (138129 / 100 + 2540 / 1000 * p0)
        (-a.f) * ((g - p0) / (3 / (D + D ^ 2 + D ^ 3)) ^ 2 + p)) (fresh (a.s / D)) (fresh a.s)) ∧
    ∀ key b1 ks', ((pdvJennings E G K h a.s a.f D ks).1.eval E G K key b1 ks').2 =
      ((Models.new E (if key = .P00 then a.s else a.each key) a.f a.ib).eval E G K key b1 ks').2 := by
  intro h a fresh
  have h1 : Inv E G a h := (Inv.new E hE G s f hs b).run hG K ops hop
  clear_value h a
  have hposD : 0 < a.s / D := div_pos h1.pos hD
  have h2 := h1.inner K .P00 (a.s / D) hposD
  obtain ⟨h3, e3⟩ := h2.eval hG K .P00 0 ks
  have h4 := h3.inner K .P00 a.s h1.pos
  obtain ⟨h5, e5⟩ := h4.eval hG K .P00 0 ks
  have key1 : ∀ (h' : Models) (v1 v2 : List ℝ), (h'.eval E G K .P00 0 ks).2 = some v1 →
      ((((h'.eval E G K .P00 0 ks).1.step E G K (.inner .P00 a.s)).eval E G K .P00 0 ks).2 = some v2) →
      h' = h.step E G K (.inner .P00 (a.s / D)) →
      pdvJennings E G K h a.s a.f D ks = (((((h'.eval E G K .P00 0 ks).1.step E G K (.inner .P00 a.s)).eval E G K .P00 0 ks).1), some (List.zipWith (fun p0 p =>
        let g := (-(124838 / 10) * p0 ^ (1 / 2 : ℝ) + 2554 / 1000 * p0 ^ 2) / (138129 / 100 + 2540 / 1000 * p0)
        (-a.f) * ((g - p0) / (3 / (D + D ^ 2 + D ^ 3)) ^ 2 + p)) v1 v2)) := by
    intro h' v1 v2 q1 q2 hh
    unfold pdvJennings
    rw [← hh]
    dsimp only
    rcases hx : h'.eval E G K .P00 0 ks with ⟨r1, r2⟩
    rw [hx] at q1 q2
    dsimp only at q1 q2 ⊢
    subst q1
    dsimp only
    rcases hy : (r1.step E G K (.inner .P00 a.s)).eval E G K .P00 0 ks with ⟨s1, s2⟩
    rw [hy] at q2
    dsimp only at q2 ⊢
    subst q2
    rfl
  have hp := key1 _ _ _ e3 e5 rfl
  simp only [Function.update_self, Function.update_idem] at h5
  refine ⟨?_, ?_⟩
  · rw [hp]
    simp only [fresh]
    rw [((Inv.new E hE G (a.s / D) a.f hposD a.ib).eval hG K .P00 0 ks).2, ((Inv.new E hE G a.s a.f h1.pos a.ib).eval hG K .P00 0 ks).2]
    simp only [Function.update_self, Option.getD_some]
  · intro key b1 ks'
    have hp1 := congrArg Prod.fst hp
    rw [hp1]
    have hk : 0 < (if key = .P00 then a.s else a.each key) := by
      split_ifs
      · exact h1.pos
      · exact h1.poss key
    rw [(h5.eval hG K key b1 ks').2, ((Inv.new E hE G _ a.f hk a.ib).eval hG K key b1 ks').2]
    simp only [Function.update_apply]

/-- C84, violation (1): if sigma8 is set to zero before a model is made, no error is raised, and after setting it back to a proper value the Zel'dovich term of that model is
silently missing: for all later evaluations only the broadband term is returned. -/
theorem C84_zero_counterexample (E : Env) (G : Grid) (K : Consts) (s f : ℝ) (hs : 0 < s) (ks : List ℝ) :
    ((Models.new E s f false).setSigma8 0).2 = true ∧
    ((((Models.new E s f false).setSigma8 0).1.setSigma8 s).1.eval E G K .P00 0 ks).2 = some (ks.map fun k => pade (K.c0.law s) k) := by
  refine ⟨rfl, ?_⟩
  have e : (((Models.new E s f false).setSigma8 0).1.setSigma8 s).1 = ⟨⟨s, none, s, false⟩, s, f, false, fun _ => none, fun _ => none⟩ := by
    simp [Models.setSigma8, Models.new, setEach, Zel.setSigma8, Zel.new]
  rw [e]
  have hn : ¬ s ≤ 0 := not_le.2 hs
  simp only [Models.eval, Models.get, Model.setSigma8, if_neg hn, Zel.setSigma8, Zel.setLowK, Model.sync, Option.map_none, ite_self]
  simp only [ne_eq, not_true_eq_false, if_false, reduceCtorEq, Bool.false_eq_true, Zel.zeldovich, Zel.eval, Option.map_none, Option.getD_none, total, Key.kind]
  congr 1
  induction ks with
  | nil => rfl
  | cons k ks ih =>
    have : Zel.zeldovich E { s8 := s, arr := none, plin := s, lowk := true } Kind.p00 k = 0 := rfl
    simp [ih, this]

/-- C84, violation (2): if a model has been made, setting a non-positive sigma8 raises — but the collection has already taken the value, while the model keeps the old one. -/
theorem C84_error_counterexample (E : Env) (hE : E.s80 ≠ 0) (G : Grid) (hG : ∀ s ∈ G.s8s, 0 < s) (K : Consts) (s f : ℝ) (hs : 0 < s) (ks : List ℝ) (s' : ℝ) (hs' : s' ≤ 0) :
    let h := ((Models.new E s f false).eval E G K .P00 0 ks).1
    (h.setSigma8 s').2 = false ∧ (h.setSigma8 s').1.sigma8 = s' ∧ ((h.setSigma8 s').1.models .P00).map (·.sigma8) = some s := by
  intro h
  have hi := ((Inv.new E hE G s f hs false).eval hG K .P00 0 ks).1
  have hsome : ∃ m, h.models .P00 = some m := by
    obtain ⟨h', m, hg, -⟩ := (Inv.new E hE G s f hs false).get .P00
    simp only [h, Models.eval, hg]
    split
    · split <;> simp
    · simp
  obtain ⟨m, hm⟩ := hsome
  obtain ⟨-, m2, -⟩ := hi.model .P00 m hm
  have e : setEach s' [.P00, .P01, .P11, .Phm] h.models = (h.models, false) := by
    unfold setEach
    simp only [hm, Model.setSigma8, if_pos hs']
  refine ⟨by simp only [Models.setSigma8, e], rfl, ?_⟩
  simp only [Models.setSigma8, e, hm, Option.map_some, m2]

/-- an environment in which only the linear power at `k = 0.002` is not zero -/
def spike : Env := ⟨1, fun k => if k = 2 / 1000 then 1 else 0, fun _ => 1, fun _ => 0, fun _ => 0, 0, fun _ _ _ => 0, fun _ => 0, fun c f => by simp⟩

/-- a small table -/
def smallGrid : Grid := ⟨[1 / 2, 1], [1 / 1000, 3 / 1000]⟩

theorem spike_zel (s k : ℝ) (hk : k < k0Low) : (zelAt spike s true).zeldovich spike .p00 k = s ^ 2 * (if k = 2 / 1000 then 1 else 0) := by
  have : ¬ (k0Low ≤ k) := not_le.2 hk
  simp [Zel.zeldovich, Zel.eval, zelAt, this, lowKApprox, plin, q3, spike, arr0, Arr.scale]

/-- C84, violation (3): with interpolation, the value returned at a wavenumber depends on which other wavenumbers are asked for in the same call: if one of them is outside
of the table, none is interpolated. -/
theorem C84_batch_counterexample (K : Consts) : ∃ v w1 w2,
    ((Models.new spike 1 0 true).eval spike smallGrid K .P00 0 [2 / 1000]).2 = some [v] ∧
    ((Models.new spike 1 0 true).eval spike smallGrid K .P00 0 [2 / 1000, 4 / 1000]).2 = some [w1, w2] ∧ v ≠ w1 := by
  have hE : spike.s80 ≠ 0 := by simp [spike]
  have hG : ∀ s ∈ smallGrid.s8s, 0 < s := by
    intro s hs
    simp only [smallGrid, List.mem_cons, List.not_mem_nil, or_false] at hs
    rcases hs with rfl | rfl <;> norm_num
  have hrows : (smallGrid.s8s.map fun s => smallGrid.ks.map ((zelAt spike s true).zeldovich spike Key.P00.kind)) = [[0, 0], [0, 0]] := by
    simp only [smallGrid, List.map_cons, List.map_nil, Key.kind]
    rw [spike_zel _ _ (by norm_num [k0Low]), spike_zel _ _ (by norm_num [k0Low]), spike_zel _ _ (by norm_num [k0Low]), spike_zel _ _ (by norm_num [k0Low])]
    norm_num
  have hgood : ∀ g ∈ (interpOf smallGrid [[0, 0], [0, 0]]).grid, GoodGrid g := by
    intro g hg
    simp only [interpOf, smallGrid, List.mem_cons, List.not_mem_nil, or_false] at hg
    rcases hg with rfl | rfl <;> refine ⟨?_, by simp⟩ <;> simp <;> norm_num
  have z1 : zelValues spike smallGrid .P00 true 1 [2 / 1000] = [0] := by
    unfold zelValues
    rw [if_pos rfl, hrows]
    unfold fromRows
    have hd := (C90_domain (interpOf smallGrid [[0, 0], [0, 0]]) hgood rfl [[1, 2 / 1000]] (by simp [interpOf]) none).2 (by
      intro x hx
      rw [List.mem_singleton] at hx
      subst hx
      refine .cons ⟨by simp [smallGrid], ?_⟩ (.cons ⟨by simp [smallGrid], ?_⟩ .nil) <;> norm_num [smallGrid])
    simp only [List.map_cons, List.map_nil]
    rw [hd]
    have he := C90_exact (interpOf smallGrid [[0, 0], [0, 0]]) hgood (fun _ => 0) (by simp [interpOf, MultiAffine]) (by
      intro ns hns
      match ns, hns with
      | [a, b], _ => rcases a with _ | _ | a <;> rcases b with _ | _ | b <;> simp [interpOf]) [1, 2 / 1000] (by simp [interpOf])
    simp only [List.map_cons, List.map_nil, Option.getD_none]
    rw [show (interpOf smallGrid [[0, 0], [0, 0]]).method = .linear from rfl, he]
    rfl
  have z2 : zelValues spike smallGrid .P00 true 1 [2 / 1000, 4 / 1000] = [1, 0] := by
    unfold zelValues
    rw [if_pos rfl, hrows]
    unfold fromRows
    have hd := (C90_domain (interpOf smallGrid [[0, 0], [0, 0]]) hgood rfl [[1, 2 / 1000], [1, 4 / 1000]] (by simp [interpOf]) none).1.2
      ⟨[1, 4 / 1000], by simp, by
        intro h
        unfold InDomain interpOf smallGrid at h
        rw [List.forall₂_cons, List.forall₂_cons] at h
        obtain ⟨-, ⟨h1, -, h2⟩, -⟩ := h
        norm_num at h2⟩
    simp only [List.map_cons, List.map_nil]
    rw [hd]
    simp only [Key.kind]
    rw [spike_zel _ _ (by norm_num [k0Low]), spike_zel _ _ (by norm_num [k0Low])]
    norm_num
  have e1 := ((Inv.new spike hE smallGrid 1 0 one_pos true).eval hG K .P00 0 [2 / 1000]).2
  have e2 := ((Inv.new spike hE smallGrid 1 0 one_pos true).eval hG K .P00 0 [2 / 1000, 4 / 1000]).2
  simp only [z1, z2, List.zipWith_cons_cons, List.zipWith_nil_left] at e1 e2
  exact ⟨_, _, _, e1, e2, by simp [total]⟩

end

end Verif.Hzpt
