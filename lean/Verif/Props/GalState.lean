/-
C65: the temporary changes made by an evaluation of the galaxy model are undone, for base classes that may raise.
-/
import Verif.Model.Gal

namespace Verif.Rsd

open Verif.AP

variable {E : Type}

/-- The result of an evaluation started in `m`: either a value, and the state is unchanged, or an exception, and only `b1` and `b1_bar` may
differ. -/
inductive KeepsAt (m : GalM) : Except E ℝ × GalM → Prop where
  | ok (v : ℝ) : KeepsAt m (.ok v, m)
  | error (e : E) (b b' : ℝ) : KeepsAt m (.error e, { m with b1 := b, b1bar := b' })

def Keeps (x : Ev E) : Prop := ∀ m, KeepsAt m (x m)

theorem keeps_withBiases (n1 : GalM → ℝ) (n2 : Option (GalM → ℝ)) (f : ℝ → ℝ → Except E ℝ) : Keeps (withBiases n1 n2 f) := by
  intro m
  simp only [withBiases]
  split
  · exact .ok _
  · exact .error _ _ _

theorem keeps_pure (f : GalM → ℝ) : Keeps (E := E) (fun m => (.ok (f m), m)) := fun _ => .ok _

theorem keeps_sumTerms (ts : List ((GalM → ℝ) × Ev E)) (h : ∀ p ∈ ts, Keeps p.2) : ∀ acc, Keeps (sumTerms ts acc) := by
  induction ts with
  | nil => intro acc; exact keeps_pure (fun _ => acc)
  | cons p ts ih =>
    intro acc m
    obtain ⟨c, t⟩ := p
    have ht := h (c, t) List.mem_cons_self m
    simp only [sumTerms]
    simp only [] at ht
    generalize t m = r at ht
    cases ht with
    | ok v => exact ih (fun q hq => h q (List.mem_cons_of_mem _ hq)) _ m
    | error e b b' => exact .error _ _ _

theorem keeps_withZeroN (x : Ev E) (hx : Keeps x) : Keeps (withZeroN x) := by
  intro m
  have h := hx { m with N := 0 }
  simp only [withZeroN]
  generalize x { m with N := 0 } = r at h
  cases h with
  | ok v => exact .ok _
  | error e b b' => exact .error _ _ _

theorem keeps_withSO (x : Ev E) (hx : Keeps x) : Keeps (withSO x) := by
  intro m
  have h := hx (if m.useSo then { m with sigmaC := 0 } else m)
  simp only [withSO]
  generalize x (if m.useSo then { m with sigmaC := 0 } else m) = r at h
  cases h with
  | ok v =>
    have : ({ (if m.useSo then { m with sigmaC := 0 } else m) with sigmaC := m.sigmaC } : GalM) = m := by split <;> rfl
    simp only [this]
    exact .ok _
  | error e b b' =>
    have : ({ ({ (if m.useSo then { m with sigmaC := 0 } else m) with b1 := b, b1bar := b' } : GalM) with sigmaC := m.sigmaC } : GalM) =
      { m with b1 := b, b1bar := b' } := by split <;> rfl
    simp only [this]
    exact .error _ _ _

/-- All three methods of a term keep the state. -/
structure Term.Keeps (t : Term E) : Prop where
  call : ∀ k mu, Rsd.Keeps (t.call k mu)
  dk : ∀ k mu, Rsd.Keeps (t.dk k mu)
  dmu : ∀ k mu, Rsd.Keeps (t.dmu k mu)

theorem keeps_oneHalo (n : GalM → ℝ) : (oneHalo (E := E) n).Keeps :=
  ⟨fun _ _ => keeps_pure _, fun _ _ => keeps_pure (fun _ => 0), fun _ _ => keeps_pure (fun _ => 0)⟩

theorem keeps_twoHalo (base : BaseOps E) (n1 : GalM → ℝ) (n2 : Option (GalM → ℝ)) : (twoHalo base n1 n2).Keeps :=
  ⟨fun k mu => keeps_withBiases n1 n2 (fun b b' => base.power b b' k mu), fun k mu => keeps_withBiases n1 n2 (fun b b' => base.dk b b' k mu),
    fun k mu => keeps_withBiases n1 n2 (fun b b' => base.dmu b b' k mu)⟩

theorem keeps_group (c : GalM → ℝ) (ts : List (Term E)) (h : ∀ t ∈ ts, t.Keeps) : (group c ts).Keeps := by
  refine ⟨fun k mu => ?_, fun k mu => ?_, fun k mu => ?_⟩ <;> refine keeps_sumTerms _ ?_ 0 <;> intro p hp <;>
    obtain ⟨t, ht, rfl⟩ := List.mem_map.1 hp
  · exact (h t ht).call k mu
  · exact (h t ht).dk k mu
  · exact (h t ht).dmu k mu

theorem keeps_dampedCall (g : Term E) (s1 : GalM → ℝ) (s2 : Option (GalM → ℝ)) (k mu : ℝ) (hg : g.Keeps) :
    Keeps (dampedCall g s1 s2 k mu) := by
  intro m
  have h := hg.call k mu m
  simp only [dampedCall]
  generalize g.call k mu m = r at h
  cases h with
  | ok v => exact .ok _
  | error e b b' => exact .error _ _ _

theorem keeps_dampedDeriv (g : Term E) (d : ℝ → ℝ → Ev E) (D : Fog → ℝ → ℝ → ℝ → ℝ) (s1 : GalM → ℝ) (s2 : Option (GalM → ℝ)) (k mu : ℝ)
    (hg : g.Keeps) (hd : Keeps (d k mu)) : Keeps (dampedDeriv g d D s1 s2 k mu) := by
  intro m
  have h := hd m
  have h2 := hg.call k mu m
  simp only [dampedDeriv]
  generalize d k mu m = r at h
  cases h with
  | ok v =>
    simp only []
    generalize g.call k mu m = r at h2
    cases h2 with
    | ok v => exact .ok _
    | error e b b' => exact .error _ _ _
  | error e b b' => exact .error _ _ _

theorem keeps_damped (c : GalM → ℝ) (ts : List (Term E)) (s1 : GalM → ℝ) (s2 : Option (GalM → ℝ)) (h : ∀ t ∈ ts, t.Keeps) :
    (damped c ts s1 s2).Keeps :=
  ⟨fun _ _ => keeps_dampedCall _ _ _ _ _ (keeps_group c ts h),
    fun k mu => keeps_dampedDeriv _ _ _ _ _ _ _ (keeps_group c ts h) ((keeps_group c ts h).dk k mu),
    fun k mu => keeps_dampedDeriv _ _ _ _ _ _ _ (keeps_group c ts h) ((keeps_group c ts h).dmu k mu)⟩

theorem keeps_soTerm (t : Term E) (h : t.Keeps) : (soTerm t).Keeps :=
  ⟨fun k mu => keeps_withSO _ (h.call k mu), fun k mu => keeps_withSO _ (h.dk k mu), fun k mu => keeps_withSO _ (h.dmu k mu)⟩

theorem keeps_zeroNoise (t : Term E) (h : t.Keeps) : (zeroNoise t).Keeps :=
  ⟨fun k mu => keeps_withZeroN _ (h.call k mu), h.dk, h.dmu⟩

theorem keeps_damped1 (base : BaseOps E) (c : GalM → ℝ) (n1 : GalM → ℝ) (n2 : Option (GalM → ℝ)) (s1 : GalM → ℝ) (s2 : Option (GalM → ℝ)) :
    (damped c [twoHalo base n1 n2] s1 s2).Keeps := by
  refine keeps_damped _ _ _ _ ?_
  intro t ht
  simp only [List.mem_singleton] at ht
  subst ht
  exact keeps_twoHalo _ _ _

theorem keeps_damped2 (base : BaseOps E) (c : GalM → ℝ) (n1 : GalM → ℝ) (n2 : Option (GalM → ℝ)) (o s1 : GalM → ℝ)
    (s2 : Option (GalM → ℝ)) : (damped c [twoHalo base n1 n2, oneHalo o] s1 s2).Keeps := by
  refine keeps_damped _ _ _ _ ?_
  intro t ht
  simp only [List.mem_cons, List.not_mem_nil, or_false] at ht
  rcases ht with rfl | rfl
  · exact keeps_twoHalo _ _ _
  · exact keeps_oneHalo _

theorem keeps_gcc (base : BaseOps E) : (gcc base).Keeps := by
  refine keeps_group _ _ ?_
  intro t ht
  simp only [List.mem_cons, List.not_mem_nil, or_false] at ht
  rcases ht with rfl | rfl | rfl <;> exact keeps_soTerm _ (keeps_damped1 _ _ _ _ _ _)

theorem keeps_ccDeriv (base : BaseOps E) (d : ℝ → ℝ → Ev E) (D : Fog → ℝ → ℝ → ℝ → ℝ) (k mu : ℝ) (hd : Keeps (d k mu)) :
    Keeps (ccDeriv base d D k mu) := by
  intro m
  have h := hd m
  have h2 := (keeps_gcc base).call k mu m
  simp only [ccDeriv]
  generalize d k mu m = r at h
  cases h with
  | ok v =>
    simp only []
    split
    · exact .ok _
    · generalize (gcc base).call k mu m = r at h2
      cases h2 with
      | ok v => exact .ok _
      | error e b b' => exact .error _ _ _
  | error e b b' => exact .error _ _ _

theorem keeps_ccCall (base : BaseOps E) (k mu : ℝ) : Keeps (ccCall base k mu) := by
  intro m
  have h := keeps_withZeroN _ ((keeps_gcc base).call k mu) m
  simp only [ccCall]
  generalize withZeroN ((gcc base).call k mu) m = r at h
  cases h with
  | ok v =>
    simp only []
    split
    · exact .ok _
    · exact .ok _
  | error e b b' => exact .error _ _ _

theorem keeps_tcc (base : BaseOps E) : (tcc base).Keeps :=
  ⟨fun k mu => keeps_ccCall base k mu, fun k mu => keeps_ccDeriv base _ _ k mu ((keeps_gcc base).dk k mu),
    fun k mu => keeps_ccDeriv base _ _ k mu ((keeps_gcc base).dmu k mu)⟩

theorem keeps_tcs (base : BaseOps E) : (tcs base).Keeps := by
  refine keeps_zeroNoise _ (keeps_group _ _ ?_)
  intro t ht
  simp only [List.mem_cons, List.not_mem_nil, or_false] at ht
  rcases ht with rfl | rfl | rfl | rfl <;> first | exact keeps_damped1 _ _ _ _ _ _ | exact keeps_damped2 _ _ _ _ _ _ _

theorem keeps_tss (base : BaseOps E) : (tss base).Keeps := by
  refine keeps_zeroNoise _ (keeps_group _ _ ?_)
  intro t ht
  simp only [List.mem_cons, List.not_mem_nil, or_false] at ht
  rcases ht with rfl | rfl | rfl <;> first | exact keeps_damped1 _ _ _ _ _ _ | exact keeps_damped2 _ _ _ _ _ _ _

theorem keeps_tgal (base : BaseOps E) : (tgal base).Keeps := by
  refine keeps_zeroNoise _ (keeps_group _ _ ?_)
  intro t ht
  simp only [List.mem_cons, List.not_mem_nil, or_false] at ht
  rcases ht with rfl | rfl | rfl
  · exact keeps_tcc base
  · exact keeps_tcs base
  · exact keeps_tss base

theorem keeps_decorated (x : ℝ → ℝ → Ev E) (h : ∀ k mu, Keeps (x k mu)) (k mu : ℝ) : Keeps (decorated x k mu) := by
  intro m
  have h := h (kAP k mu m.alphas.perp m.alphas.par) (muAP mu m.alphas.perp m.alphas.par) m
  simp only [decorated]
  generalize x (kAP k mu m.alphas.perp m.alphas.par) (muAP mu m.alphas.perp m.alphas.par) m = r at h
  cases h with
  | ok v => exact .ok _
  | error e b b' => exact .error _ _ _

/-! ### C65 -/

/-- The evaluations a user can ask for: the power and its two coordinate derivatives. -/
inductive Query where
  | power (k mu : ℝ)
  | derivative_k (k mu : ℝ)
  | derivative_mu (k mu : ℝ)

noncomputable def Query.run (base : BaseOps E) : Query → Ev E
  | power k mu => galPower base k mu
  | derivative_k k mu => galDk base k mu
  | derivative_mu k mu => galDmu base k mu

theorem Query.keeps (base : BaseOps E) (q : Query) : Keeps (q.run base) := by
  cases q with
  | power k mu => exact keeps_decorated _ (keeps_tgal base).call k mu
  | derivative_k k mu => exact keeps_decorated _ (keeps_tgal base).dk k mu
  | derivative_mu k mu => exact keeps_decorated _ (keeps_tgal base).dmu k mu

/-- **C65 (partial).** For every base class, whatever it raises: if an evaluation returns a number, no parameter of the model has changed. -/
theorem C65_success_partial (base : BaseOps E) (q : Query) (m : GalM) (v : ℝ) (h : (q.run base m).1 = .ok v) :
    (q.run base m).2 = m := by
  have h' := q.keeps base m
  generalize q.run base m = r at h h'
  cases h' with
  | ok v => rfl
  | error e b b' => simp at h

/-- **C65 (partial), exceptions.** Also when the evaluation raises, the shot noise, `sigma_c` and every other parameter except the two
temporary biases `b1`, `b1_bar` are what they were. -/
theorem C65_exceptions_partial (base : BaseOps E) (q : Query) (m : GalM) :
    { (q.run base m).2 with b1 := m.b1, b1bar := m.b1bar } = m := by
  have h' := q.keeps base m
  generalize q.run base m = r at h'
  cases h' with
  | ok v => rfl
  | error e b b' => rfl

/-- **C65, counterexample.** If the base class raises, the biases of the failed term remain: the parameters `b1`, `b1_bar` of the model are
changed by an evaluation of the power. -/
theorem C65_exception_counterexample (e : E) (k mu : ℝ) (m : GalM) (hb : m.b1 ≠ m.b1cA) (base : BaseOps E)
    (hraise : base.power m.b1cA m.b1cA (kAP k mu m.alphas.perp m.alphas.par) (muAP mu m.alphas.perp m.alphas.par) = .error e) :
    (galPower base k mu m).1 = .error e ∧ (galPower base k mu m).2.b1 = m.b1cA ∧ (galPower base k mu m).2 ≠ m := by
  have : galPower base k mu m = (.error e, { m with b1 := m.b1cA, b1bar := m.b1cA }) := by
    cases hu : m.useSo <;>
    simp [galPower, decorated, tgal, zeroNoise, withZeroN, group, sumTerms, tcc, ccCall, gcc, tcAcA, soTerm, withSO, damped, dampedCall,
      twoHalo, withBiases, hraise, hu]
  rw [this]
  refine ⟨rfl, rfl, fun h => hb ?_⟩
  exact (congrArg GalM.b1 h).symm

/-- **C65, every history.** A session of any evaluations that all return numbers leaves the model as it was. -/
theorem C65_history_partial (base : BaseOps E) (m : GalM) :
    ∀ qs : List Query,
      (∀ pre q post, qs = pre ++ q :: post → ∃ v, (q.run base (pre.foldl (fun m q => (q.run base m).2) m)).1 = .ok v) →
      qs.foldl (fun m q => (q.run base m).2) m = m := by
  intro qs
  induction qs using List.reverseRecOn with
  | nil => intro _; rfl
  | append_singleton qs q ih =>
    intro h
    have hpre : qs.foldl (fun m q => (q.run base m).2) m = m :=
      ih (fun pre q' post e => h pre q' (post ++ [q]) (by rw [e]; simp))
    obtain ⟨v, hv⟩ := h qs q [] rfl
    rw [List.foldl_append]
    simp only [List.foldl]
    rw [hpre] at hv ⊢
    exact C65_success_partial base q m v hv

/-- A base class that raises outside its `k` range, as the interpolators of the code do, and a model for which it does. -/
example : ∃ (base : BaseOps Unit) (m : GalM) (k mu : ℝ), m.b1 ≠ m.b1cA ∧
    base.power m.b1cA m.b1cA (kAP k mu m.alphas.perp m.alphas.par) (muAP mu m.alphas.perp m.alphas.par) = .error () := by
  classical
  refine ⟨⟨fun _ _ k _ => if k ≤ 1 then .ok 1 else .error (), fun _ _ _ _ => .ok 0, fun _ _ _ _ => .ok 0⟩,
    { alphas := ⟨1, 1, 1⟩, fs := 0.1, fcB := 0.08, fsB := 0.4, b1cA := 1.9, b1cB := 2.8, b1sA := 2.6, b1sB := 3.6,
      sigmaC := 1, sigmaSA := 3.5, sigmaSB := 5, NcBs := 45000, NsBsB := 90000, N := 100, useSo := true, fso := 0.04, sigmaSo := 5,
      fog := .modifiedLorentzian, b1 := 2, b1bar := 2 }, 2, 0.5, by norm_num, ?_⟩
  simp [kAP]

end Verif.Rsd
