/-
C152: loading of the options of a fit.
-/
import Verif.Spec.Options
import Mathlib.Tactic

namespace Verif.Opts

theorem cell_append {h l : Heap} {r : ℕ} (hr : r < h.length) : cell (h ++ l) r = cell h r := by
  simp [cell, List.getD_eq_getElem?_getD, List.getElem?_append_left hr]

theorem cell_prefix {h h' : Heap} (hp : h <+: h') {r : ℕ} (hr : r < h.length) : cell h' r = cell h r := by
  obtain ⟨l, rfl⟩ := hp
  exact cell_append hr

theorem acceptable_prefix {h h' : Heap} (hp : h <+: h') {o : Opt} {v : Val} (hr : ∀ r, v = .dict r → r < h.length) : Acceptable h' o v ↔ Acceptable h o v := by
  cases o <;> simp only [Acceptable]
  constructor <;>
  · rintro (rfl | ⟨r, rfl, hc⟩)
    · exact Or.inl rfl
    · refine Or.inr ⟨r, rfl, ?_⟩
      have := cell_prefix hp (hr r rfl)
      simpa [this] using hc

/-- the value and the dictionaries after an acceptable value is taken -/
def norm (h : Heap) (o : Opt) (v : Val) : Val × Heap := if v = .none ∧ NoneIsEmpty o then (.dict h.length, h ++ [[]]) else (v, h)

theorem validate_good {h : Heap} {o : Opt} {v : Val} (ha : Acceptable h o v) : validate h o v = .ok (norm h o v) := by
  cases o <;> simp only [Acceptable] at ha <;> simp only [validate, norm, NoneIsEmpty, reduceCtorEq, or_self, and_false, if_false, or_false, false_or, true_or, or_true, and_true]
  · rcases ha with rfl | rfl <;> simp
  · rcases ha with rfl | ⟨r, rfl, hc⟩
    · simp
    · simp only [reduceCtorEq, if_false]
      rw [if_pos]
      simpa using hc
  · rcases ha with rfl | rfl | rfl | rfl | rfl | rfl <;> simp
  · cases v <;> simp

theorem validate_bad {h : Heap} {o : Opt} {v : Val} (ha : ¬ Acceptable h o v) : ∃ e, validate h o v = .error e := by
  cases o <;> simp only [Acceptable, not_true_eq_false] at ha <;> simp only [validate]
  · push Not at ha
    exact ⟨.tracer, by simp [ha]⟩
  · push Not at ha
    refine ⟨.decorator, ?_⟩
    cases v with
    | dict r =>
      obtain ⟨p, hp, hne⟩ := ha.2 r rfl
      dsimp only
      rw [if_neg]
      simp only [List.mem_singleton, List.all_eq_true, decide_eq_true_eq, not_forall]
      exact ⟨p, hp, hne⟩
    | none => exact absurd rfl ha.1
    | _ => rfl
  · push Not at ha
    refine ⟨.initFrom, ?_⟩
    by_cases hc : v = .str "max-like" ∨ v = .str "chain"
    · rw [if_pos hc]
    · rw [if_neg hc, if_pos]
      simp [ha]

theorem norm_prefix (h : Heap) (o : Opt) (v : Val) : h <+: (norm h o v).2 := by
  unfold norm; split <;> simp

theorem dflt_acceptable {h : Heap} (hc : classHeap <+: h) (o : Opt) : Acceptable h o o.dflt := by
  cases o <;> simp only [Acceptable, Opt.dflt, true_or, or_true]
  refine Or.inr ⟨0, rfl, ?_⟩
  rw [cell_prefix hc (by decide)]
  simp [cell, classHeap]

theorem dflt_norm (h : Heap) (o : Opt) : norm h o o.dflt = (o.dflt, h) := by
  unfold norm
  rw [if_neg]
  cases o <;> simp [Opt.dflt, NoneIsEmpty]

theorem dflt_valid {h : Heap} (hc : classHeap <+: h) (o : Opt) : validate h o o.dflt = .ok (o.dflt, h) := by
  rw [validate_good (dflt_acceptable hc o), dflt_norm]

theorem load1_none {h : Heap} {d : Driver} (hc : classHeap <+: h) {o : Opt} (hu : d.attrs o = none) (hp : d.params o.name = none) : d.load1 h o = .ok (d, h) := by
  simp [Driver.load1, hp, Driver.get, hu, dflt_valid hc]

theorem load1_good {h : Heap} {d : Driver} {o : Opt} {v : Val} (hu : d.attrs o = none) (hp : d.params o.name = some v) (ha : Acceptable h o v) :
    d.load1 h o = .ok ({ d with attrs := fun p => if p = o then some (norm h o v).1 else d.attrs p }, (norm h o v).2) := by
  simp [Driver.load1, hp, Driver.get, Driver.set, hu, validate_good ha]

theorem load1_bad {h : Heap} {d : Driver} {o : Opt} {v : Val} (hp : d.params o.name = some v) (ha : ¬ Acceptable h o v) : ∃ e, d.load1 h o = .error e := by
  obtain ⟨e, he⟩ := validate_bad ha
  exact ⟨e, by simp [Driver.load1, hp, Driver.set, he]⟩

/-- the loop over the options -/
theorem load_spec : ∀ (L : List Opt) (h : Heap) (d : Driver), L.Nodup → classHeap <+: h → (∀ s r, d.params s = some (.dict r) → r < h.length) → (∀ o ∈ L, d.attrs o = none) →
    ((∀ o ∈ L, ∀ v, d.params o.name = some v → Acceptable h o v) → ∃ d' h', Driver.load h d L = .ok (d', h') ∧ h <+: h' ∧ d'.params = d.params ∧ (∀ o, o ∉ L → d'.attrs o = d.attrs o) ∧
      (∀ o ∈ L, d.params o.name = none → d'.attrs o = none) ∧ ∀ o ∈ L, ∀ v, d.params o.name = some v → ∃ w, d'.attrs o = some w ∧ Holds h h' o v w) ∧
    ((∃ o ∈ L, ∃ v, d.params o.name = some v ∧ ¬ Acceptable h o v) → ∃ e, Driver.load h d L = .error e) := by
  intro L
  induction L with
  | nil =>
    intro h d _ _ _ _
    exact ⟨fun _ => ⟨d, h, rfl, List.prefix_refl _, rfl, fun _ _ => rfl, by simp, by simp⟩, by simp⟩
  | cons o L ih =>
    intro h d hn hc hr hu
    obtain ⟨hoL, hnL⟩ := List.nodup_cons.1 hn
    have huo := hu o (by simp)
    rcases hp : d.params o.name with _ | v
    · obtain ⟨g, b⟩ := ih h d hnL hc hr (fun p hp => hu p (by simp [hp]))
      have hl : Driver.load h d (o :: L) = Driver.load h d L := by simp [Driver.load, load1_none hc huo hp]
      rw [hl]
      refine ⟨fun hall => ?_, ?_⟩
      · obtain ⟨d', h', e1, e2, e3, e4, e5, e6⟩ := g fun p hpL => hall p (by simp [hpL])
        refine ⟨d', h', e1, e2, e3, fun p hpn => e4 p (by simp at hpn; exact hpn.2), fun p hpL hpp => ?_, fun p hpL w hpp => ?_⟩
        · rcases List.mem_cons.1 hpL with rfl | hpL
          · rw [e4 _ hoL, huo]
          · exact e5 p hpL hpp
        · rcases List.mem_cons.1 hpL with rfl | hpL
          · rw [hp] at hpp; simp at hpp
          · exact e6 p hpL w hpp
      · rintro ⟨p, hpL, w, hpw, hna⟩
        rcases List.mem_cons.1 hpL with rfl | hpL
        · rw [hp] at hpw; simp at hpw
        · exact b ⟨p, hpL, w, hpw, hna⟩
    · by_cases ha : Acceptable h o v
      · have hpre := norm_prefix h o v
        have hl : Driver.load h d (o :: L) = Driver.load (norm h o v).2 { d with attrs := fun p => if p = o then some (norm h o v).1 else d.attrs p } L := by
          simp [Driver.load, load1_good huo hp ha]
        obtain ⟨g, b⟩ := ih (norm h o v).2 { d with attrs := fun p => if p = o then some (norm h o v).1 else d.attrs p } hnL (hc.trans hpre)
          (fun s r hs => lt_of_lt_of_le (hr s r hs) hpre.length_le) (fun p hpL => by
            have : p ≠ o := fun e => hoL (e ▸ hpL)
            simp [this, hu p (by simp [hpL])])
        have hacc : ∀ p w, d.params p = some w → ∀ q, Acceptable (norm h o v).2 q w ↔ Acceptable h q w := fun p w hpw q => acceptable_prefix hpre fun r e => hr p r (e ▸ hpw)
        rw [hl]
        refine ⟨fun hall => ?_, ?_⟩
        · obtain ⟨d', h', e1, e2, e3, e4, e5, e6⟩ := g fun p hpL w hpw => (hacc _ w hpw p).2 (hall p (by simp [hpL]) w hpw)
          refine ⟨d', h', e1, hpre.trans e2, e3, fun p hpn => ?_, fun p hpL hpp => ?_, fun p hpL w hpp => ?_⟩
          · simp only [List.mem_cons, not_or] at hpn
            rw [e4 p hpn.2]; simp [hpn.1]
          · rcases List.mem_cons.1 hpL with rfl | hpL
            · rw [hp] at hpp; simp at hpp
            · exact e5 p hpL hpp
          · rcases List.mem_cons.1 hpL with rfl | hpL
            · rw [hp] at hpp
              obtain rfl := Option.some.inj hpp
              refine ⟨(norm h p v).1, by rw [e4 _ hoL]; simp, ?_, ?_, ?_⟩
              · intro hv; simp [norm, hv]
              · intro hv hne; simp [norm, hv, hne]
              · intro hv hne
                refine ⟨h.length, by simp [norm, hv, hne], le_rfl, ?_⟩
                obtain ⟨l, rfl⟩ := e2
                rw [show (norm h p v).2 = h ++ [[]] by simp [norm, hv, hne], List.append_assoc, List.getElem?_append_right le_rfl]
                simp
            · obtain ⟨x, hx, h1, h2, h3⟩ := e6 p hpL w hpp
              exact ⟨x, hx, h1, h2, fun hv hne => by obtain ⟨r, e, hle, hget⟩ := h3 hv hne; exact ⟨r, e, hpre.length_le.trans hle, hget⟩⟩
        · rintro ⟨p, hpL, w, hpw, hna⟩
          rcases List.mem_cons.1 hpL with rfl | hpL
          · rw [hp] at hpw
            obtain rfl := Option.some.inj hpw
            exact absurd ha hna
          · exact b ⟨p, hpL, w, hpw, fun hh => hna ((hacc _ w hpw p).1 hh)⟩
      · obtain ⟨e, he⟩ := load1_bad hp ha
        have hl : Driver.load h d (o :: L) = .error e := by simp [Driver.load, he]
        exact ⟨fun hall => absurd (hall o (by simp) v hp) ha, fun _ => ⟨e, hl⟩⟩

end Verif.Opts
