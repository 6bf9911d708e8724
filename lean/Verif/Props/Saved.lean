/-
C121: saving a model to a file and loading it.
-/
import Verif.Model.Saved
import Verif.Props.Cache

namespace Verif.Cache

variable {N V : Type} [DecidableEq N]

theorem popLru_inv {s : Schema N V} {F : Nat} {R : N → Prop} {σ : State N V} (isLru : V → Bool) (h : Inv s F R σ) : Inv s F R (popLru isLru σ) := by
  intro n v hR hc hv
  simp only [popLru] at hv
  cases hσ : σ.cache n with
  | none => rw [hσ] at hv; cases hv
  | some w =>
    rw [hσ] at hv
    simp only at hv
    split at hv
    · cases hv
    · cases hv
      exact h n _ hR hc hσ

theorem delEach_ok {s : Schema N V} {F : Nat} {R : N → Prop} : ∀ (big : List N) (σ : State N V), (∀ n ∈ big, ∃ ps b, s.lookup n = some (.cached ps b false)) → Inv s F R σ →
    (delEach s F big σ).1 = .ok () ∧ Inv s F R (delEach s F big σ).2 ∧ (delEach s F big σ).2.params = σ.params ∧ (delEach s F big σ).2.overrides = σ.overrides := by
  intro big
  induction big with
  | nil => intro σ _ h; exact ⟨rfl, h, rfl, rfl⟩
  | cons n t ih =>
    intro σ hb h
    obtain ⟨ps, b, hl⟩ := hb n List.mem_cons_self
    have hI : Inv s F R (Cache.delCached s F n σ).2 := delCached_inv h
    have e : Cache.delCached s F n σ = (.ok (), { σ with cache := popAll (upd σ.cache n Option.none) (s.deps F n) }) := by
      unfold Cache.delCached
      rw [hl]
    rw [e] at hI
    obtain ⟨h1, h2, h3, h4⟩ := ih _ (fun m hm => hb m (List.mem_cons_of_mem _ hm)) hI
    unfold delEach
    rw [e]
    exact ⟨h1, h2, h3, h4⟩

theorem saveLoad_ok {s : Schema N V} {F : Nat} {R : N → Prop} {big : List N} (hb : ∀ n ∈ big, ∃ ps b, s.lookup n = some (.cached ps b false)) (isLru : V → Bool) {σ : State N V} (h : Inv s F R σ) :
    ∃ σ', saveLoad s F big isLru σ = (.ok σ', σ') ∧ Inv s F R σ' ∧ σ'.params = σ.params ∧ σ'.overrides = σ.overrides ∧ ∀ n v, σ'.cache n = some v → isLru v = false := by
  obtain ⟨h1, h2, h3, h4⟩ := delEach_ok big σ hb h
  unfold saveLoad getstate
  rcases hd : delEach s F big σ with ⟨r, τ⟩
  rw [hd] at h1 h2 h3 h4
  dsimp only at h1 h2 h3 h4
  subst h1
  refine ⟨_, rfl, popLru_inv isLru h2, h3, h4, ?_⟩
  intro n v hv
  simp only [popLru] at hv
  cases hσ : τ.cache n with
  | none => rw [hσ] at hv; cases hv
  | some w =>
    rw [hσ] at hv
    simp only at hv
    split at hv
    · cases hv
    · rename_i hw
      cases hv
      simpa using hw

theorem stepS_inv {s : Schema N V} {rank} (hw : s.WellFormed rank) (hd : s.DefaultsCovered) {F : Nat} (hF : ∀ n, rank n < F)
    {big : List N} (hb : ∀ n ∈ big, ∃ ps b, s.lookup n = some (.cached ps b false)) (isLru : V → Bool) (ops : List (SOp N V)) (hops : ∀ o ∈ ops, ∀ p, o ≠ .op (.delParam p)) (σ : State N V)
    (h : Inv s F (fun _ => True) σ) (ho : σ.overrides = fun _ => Option.none) :
    Inv s F (fun _ => True) (ops.foldl (stepS s F big isLru) σ) ∧ (ops.foldl (stepS s F big isLru) σ).overrides = fun _ => Option.none := by
  induction ops generalizing σ with
  | nil => exact ⟨h, ho⟩
  | cons o ops ih =>
    have key : Inv s F (fun _ => True) (stepS s F big isLru σ o) ∧ (stepS s F big isLru σ o).overrides = fun _ => Option.none := by
      cases o with
      | op o =>
        have := run_inv hw hd hF closed_true [o] σ (fun o' ho' p hp => by
          rw [List.mem_singleton] at ho'
          exact absurd (by rw [← hp, ho']) (hops _ List.mem_cons_self p)) h (fun m _ => by rw [ho])
        exact ⟨this.1, this.2.trans ho⟩
      | save =>
        obtain ⟨σ', e, h1, h2, h3, -⟩ := saveLoad_ok hb isLru h
        simp only [stepS, e]
        exact ⟨h1, h3.trans ho⟩
      | reload =>
        obtain ⟨σ', e, h1, h2, h3, -⟩ := saveLoad_ok hb isLru h
        simp only [stepS, e]
        exact ⟨h1, h3.trans ho⟩
    exact ih (fun o' h' => hops o' (List.mem_cons_of_mem _ h')) _ key.1 key.2

/-- C121: for every class that is well formed, and after every history of assignments, reads, deletions of cached attributes, savings and loadings (each possibly failing): the object can be saved (nothing that
cannot be pickled is written); the object loaded has the same parameters as the one saved; and every attribute reads the same - as on a new object with these parameters - on the object before
it was saved, on the same object afterwards, and on the one loaded. -/
theorem C121_model (s : Schema N V) (rank : N → Nat) (hw : s.WellFormed rank) (hd : s.DefaultsCovered) (F : Nat) (hF : ∀ n, rank n < F)
    (big : List N) (hb : ∀ n ∈ big, ∃ ps b, s.lookup n = some (.cached ps b false)) (isLru : V → Bool)
    (π : N → Option V) (ops : List (SOp N V)) (hops : ∀ o ∈ ops, ∀ p, o ≠ .op (.delParam p)) :
    let σ := ops.foldl (stepS s F big isLru) (State.fresh π)
    ∃ loaded after, saveLoad s F big isLru σ = (.ok loaded, after) ∧ loaded.params = σ.params ∧ after.params = σ.params ∧ (∀ n v, loaded.cache n = some v → isLru v = false) ∧
      ∀ n, let new := (getAttr s F n (State.fresh σ.params)).1
        (getAttr s F n σ).1 = new ∧ (getAttr s F n after).1 = new ∧ (getAttr s F n loaded).1 = new := by
  intro σ
  obtain ⟨hI, hov⟩ := stepS_inv hw hd hF hb isLru ops hops (State.fresh π) (fresh_inv π) rfl
  obtain ⟨σ', e, h1, h2, h3, h4⟩ := saveLoad_ok hb isLru hI
  refine ⟨σ', σ', e, h2, h2, h4, fun n => ?_⟩
  have r1 := readsFresh_of_inv hw hF closed_true hI (fun m _ => by rw [hov]) (n := n) trivial
  have r2 := readsFresh_of_inv hw hF closed_true h1 (fun m _ => by rw [h3, hov]) (n := n) trivial
  unfold ReadsFresh at r1 r2
  rw [h2] at r2
  exact ⟨r1, r2, r2⟩

/-- C121: a case that meets the hypotheses: the demo class, saved after reads, with attribute 2 deleted when saving and large values not picklable -/
example : (∀ n ∈ [2], ∃ ps b, demo.lookup n = some (.cached ps b false)) ∧
    (getAttr demo 4 5 ([.op (.set 0 5), .op (.get 5), .save, .op (.set 1 4), .op (.get 5), .reload, .op (.set 0 6)].foldl (stepS demo 4 [2] (fun v => decide (1000 < v))) (State.fresh fun _ => none))).1.toOption = some 4096 ∧
    ([.op (.set 0 5), .op (.get 5), .reload].foldl (stepS demo 4 [] (fun v => decide (1000 < v))) (State.fresh fun _ => none)).cache 3 = some 57 ∧
    ([.op (.set 0 5), .op (.get 5), .reload].foldl (stepS demo 4 [] (fun v => decide (1000 < v))) (State.fresh fun _ => none)).cache 5 = none :=
  ⟨fun n hn => by rw [List.mem_singleton] at hn; subst hn; exact ⟨_, _, rfl⟩, by decide, by decide, by decide⟩

/-- C121: a file with a model of any version that says so is loaded, with a warning exactly if the version is another one and warnings are wanted; other extensions are refused -/
theorem C121_load {M : Type} (cur ver : String) (m : M) (w : Bool) :
    (loadModel cur ".npy" m (some ver) w = .ok m (w && decide (ver ≠ cur))) ∧ ∀ ext, ext ≠ ".npy" → loadModel cur ext m (some ver) w = .extension := by
  refine ⟨?_, fun ext h => by simp [loadModel, h]⟩
  unfold loadModel
  by_cases h : ver = cur <;> cases w <;> simp [h]

/-- C121, violation (6): a model from before versions were kept, for which the warning is meant, cannot be loaded unless the warning is turned off -/
theorem C121_version_counterexample {M : Type} (cur : String) (m : M) : loadModel cur ".npy" m none true = .attribute ∧ loadModel cur ".npy" m none false = .ok m false := by
  simp [loadModel]

end Verif.Cache
