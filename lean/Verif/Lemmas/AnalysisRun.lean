/-
Lemmas about the model of the analysis of chains (C116): a successful run.
-/
import Verif.Lemmas.AnalysisShape

namespace Verif.Analysis

open Verif.Results Verif.Converge Verif.Analysis.Spec

noncomputable section

/-- A loaded chain with its number, and the chain in the order of the names of the first. -/
def Paired (W : ℕ) (loaded : List Emcee) (F C : List String) (rc : Emcee × ℕ) (r' : Emcee) : Prop :=
  loaded[rc.2]? = some rc.1 ∧ Rep (sampleValue loaded) (sampleLnprob loaded) r' (grid rc.2 W (iters rc.1)) ∧ r'.free = F ∧ r'.cons = C

theorem forall₂_zipIdx {α β : Type} (R : α → β → Prop) (Q : ℕ → α → β → Prop) (l : List α) (l' : List β) (k : ℕ) (h : List.Forall₂ R l l')
    (hq : ∀ j a b, l[j]? = some a → R a b → Q (k + j) a b) : List.Forall₂ (fun ac b => Q ac.2 ac.1 b) (l.zipIdx k) l' := by
  induction h generalizing k with
  | nil => exact .nil
  | cons h1 _ ih =>
    rw [List.zipIdx_cons]
    refine .cons (hq 0 _ _ rfl h1) (ih (k + 1) fun j a b hj hab => ?_)
    have := hq (j + 1) a b (by simpa using hj) hab
    rwa [show k + 1 + j = k + (j + 1) by omega]

theorem recover_paired (W : ℕ) (loaded chains : List Emcee) (hs : ∀ r ∈ loaded, Shape W r) (h : recover loaded = .ok chains) (c0 : Emcee) (h0 : loaded.head? = some c0) :
    chains.head? = some c0 ∧ List.Forall₂ (Paired W loaded c0.free c0.cons) loaded.zipIdx chains := by
  cases loaded with
  | nil => cases h0
  | cons c cs =>
    simp only [List.head?_cons, Option.some.injEq] at h0
    subst h0
    unfold recover at h
    dsimp only at h
    cases hm : cs.mapM (fun r => r.verify c.free c.cons) with
    | none => rw [hm] at h; cases h
    | some cs' =>
      rw [hm] at h
      cases h
      refine ⟨rfl, ?_⟩
      have hf := (mapM_some _ _ _).1 hm
      have hall : List.Forall₂ (fun r r' => r.verify c.free c.cons = some r') (c :: cs) (c :: cs') := .cons (verify_same c) hf
      refine forall₂_zipIdx _ (fun k r r' => Paired W (c :: cs) c.free c.cons (r, k) r') _ _ 0 hall ?_
      intro j a b hj hab
      rw [Nat.zero_add]
      have hmem : a ∈ c :: cs := List.mem_of_getElem? hj
      have hrep := rep_shape (c :: cs) j W a hj (hs a hmem)
      obtain ⟨h1, h2, h3, _⟩ := rep_verify _ _ a b _ c.free c.cons hrep hab
      exact ⟨hj, h1, h2, h3⟩

theorem forall₂_mem_left {α β : Type} {R : α → β → Prop} {l : List α} {l' : List β} (h : List.Forall₂ R l l') : ∀ a ∈ l, ∃ b ∈ l', R a b := by
  induction h with
  | nil => simp
  | cons h1 _ ih =>
    intro a ha
    rcases List.mem_cons.1 ha with e | e
    · subst e; exact ⟨_, by simp, h1⟩
    · obtain ⟨b, hb, hb2⟩ := ih a e
      exact ⟨b, List.mem_cons_of_mem _ hb, hb2⟩

theorem forall₂_mem_right {α β : Type} {R : α → β → Prop} {l : List α} {l' : List β} (h : List.Forall₂ R l l') : ∀ b ∈ l', ∃ a ∈ l, R a b := by
  induction h with
  | nil => simp
  | cons h1 _ ih =>
    intro b hb
    rcases List.mem_cons.1 hb with e | e
    · subst e; exact ⟨_, by simp, h1⟩
    · obtain ⟨a, ha, ha2⟩ := ih b e
      exact ⟨a, List.mem_cons_of_mem _ ha, ha2⟩

theorem paired_mean {W : ℕ} (hW : 0 < W) {loaded : List Emcee} {F C : List String} {rc : Emcee × ℕ} {r' : Emcee} (h : Paired W loaded F C rc r') :
    iterMean r' = (List.range (iters rc.1)).map (average W rc.1) ∧ iterations r' = iters rc.1 := by
  obtain ⟨h1, h2⟩ := iterMean_rep _ _ r' rc.2 W (iters rc.1) hW h.2.1
  refine ⟨?_, h2⟩
  rw [h1]
  exact List.map_congr_left fun t _ => average_eq loaded rc.2 W rc.1 h.1 t

/-- The smallest value of minus the average log-probability. -/
theorem minMinus_loaded {W : ℕ} (hW : 0 < W) {loaded chains : List Emcee} {F C : List String} (hp : List.Forall₂ (Paired W loaded F C) loaded.zipIdx chains) {mn : ℝ}
    (h : minMinusLkl chains = some mn) :
    (∀ r ∈ loaded, ∀ t < iters r, average W r t ≤ -mn) ∧ ∃ r ∈ loaded, ∃ t < iters r, average W r t = -mn := by
  obtain ⟨h1, r0, hr0, h2⟩ := minMinus_spec chains mn h
  refine ⟨fun r hr t ht => ?_, ?_⟩
  · obtain ⟨c, hc⟩ : ∃ c, (r, c) ∈ loaded.zipIdx := by
      obtain ⟨c, hc, he⟩ := List.getElem_of_mem hr
      exact ⟨c, List.mem_zipIdx_iff_getElem?.2 (by rw [List.getElem?_eq_getElem hc, he])⟩
    obtain ⟨r', hr', hpr⟩ := forall₂_mem_left hp _ hc
    refine h1 r' hr' _ ?_
    rw [(paired_mean hW hpr).1]
    exact List.mem_map.2 ⟨t, List.mem_range.2 ht, rfl⟩
  · obtain ⟨rc, hrc, hpr⟩ := forall₂_mem_right hp _ hr0
    rw [(paired_mean hW hpr).1] at h2
    obtain ⟨t, ht, he⟩ := List.mem_map.1 h2
    exact ⟨rc.1, List.mem_of_getElem? hpr.1, t, List.mem_range.1 ht, he⟩

open Classical in
theorem mask_eq {W : ℕ} (hW : 0 < W) {loaded chains : List Emcee} {F C : List String} (hp : List.Forall₂ (Paired W loaded F C) loaded.zipIdx chains) {mn : ℝ}
    (h : minMinusLkl chains = some mn) (b : Option ℝ) {rc : Emcee × ℕ} {r' : Emcee} (hpr : Paired W loaded F C rc r') :
    mask mn b r' = (List.range (iters rc.1)).map fun t => decide (Counts W loaded b rc.1 t) := by
  obtain ⟨h1, r0, hr0, t0, ht0, h2⟩ := minMinus_loaded hW hp h
  obtain ⟨hm, hi⟩ := paired_mean hW hpr
  have key : ∀ t, (-average W rc.1 t < mn + cutoff) ↔ ∀ r' ∈ loaded, ∀ t' < iters r', average W r' t' < average W rc.1 t + 3 := by
    intro t
    unfold cutoff
    constructor
    · intro hlt r' hr' t' ht'
      have := h1 r' hr' t' ht'
      linarith
    · intro hall
      have := hall r0 hr0 t0 ht0
      linarith
  unfold mask
  rw [hm, hi]
  cases b with
  | none =>
    simp only [List.map_map]
    refine List.map_congr_left fun t _ => ?_
    simp only [Function.comp, Counts, key t, reduceCtorEq, false_implies, implies_true, and_true]
  | some b =>
    simp only
    apply List.ext_getElem
    · simp
    · intro t ht ht'
      simp only [List.getElem_mapIdx, List.getElem_map, List.getElem_range, Counts, key t, Option.some.injEq, forall_eq']
      split
      · rename_i hlt
        have : ¬ (b * iters rc.1 < t + 1) := fun hh => (floor_le_iff b (iters rc.1) t).2 hh hlt
        simp [this]
      · rename_i hlt
        have := (floor_le_iff b (iters rc.1) t).1 hlt
        simp [this]

/-! ### The chains without burn-in -/

open Classical in
theorem rep_kept {W : ℕ} (hW : 0 < W) {loaded chains : List Emcee} {F C : List String} (hp : List.Forall₂ (Paired W loaded F C) loaded.zipIdx chains) {mn : ℝ}
    (h : minMinusLkl chains = some mn) (b : Option ℝ) {rc : Emcee × ℕ} {r' : Emcee} (hpr : Paired W loaded F C rc r') :
    Rep (sampleValue loaded) (sampleLnprob loaded) (onIterations (fun l => select (mask mn b r') l) r')
      ((List.range W).map fun w => ((List.range (iters rc.1)).filter fun t => decide (Counts W loaded b rc.1 t)).map fun t => (rc.2, w, t)) := by
  have h1 := rep_onIterations _ _ r' _ (fun l => select (mask mn b r') l) (fun g l => select_map _ g l) hpr.2.1
  have h2 : (grid rc.2 W (iters rc.1)).map (fun l => select (mask mn b r') l) =
      (List.range W).map fun w => ((List.range (iters rc.1)).filter fun t => decide (Counts W loaded b rc.1 t)).map fun t => (rc.2, w, t) := by
    unfold grid
    rw [List.map_map]
    refine List.map_congr_left fun w _ => ?_
    simp only [Function.comp]
    rw [mask_eq hW hp h b hpr, select_range]
  rwa [h2] at h1

theorem counted_eq (W : ℕ) (loaded : List Emcee) (b : Option ℝ) : counted W loaded b = loaded.zipIdx.flatMap (countedOf W loaded b) := rfl

theorem countedOf_fst (W : ℕ) (loaded : List Emcee) (b : Option ℝ) (rc : Emcee × ℕ) : ∀ s ∈ countedOf W loaded b rc, s.1 = rc.2 := by
  intro s hs
  unfold countedOf at hs
  simp only [List.mem_flatMap, List.mem_map] at hs
  obtain ⟨w, _, t, _, rfl⟩ := hs
  rfl

open Classical in
theorem countedOf_nil (W : ℕ) (hW : 0 < W) (loaded : List Emcee) (b : Option ℝ) (rc : Emcee × ℕ) :
    countedOf W loaded b rc = [] ↔ true ∉ (List.range (iters rc.1)).map fun t => decide (Counts W loaded b rc.1 t) := by
  unfold countedOf
  rw [List.flatMap_eq_nil_iff]
  constructor
  · intro h hm
    have := h 0 (List.mem_range.2 hW)
    rw [List.map_eq_nil_iff, List.filter_eq_nil_iff] at this
    obtain ⟨t, ht, he⟩ := List.mem_map.1 hm
    exact this t ht he
  · intro h w _
    rw [List.map_eq_nil_iff, List.filter_eq_nil_iff]
    intro t ht he
    exact h (List.mem_map.2 ⟨t, ht, he⟩)

theorem onIterations_names (f : {α : Type} → List α → List α) (r : Emcee) : (onIterations f r).free = r.free ∧ (onIterations f r).cons = r.cons := ⟨rfl, rfl⟩

theorem flatten_map_perm {α β : Type} (l : List α) (f g : α → List β) (h : ∀ a ∈ l, (f a).Perm (g a)) : (l.map f).flatten.Perm (l.map g).flatten := by
  induction l with
  | nil => exact .refl _
  | cons a l ih =>
    simp only [List.map_cons, List.flatten_cons]
    exact (h a (by simp)).append (ih fun b hb => h b (List.mem_cons_of_mem _ hb))

theorem three_perm {α : Type} (G : List (List α)) :
    ((G.map (every3 0)).flatten ++ (G.map (every3 1)).flatten ++ (G.map (every3 2)).flatten).Perm G.flatten := by
  induction G with
  | nil => exact .refl _
  | cons a G ih =>
    simp only [List.map_cons, List.flatten_cons]
    have h1 := every3_perm a
    have : ∀ x y z p q s : List α, ((x ++ p) ++ (y ++ q) ++ (z ++ s)).Perm ((x ++ y ++ z) ++ (p ++ q ++ s)) := by
      intro x y z p q s
      simp only [List.append_assoc]
      refine List.Perm.append_left x ?_
      refine List.perm_append_comm_assoc p y _ |>.trans ?_
      refine List.Perm.append_left y ?_
      have h2 : (p ++ (q ++ (z ++ s))).Perm (z ++ (p ++ (q ++ s))) := by
        rw [← List.append_assoc p q]
        refine (List.perm_append_comm_assoc (p ++ q) z s).trans ?_
        rw [List.append_assoc]
      exact h2
    exact (this _ _ _ _ _ _).trans (h1.append ih)

theorem new_pairs {W : ℕ} (hW : 0 < W) {loaded chains : List Emcee} {F C : List String} (hp : List.Forall₂ (Paired W loaded F C) loaded.zipIdx chains) {mn : ℝ}
    (h : minMinusLkl chains = some mn) (b : Option ℝ) :
    ∃ ps : List (Emcee × List (List (ℕ × ℕ × ℕ))), newResults mn b chains = ps.map Prod.fst ∧
      (∀ p ∈ ps, Rep (sampleValue loaded) (sampleLnprob loaded) p.1 p.2 ∧ p.1.free = F ∧ p.1.cons = C ∧ p.2.length = W ∧ ∃ c, ∀ s ∈ p.2.flatten, s.1 = c) ∧
      ((ps.map fun p => p.2.flatten).flatten).Perm (counted W loaded b) ∧ (loaded.length = 1 → ps.length = 0 ∨ ps.length = 3) ∧
      (ps = [] ↔ counted W loaded b = []) ∧
      (loaded.length ≠ 1 → ps.map (fun p => p.2.flatten) = (loaded.zipIdx.map (countedOf W loaded b)).filter (· ≠ [])) := by
  classical
  have hlen : loaded.length = chains.length := by rw [← hp.length_eq, List.length_zipIdx]
  by_cases h1 : chains.length = 1
  · -- a single chain
    obtain ⟨r', rfl⟩ := List.length_eq_one_iff.1 h1
    obtain ⟨r, rfl⟩ := List.length_eq_one_iff.1 (hlen.trans h1)
    have hpr : Paired W [r] F C (r, 0) r' := by
      cases hp with
      | cons h _ => exact h
    have hsam : counted W [r] b = countedOf W [r] b (r, 0) := by rw [counted_eq]; simp
    have hmask := mask_eq hW hp h b hpr
    have hnil := countedOf_nil W hW [r] b (r, 0)
    rw [← hmask] at hnil
    unfold newResults
    by_cases hm : true ∉ mask mn b r'
    · refine ⟨[], by simp [hm], by simp, ?_, fun _ => Or.inl rfl, ?_, fun hh => absurd rfl hh⟩
      · rw [hsam, hnil.2 hm]; exact .refl _
      · rw [hsam, hnil.2 hm]; exact ⟨fun _ => rfl, fun _ => rfl⟩
    · have hrep := rep_kept hW hp h b hpr
      set G := (List.range W).map fun w => ((List.range (iters r)).filter fun t => decide (Counts W [r] b r t)).map fun t => ((0 : ℕ), w, t) with hG
      have hGf : G.flatten = countedOf W [r] b (r, 0) := by rw [hG, countedOf, List.flatMap_def]
      refine ⟨(List.range 3).map fun i => (onIterations (fun l => every3 i l) (onIterations (fun l => select (mask mn b r') l) r'), G.map fun l => every3 i l), ?_, ?_, ?_, ?_, ?_, fun hh => absurd rfl hh⟩
      · rw [List.flatMap_cons, List.flatMap_nil, List.append_nil]
        simp only [if_neg hm, List.length_cons, List.length_nil, if_true, List.map_map]
        rfl
      · intro p hpm
        obtain ⟨i, hi, rfl⟩ := List.mem_map.1 hpm
        refine ⟨rep_onIterations _ _ _ _ (fun l => every3 i l) (fun g l => every3_map i g l) hrep, hpr.2.2.1, hpr.2.2.2, by simp [hG], 0, ?_⟩
        intro s hs
        have hsG : s ∈ G.flatten := by
          rw [List.mem_flatten] at hs ⊢
          obtain ⟨l, hl, hsl⟩ := hs
          obtain ⟨g, hg, rfl⟩ := List.mem_map.1 hl
          refine ⟨g, hg, ?_⟩
          unfold every3 at hsl
          obtain ⟨q, hq, rfl⟩ := List.mem_map.1 hsl
          exact List.fst_mem_of_mem_zipIdx (List.mem_filter.1 hq).1
        rw [hGf] at hsG
        exact countedOf_fst W [r] b (r, 0) s hsG
      · rw [hsam, ← hGf]
        have := three_perm G
        simpa [List.range_succ] using this
      · intro _; exact Or.inr (by simp)
      · constructor
        · intro hh; simp [List.range_succ] at hh
        · intro hh
          rw [hsam] at hh
          exact absurd (hnil.1 hh) hm
  · -- several chains
    have gen : ∀ (rcs : List (Emcee × ℕ)) (cs : List Emcee), List.Forall₂ (Paired W loaded F C) rcs cs →
        ∃ ps : List (Emcee × List (List (ℕ × ℕ × ℕ))),
          (cs.flatMap fun r => if true ∉ mask mn b r then [] else [onIterations (fun l => select (mask mn b r) l) r]) = ps.map Prod.fst ∧
          (∀ p ∈ ps, Rep (sampleValue loaded) (sampleLnprob loaded) p.1 p.2 ∧ p.1.free = F ∧ p.1.cons = C ∧ p.2.length = W ∧ ∃ c, ∀ s ∈ p.2.flatten, s.1 = c) ∧
          (ps.map fun p => p.2.flatten).flatten = rcs.flatMap (countedOf W loaded b) ∧ (ps = [] ↔ rcs.flatMap (countedOf W loaded b) = []) ∧
          ps.map (fun p => p.2.flatten) = (rcs.map (countedOf W loaded b)).filter (· ≠ []) := by
      intro rcs cs hf
      induction hf with
      | nil => exact ⟨[], rfl, by simp, rfl, by simp, rfl⟩
      | @cons rc r' rcs cs hpr _ ih =>
        obtain ⟨ps, e1, e2, e3, e4, e5⟩ := ih
        have hmask := mask_eq hW hp h b hpr
        have hnil := countedOf_nil W hW loaded b rc
        rw [← hmask] at hnil
        by_cases hm : true ∉ mask mn b r'
        · refine ⟨ps, by simp only [List.flatMap_cons, if_pos hm, List.nil_append]; exact e1, e2, ?_, ?_, by rw [List.map_cons, hnil.2 hm, List.filter_cons]; simpa using e5⟩
          · rw [List.flatMap_cons, hnil.2 hm, List.nil_append, e3]
          · rw [List.flatMap_cons, hnil.2 hm, List.nil_append, e4]
        · have hrep := rep_kept hW hp h b hpr
          refine ⟨(onIterations (fun l => select (mask mn b r') l) r', (List.range W).map fun w =>
            ((List.range (iters rc.1)).filter fun t => decide (Counts W loaded b rc.1 t)).map fun t => (rc.2, w, t)) :: ps, ?_, ?_, ?_, ?_, ?_⟩
          · simp only [List.flatMap_cons, if_neg hm, List.map_cons]
            rw [e1]; rfl
          · intro p hpm
            rcases List.mem_cons.1 hpm with e | e
            · subst e
              refine ⟨hrep, hpr.2.2.1, hpr.2.2.2, by simp, rc.2, fun s hs => countedOf_fst W loaded b rc s ?_⟩
              unfold countedOf
              rw [List.flatMap_def]
              exact hs
            · exact e2 p e
          · simp only [List.map_cons, List.flatten_cons, List.flatMap_cons, e3]
            congr 1
          · constructor
            · intro hh; cases hh
            · intro hh
              rw [List.flatMap_cons, List.append_eq_nil_iff] at hh
              exact absurd (hnil.1 hh.1) hm
          · have hne : countedOf W loaded b rc ≠ [] := fun hh => hm (hnil.1 hh)
            rw [List.map_cons, List.map_cons, List.filter_cons, if_pos (by simpa using hne), e5]
            congr 1
    obtain ⟨ps, e1, e2, e3, e4, e5⟩ := gen _ _ hp
    refine ⟨ps, ?_, e2, ?_, fun hl => absurd (hlen.symm.trans hl) h1, ?_, fun _ => e5⟩
    · rw [← e1]
      unfold newResults
      congr 1
      funext r
      simp only [if_neg h1]
    · rw [e3]; exact .refl _
    · rw [e4]; rfl

end

end Verif.Analysis
