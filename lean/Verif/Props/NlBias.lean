/-
C100: the nonlinear bias functions are those the types ask for, after any history.
-/
import Verif.Spec.NlBias
import Verif.Model.PT
import Mathlib.Data.Fintype.Card
import Mathlib.Tactic.Ring
import Mathlib.Tactic.NormNum
import Mathlib.Tactic.Linarith

namespace Verif.NlBias

open Relation

instance : Fintype Bias := ⟨⟨Multiset.ofList allBiases, by decide⟩, fun b => by cases b <;> decide⟩

theorem card_bias : Fintype.card Bias = 6 := by decide

theorem name_inj {b b' : Bias} (h : b.name = b'.name) : b = b' := by revert h; cases b <;> cases b' <;> decide

theorem ofName_some {s : String} {b : Bias} : ofName s = some b ↔ s = b.name := by
  constructor
  · intro h
    have := List.find?_some h
    simpa using (of_decide_eq_true this).symm
  · rintro rfl
    cases b <;> decide

theorem ofName_none {s : String} : ofName s = none ↔ ∀ b : Bias, s ≠ b.name := by
  constructor
  · intro h b hb
    rw [ofName_some.2 hb] at h; simp at h
  · intro h
    cases e : ofName s with
    | none => rfl
    | some b => exact absurd (ofName_some.1 e) (h b)

theorem special (b : Bias) : b.name ≠ "vlah" ∧ b.name ≠ "poly" := by cases b <;> decide

theorem poly_eq (c : ℕ → ℝ) (b : Bias) : poly1d (coeffs c b) = polynomial c b := by
  funext x
  cases b <;> simp only [poly1d, coeffs, polynomial, List.foldl] <;> ring

/-- the branches of the code, in terms of the types -/
theorem choose_fit {T : Types} {b : Bias} : choose (T b) b = .fit ↔ T b = none ∨ T b = some b.name ∨ (T b = some "vlah" ∧ b.first = b) := by
  unfold choose
  cases h : T b with
  | none => simp
  | some s =>
    simp only [Option.some.injEq, reduceCtorEq, false_or]
    split
    · rename_i h'; exact iff_of_true rfl h'
    · rename_i h'
      refine iff_of_false ?_ h'
      split
      · simp
      · split
        · simp
        · split <;> simp

theorem choose_poly {T : Types} {b : Bias} : choose (T b) b = .poly ↔ T b = some "poly" := by
  unfold choose
  cases h : T b with
  | none => simp
  | some s =>
    simp only [Option.some.injEq]
    constructor
    · intro h1
      split at h1
      · simp at h1
      · split at h1
        · simp at h1
        · split at h1
          · assumption
          · split at h1 <;> simp at h1
    · rintro rfl
      rw [if_neg, if_neg (by decide), if_pos rfl]
      rintro (h1 | ⟨h1, -⟩)
      · exact (special b).2 h1.symm
      · revert h1; decide

theorem choose_attr {T : Types} {b b' : Bias} : choose (T b) b = .attr b' ↔ Follows T b b' := by
  unfold choose Follows
  cases h : T b with
  | none => simp
  | some s =>
    simp only [Option.some.injEq]
    constructor
    · intro h1
      split at h1
      · simp at h1
      · rename_i h2
        split at h1
        · rename_i h3
          simp only [Choice.attr.injEq] at h1
          subst h1
          exact ⟨fun e => h2 (Or.inr ⟨h3, e.symm⟩), Or.inr ⟨h3, rfl⟩⟩
        · split at h1
          · simp at h1
          · split at h1
            · rename_i b2 e
              simp only [Choice.attr.injEq] at h1
              subst h1
              have := ofName_some.1 e
              refine ⟨?_, Or.inl this⟩
              rintro rfl
              exact h2 (Or.inl this)
            · simp at h1
    · rintro ⟨hne, rfl | ⟨rfl, rfl⟩⟩
      · rw [if_neg, if_neg (special b').1, if_neg (special b').2, ofName_some.2 rfl]
        rintro (h1 | ⟨h1, -⟩)
        · exact hne (name_inj h1).symm
        · exact (special b').1 h1
      · rw [if_neg, if_pos rfl]
        rintro (h1 | ⟨-, h1⟩)
        · exact (special b).1 h1.symm
        · exact hne h1.symm

theorem choose_fail {T : Types} {b : Bias} : choose (T b) b = .fail ↔ ∃ s, T b = some s ∧ s ≠ "vlah" ∧ s ≠ "poly" ∧ ∀ b' : Bias, s ≠ b'.name := by
  unfold choose
  cases h : T b with
  | none => simp
  | some s =>
    simp only [Option.some.injEq, exists_eq_left']
    constructor
    · intro h1
      split at h1
      · simp at h1
      · split at h1
        · simp at h1
        · split at h1
          · simp at h1
          · split at h1
            · simp at h1
            · rename_i e; exact ⟨by assumption, by assumption, ofName_none.1 e⟩
    · rintro ⟨h1, h2, h3⟩
      rw [if_neg, if_neg h1, if_neg h2, ofName_none.2 h3]
      rintro (h4 | ⟨h4, -⟩)
      · exact h3 b h4
      · exact h1 h4

theorem follows_fun {T : Types} {b c c' : Bias} (h : Follows T b c) (h' : Follows T b c') : c = c' := by
  have := (choose_attr.2 h).symm.trans (choose_attr.2 h')
  simpa using this

/-- a bias stands for one function at most -/
theorem means_fun {T : Types} {C fits} {b : Bias} {g g' : ℝ → ℝ} (h : Means T C fits b g) (h' : Means T C fits b g') : g = g' := by
  induction h with
  | fit b hb =>
    cases h' with
    | fit _ _ => rfl
    | poly _ hp => have := (choose_fit.2 hb).symm.trans (choose_poly.2 hp); simp at this
    | follow _ _ _ hf _ => have := (choose_fit.2 hb).symm.trans (choose_attr.2 hf); simp at this
  | poly b hb =>
    cases h' with
    | fit _ hf => have := (choose_poly.2 hb).symm.trans (choose_fit.2 hf); simp at this
    | poly _ _ => rfl
    | follow _ _ _ hf _ => have := (choose_poly.2 hb).symm.trans (choose_attr.2 hf); simp at this
  | follow b b' g hf _ ih =>
    cases h' with
    | fit _ h2 => have := (choose_attr.2 hf).symm.trans (choose_fit.2 h2); simp at this
    | poly _ h2 => have := (choose_attr.2 hf).symm.trans (choose_poly.2 h2); simp at this
    | follow _ c _ h2 h3 => exact ih (follows_fun h2 hf ▸ h3)

/-- a bias that means something does not loop -/
theorem means_no_loop {T : Types} {C fits} {b : Bias} {g : ℝ → ℝ} (h : Means T C fits b g) : ¬ Loops T b := by
  have first : ∀ {b : Bias}, (∀ c, ¬ Follows T b c) → ¬ Loops T b := by
    rintro b hb ⟨b', h1, h2⟩
    rcases ReflTransGen.cases_head h1 with rfl | ⟨c, hc, -⟩
    · obtain ⟨c, hc, -⟩ := TransGen.head'_iff.1 h2; exact hb c hc
    · exact hb c hc
  induction h with
  | fit b hb =>
    refine first fun c hc => ?_
    have := (choose_fit.2 hb).symm.trans (choose_attr.2 hc); simp at this
  | poly b hb =>
    refine first fun c hc => ?_
    have := (choose_poly.2 hb).symm.trans (choose_attr.2 hc); simp at this
  | follow b b' g hf _ ih =>
    rintro ⟨c, h1, h2⟩
    rcases ReflTransGen.cases_head h1 with rfl | ⟨d, hd, h3⟩
    · obtain ⟨d, hd, h3⟩ := TransGen.head'_iff.1 h2
      have := follows_fun hd hf
      subst this
      exact ih ⟨b, h3, h2⟩
    · have := follows_fun hd hf
      subst this
      exact ih ⟨c, h3, h2⟩

/-- the value does not depend on the coefficients of a bias that is not a polynomial -/
theorem means_congr {T : Types} {C C' : Bias → ℕ → ℝ} {fits} {b : Bias} {g : ℝ → ℝ} (h : Means T C fits b g) (hC : ∀ b', T b' = some "poly" → ∀ p, C b' p = C' b' p) : Means T C' fits b g := by
  induction h with
  | fit b hb => exact .fit b hb
  | poly b hb =>
    have : C b = C' b := funext (hC b hb)
    rw [this]; exact .poly b hb
  | follow b b' g hf _ ih => exact .follow b b' g hf ih

/-- what is in the cache: the meaning for some coefficients, those of the bias itself being the present ones -/
def Inv (fits : Bias → ℝ → ℝ) (σ : State) : Prop :=
  ∀ b g, σ.cache b = some g → ∃ C', (∀ p, C' b p = σ.coef b p) ∧ Means σ.types C' fits b g

theorem read_keeps {fits : Bias → ℝ → ℝ} {n : ℕ} {b : Bias} {σ σ' : State} {g : ℝ → ℝ} (h : read fits n b σ = .ok (g, σ')) (hi : Inv fits σ) :
    Inv fits σ' ∧ σ'.types = σ.types ∧ σ'.coef = σ.coef ∧ ∃ C', (∀ p, C' b p = σ.coef b p) ∧ Means σ.types C' fits b g := by
  induction n generalizing b σ σ' g with
  | zero => simp [read] at h
  | succ n ih =>
    rw [read] at h
    split at h
    · rename_i g' hc
      simp only [Except.ok.injEq, Prod.mk.injEq] at h
      obtain ⟨rfl, rfl⟩ := h
      exact ⟨hi, rfl, rfl, hi b _ hc⟩
    · have put : ∀ {τ : State} {g : ℝ → ℝ}, Inv fits τ → τ.types = σ.types → τ.coef = σ.coef → (∃ C', (∀ p, C' b p = σ.coef b p) ∧ Means σ.types C' fits b g) →
          Inv fits { τ with cache := Function.update τ.cache b (some g) } := by
        intro τ g ht e1 e2 hm c g' hc
        by_cases hcb : c = b
        · subst hcb
          change Function.update τ.cache c (some g) c = _ at hc
          rw [Function.update_self] at hc
          simp only [Option.some.injEq] at hc
          subst hc
          simpa only [e1, e2] using hm
        · change Function.update τ.cache b (some g) c = _ at hc
          rw [Function.update_of_ne hcb] at hc
          exact ht c g' hc
      split at h
      · rename_i hch
        simp only [Except.ok.injEq, Prod.mk.injEq] at h
        obtain ⟨rfl, rfl⟩ := h
        have hm : ∃ C', (∀ p, C' b p = σ.coef b p) ∧ Means σ.types C' fits b (fits b) := ⟨σ.coef, fun _ => rfl, .fit b (choose_fit.1 hch)⟩
        exact ⟨put hi rfl rfl hm, rfl, rfl, hm⟩
      · rename_i hch
        simp only [Except.ok.injEq, Prod.mk.injEq] at h
        obtain ⟨rfl, rfl⟩ := h
        have hm : ∃ C', (∀ p, C' b p = σ.coef b p) ∧ Means σ.types C' fits b (poly1d (coeffs (σ.coef b) b)) :=
          ⟨σ.coef, fun _ => rfl, by rw [poly_eq]; exact .poly b (choose_poly.1 hch)⟩
        exact ⟨put hi rfl rfl hm, rfl, rfl, hm⟩
      · rename_i b' hch
        have hf := choose_attr.1 hch
        split at h
        · rename_i g' τ hr
          simp only [Except.ok.injEq, Prod.mk.injEq] at h
          obtain ⟨rfl, rfl⟩ := h
          obtain ⟨h1, h2, h3, C', -, h5⟩ := ih hr hi
          have hm : ∃ C', (∀ p, C' b p = σ.coef b p) ∧ Means σ.types C' fits b g' := by
            refine ⟨Function.update C' b (σ.coef b), fun p => by rw [Function.update_self], .follow b b' g' hf (means_congr h5 fun c hc p => ?_)⟩
            have : c ≠ b := by
              rintro rfl
              have := (choose_poly.2 hc).symm.trans (choose_attr.2 hf); simp at this
            rw [Function.update_of_ne this]
          exact ⟨put h1 h2 h3 hm, h2, h3, hm⟩
        · simp at h
      · simp at h

/-- a read fails with a type that is not known, at the end of the chain -/
theorem read_value_error {fits : Bias → ℝ → ℝ} {n : ℕ} {b : Bias} {σ : State} (h : read fits n b σ = .error .value) :
    ∃ b' s, ReflTransGen (Follows σ.types) b b' ∧ σ.types b' = some s ∧ s ≠ "vlah" ∧ s ≠ "poly" ∧ ∀ c : Bias, s ≠ c.name := by
  induction n generalizing b with
  | zero => simp [read] at h
  | succ n ih =>
    rw [read] at h
    split at h
    · simp at h
    · split at h
      · simp at h
      · simp at h
      · rename_i b' hch
        split at h
        · simp at h
        · rename_i e hr
          simp only [Except.error.injEq] at h
          subst h
          obtain ⟨c, s, h1, h2⟩ := ih hr
          exact ⟨c, s, ReflTransGen.head (choose_attr.1 hch) h1, h2⟩
      · rename_i hch
        obtain ⟨s, hs⟩ := choose_fail.1 hch
        exact ⟨b, s, .refl, hs⟩

/-- a read needs seven levels of calls at most, unless the types loop -/
theorem read_recursion_error {fits : Bias → ℝ → ℝ} {n : ℕ} {b : Bias} {σ : State} (S : Finset Bias) (hb : b ∉ S) (hS : ∀ c ∈ S, TransGen (Follows σ.types) c b) (hn : 7 ≤ n + S.card)
    (h : read fits n b σ = .error .recursion) : Loops σ.types b := by
  induction n generalizing b S with
  | zero =>
    have := Finset.card_le_univ S
    rw [card_bias] at this
    omega
  | succ n ih =>
    rw [read] at h
    split at h
    · simp at h
    · split at h
      · simp at h
      · simp at h
      · rename_i b' hch
        have hf := choose_attr.1 hch
        split at h
        · simp at h
        · rename_i e hr
          simp only [Except.error.injEq] at h
          subst h
          by_cases hm : b' ∈ insert b S
          · rw [Finset.mem_insert] at hm
            rcases hm with rfl | hm
            · exact absurd rfl hf.1
            · exact ⟨b', .single hf, (hS b' hm).tail hf⟩
          · have := ih (insert b S) hm (fun c hc => by
              rw [Finset.mem_insert] at hc
              rcases hc with rfl | hc
              · exact .single hf
              · exact (hS c hc).tail hf) (by rw [Finset.card_insert_of_notMem hb]; omega) hr
            obtain ⟨c, h1, h2⟩ := this
            exact ⟨c, ReflTransGen.head hf h1, h2⟩
      · simp at h

/-- the updates of types -/
theorem update_spec {kws : List (String × Option String)} {σ σ' : State} (h : update kws σ = .ok σ') : ∃ t, σ' = setTypes t σ := by
  unfold update at h
  split at h
  · simp at h
  · simp only [Except.ok.injEq] at h
    exact ⟨_, h.symm⟩

theorem setTypes_inv {fits : Bias → ℝ → ℝ} {σ : State} (t : Types) (hi : Inv fits σ) : Inv fits (setTypes t σ) := by
  unfold setTypes
  split
  · exact hi
  · intro b g hc; simp at hc

theorem setCoef_inv {fits : Bias → ℝ → ℝ} {σ : State} (b : Bias) (p : ℕ) (v : ℝ) (hi : Inv fits σ) : Inv fits (setCoef b p v σ) := by
  unfold setCoef
  split
  · split
    · exact hi
    · intro c g hc
      by_cases hcb : c = b
      · subst hcb; simp at hc
      · simp only [Function.update_of_ne hcb] at hc
        obtain ⟨C', h1, h2⟩ := hi c g hc
        exact ⟨C', fun q => by rw [h1]; simp only [Function.update_of_ne hcb], h2⟩
  · exact hi

theorem step_inv {fits : Bias → ℝ → ℝ} {fuel : ℕ} {σ : State} (op : Op) (hi : Inv fits σ) : Inv fits (step fits fuel σ op) := by
  cases op with
  | coef b p v => exact setCoef_inv b p v hi
  | types t => exact setTypes_inv t hi
  | update kws =>
    simp only [step]
    split
    · rename_i h; obtain ⟨t, rfl⟩ := update_spec h; exact setTypes_inv t hi
    · exact hi
  | vlah v =>
    simp only [step]
    split
    · rename_i h; obtain ⟨t, rfl⟩ := update_spec h; exact setTypes_inv t hi
    · exact hi
  | read b =>
    simp only [step]
    split
    · rename_i h; exact (read_keeps h hi).1
    · exact hi

theorem run_inv {fits : Bias → ℝ → ℝ} {fuel : ℕ} {σ : State} (ops : List Op) (hi : Inv fits σ) : Inv fits (run fits fuel σ ops) := by
  induction ops generalizing σ with
  | nil => exact hi
  | cons op ops ih => exact ih (step_inv op hi)

theorem init_inv {fits : Bias → ℝ → ℝ} (data : Bias → List ℝ) : Inv fits (init data) := fun _ _ h => by simp [init] at h

/-- no bias which `b` is replaced by, other than itself, is a polynomial -/
def NoForeignPoly (T : Types) (b : Bias) : Prop := ∀ b', TransGen (Follows T) b b' → T b' ≠ some "poly"

theorem means_own {T : Types} {C C' : Bias → ℕ → ℝ} {fits} {b : Bias} {g : ℝ → ℝ} (h : Means T C fits b g) (hC : ∀ p, C b p = C' b p) (hT : NoForeignPoly T b) : Means T C' fits b g := by
  have aux : ∀ {c g}, Means T C fits c g → (∀ b', ReflTransGen (Follows T) c b' → T b' ≠ some "poly") → Means T C' fits c g := by
    intro c g h
    induction h with
    | fit b hb => exact fun _ => .fit b hb
    | poly b hb => exact fun h => absurd hb (h b .refl)
    | follow b b' g hf _ ih => exact fun h => .follow b b' g hf (ih fun c hc => h c (hc.head hf))
  cases h with
  | fit _ hb => exact .fit b hb
  | poly _ hb =>
    have : C b = C' b := funext hC
    rw [this]; exact .poly b hb
  | follow _ b' _ hf h' => exact .follow b b' g hf (aux h' fun c hc => hT c (TransGen.head' hf hc))

/-- **Reading a nonlinear bias gives the function its type asks for**, after any history of assignments, updates and reads: the fit, the polynomial in the coefficients set last, or the
function of the bias it is replaced by; a type that is not known gives a `ValueError`, and only a loop of replacements exhausts the stack.  Partial: if a bias is replaced by another
one that is a polynomial, see the counterexample. -/
theorem C100_read_partial (fits : Bias → ℝ → ℝ) (data : Bias → List ℝ) (fuel : ℕ) (hfuel : 7 ≤ fuel) (ops : List Op) (b : Bias) :
    let σ := run fits fuel (init data) ops
    match read fits fuel b σ with
    | .ok (g, _) => NoForeignPoly σ.types b → Means σ.types σ.coef fits b g
    | .error .value => ∃ b' s, ReflTransGen (Follows σ.types) b b' ∧ σ.types b' = some s ∧ s ≠ "vlah" ∧ s ≠ "poly" ∧ ∀ c : Bias, s ≠ c.name
    | .error .recursion => Loops σ.types b := by
  intro σ
  have hi : Inv fits σ := run_inv ops (init_inv data)
  split
  · rename_i h
    intro hT
    obtain ⟨-, -, -, C', h1, h2⟩ := read_keeps h hi
    exact means_own h2 h1 hT
  · rename_i h; exact read_value_error h
  · rename_i h; exact read_recursion_error ∅ (Finset.notMem_empty _) (by simp) (by simpa using hfuel) h

theorem expand_plain {kws : List (String × Option String)} (h0 : ∀ e ∈ kws, e.1 ≠ "b2_00" ∧ e.1 ≠ "b2_01") : expand kws = kws := by
  have l : ∀ s, (∀ e ∈ kws, e.1 ≠ s) → lookup kws s = none := by
    intro s hs
    unfold lookup
    rw [Option.map_eq_none_iff, List.find?_eq_none]
    intro e he
    simpa using hs e he
  unfold expand
  simp only [l _ fun e he => (h0 e he).1, l _ fun e he => (h0 e he).2]

theorem name_ne (b : Bias) : b.name ≠ "b2_00" ∧ b.name ≠ "b2_01" := by cases b <;> decide

/-- `update_nonlinear_biasing` with names of biases -/
theorem update_names (kws : List (Bias × Option String)) (σ : State) :
    update (kws.map fun e => (e.1.name, e.2)) σ = .ok (setTypes (fun b => ((kws.reverse.find? fun e => e.1 = b).map Prod.snd).getD (σ.types b)) σ) := by
  have h0 : ∀ e ∈ kws.map fun e => (e.1.name, e.2), e.1 ≠ "b2_00" ∧ e.1 ≠ "b2_01" := by
    intro e he
    obtain ⟨x, -, rfl⟩ := List.mem_map.1 he
    exact name_ne x.1
  unfold update
  rw [expand_plain h0, if_neg]
  · congr 2
    funext b
    congr 1
    unfold lastOf lookup
    rw [← List.map_reverse, List.find?_map, Option.map_map]
    have : (fun e : Bias × Option String => decide ((e.1.name, e.2).1 = b.name)) = fun e => decide (e.1 = b) := by
      funext e
      exact decide_eq_decide.2 ⟨name_inj, fun h => by rw [h]⟩
    show ((kws.reverse.find? (fun e : Bias × Option String => decide ((e.1.name, e.2).1 = b.name))).map fun e => e.2) = _
    rw [this]
  · rw [List.any_eq_true]
    rintro ⟨e, he, h⟩
    obtain ⟨x, -, rfl⟩ := List.mem_map.1 he
    rw [ofName_some.2 rfl] at h
    simp at h

theorem setTypes_types (t : Types) (σ : State) : (setTypes t σ).types = t ∧ (setTypes t σ).coef = σ.coef := by
  unfold setTypes
  split
  · rename_i h; exact ⟨h.symm, rfl⟩
  · exact ⟨rfl, rfl⟩

theorem setVlah_types (v : Bool) (σ : State) : ∃ σ', setVlah v σ = .ok σ' ∧ σ'.types = fun _ => if v then some "vlah" else none := by
  have := update_names (allBiases.map fun b => (b, if v then some "vlah" else none)) σ
  rw [List.map_map] at this
  refine ⟨_, this, ?_⟩
  rw [(setTypes_types _ _).1]
  funext b
  cases b <;> rfl

/-- operations that do not change types -/
def Quiet : Op → Prop
  | .coef _ _ _ => True
  | .read _ => True
  | _ => False

theorem quiet_types {fits : Bias → ℝ → ℝ} {fuel : ℕ} {σ : State} {ops : List Op} (hq : ∀ op ∈ ops, Quiet op) (hi : Inv fits σ) : (run fits fuel σ ops).types = σ.types := by
  induction ops generalizing σ with
  | nil => rfl
  | cons op ops ih =>
    have h1 : (step fits fuel σ op).types = σ.types := by
      cases op with
      | coef b p v => simp only [step, setCoef]; split <;> [split; skip] <;> rfl
      | read b =>
        simp only [step]
        split
        · rename_i h; exact (read_keeps h hi).2.1
        · rfl
      | types t => exact (hq _ List.mem_cons_self).elim
      | update k => exact (hq _ List.mem_cons_self).elim
      | vlah v => exact (hq _ List.mem_cons_self).elim
    rw [← h1]
    exact ih (fun op h => hq op (List.mem_cons_of_mem _ h)) (step_inv op hi)

/-- if a bias means something, the read gives it -/
theorem read_means {fits : Bias → ℝ → ℝ} {data : Bias → List ℝ} {fuel : ℕ} (hfuel : 7 ≤ fuel) (ops : List Op) {b : Bias} {g : ℝ → ℝ}
    (hm : Means (run fits fuel (init data) ops).types (run fits fuel (init data) ops).coef fits b g) (hT : NoForeignPoly (run fits fuel (init data) ops).types b) :
    ∃ σ', read fits fuel b (run fits fuel (init data) ops) = .ok (g, σ') := by
  have h := C100_read_partial fits data fuel hfuel ops b
  simp only at h
  split at h
  · rename_i g' σ' hr
    exact ⟨σ', by rw [hr, means_fun (h hT) hm]⟩
  · obtain ⟨b', s, h1, h2, h3, h4, h5⟩ := h
    exfalso
    have aux : ∀ {c g}, Means (run fits fuel (init data) ops).types (run fits fuel (init data) ops).coef fits c g → ¬ ReflTransGen (Follows (run fits fuel (init data) ops).types) c b' := by
      intro c g hc
      have stop : ∀ {c}, choose ((run fits fuel (init data) ops).types c) c ≠ .fail → (∀ d, ¬ Follows (run fits fuel (init data) ops).types c d) →
          ¬ ReflTransGen (Follows (run fits fuel (init data) ops).types) c b' := by
        intro c hc hd hr
        rcases ReflTransGen.cases_head hr with rfl | ⟨d, hd', -⟩
        · exact hc (choose_fail.2 ⟨s, h2, h3, h4, h5⟩)
        · exact hd d hd'
      induction hc with
      | fit c hc =>
        refine stop (by rw [choose_fit.2 hc]; simp) fun d hd => ?_
        have := (choose_fit.2 hc).symm.trans (choose_attr.2 hd); simp at this
      | poly c hc =>
        refine stop (by rw [choose_poly.2 hc]; simp) fun d hd => ?_
        have := (choose_poly.2 hc).symm.trans (choose_attr.2 hd); simp at this
      | follow c c' g hf _ ih =>
        intro hr
        rcases ReflTransGen.cases_head hr with rfl | ⟨d, hd', hr'⟩
        · have := (choose_fail.2 ⟨s, h2, h3, h4, h5⟩).symm.trans (choose_attr.2 hf); simp at this
        · exact ih (follows_fun hd' hf ▸ hr')
    exact aux hm h1
  · exact (means_no_loop hm h).elim

theorem run_append (fits : Bias → ℝ → ℝ) (fuel : ℕ) (σ : State) (l l' : List Op) : run fits fuel σ (l ++ l') = run fits fuel (run fits fuel σ l) l' := List.foldl_append

theorem vlah_types (fits : Bias → ℝ → ℝ) (data : Bias → List ℝ) (fuel : ℕ) (ops later : List Op) (v : Bool) (hq : ∀ op ∈ later, Quiet op) :
    (run fits fuel (init data) (ops ++ Op.vlah v :: later)).types = fun _ => if v then some "vlah" else none := by
  rw [run_append]
  have hi : Inv fits (run fits fuel (init data) ops) := run_inv ops (init_inv data)
  obtain ⟨σ', h1, h2⟩ := setVlah_types v (run fits fuel (init data) ops)
  show (run fits fuel (step fits fuel (run fits fuel (init data) ops) (.vlah v)) later).types = _
  rw [quiet_types hq (step_inv _ hi)]
  simp only [step, h1, h2]

/-- **`use_vlah_biasing = True`**: whatever was set before, all `b2_00` are one function and all `b2_01` are one function, the fits of the first; changing coefficients does not matter. -/
theorem C100_vlah (fits : Bias → ℝ → ℝ) (data : Bias → List ℝ) (fuel : ℕ) (hfuel : 7 ≤ fuel) (ops later : List Op) (hq : ∀ op ∈ later, Quiet op) (b : Bias) :
    ∃ σ', read fits fuel b (run fits fuel (init data) (ops ++ Op.vlah true :: later)) = .ok (fits b.first, σ') := by
  have ht := vlah_types fits data fuel ops later true hq
  refine read_means hfuel _ ?_ ?_
  · rw [ht]
    by_cases hb : b.first = b
    · have : Means (fun _ => some "vlah") (run fits fuel (init data) (ops ++ Op.vlah true :: later)).coef fits b (fits b) := .fit b (Or.inr (Or.inr ⟨rfl, hb⟩))
      rw [hb]; exact this
    · exact .follow b b.first _ ⟨Ne.symm hb, Or.inr ⟨rfl, rfl⟩⟩ (.fit _ (Or.inr (Or.inr ⟨rfl, by cases b <;> rfl⟩)))
  · intro c _
    rw [ht]
    simp

/-- **`use_vlah_biasing = False`**: each bias is its own fit, whatever was set before. -/
theorem C100_fits (fits : Bias → ℝ → ℝ) (data : Bias → List ℝ) (fuel : ℕ) (hfuel : 7 ≤ fuel) (ops later : List Op) (hq : ∀ op ∈ later, Quiet op) (b : Bias) :
    ∃ σ', read fits fuel b (run fits fuel (init data) (ops ++ Op.vlah false :: later)) = .ok (fits b, σ') := by
  have ht := vlah_types fits data fuel ops later false hq
  refine read_means hfuel _ ?_ ?_
  · rw [ht]; exact .fit b (Or.inl rfl)
  · intro c _
    rw [ht]
    simp

/-- **`'poly'`**: after `update_nonlinear_biasing(name='poly')` the bias is the polynomial in the coefficients set last, whatever came before, and whatever coefficients are set after. -/
theorem C100_poly (fits : Bias → ℝ → ℝ) (data : Bias → List ℝ) (fuel : ℕ) (hfuel : 7 ≤ fuel) (ops later : List Op) (hq : ∀ op ∈ later, Quiet op) (b : Bias) :
    ∃ σ', read fits fuel b (run fits fuel (init data) (ops ++ Op.update [(b.name, some "poly")] :: later)) =
      .ok (polynomial ((run fits fuel (init data) (ops ++ Op.update [(b.name, some "poly")] :: later)).coef b) b, σ') := by
  have ht : (run fits fuel (init data) (ops ++ Op.update [(b.name, some "poly")] :: later)).types b = some "poly" := by
    rw [run_append]
    have hi : Inv fits (run fits fuel (init data) ops) := run_inv ops (init_inv data)
    show (run fits fuel (step fits fuel (run fits fuel (init data) ops) (.update [(b.name, some "poly")])) later).types b = _
    rw [quiet_types hq (step_inv _ hi)]
    have hu := update_names [(b, some "poly")] (run fits fuel (init data) ops)
    simp only [List.map_cons, List.map_nil] at hu
    simp only [step, hu, (setTypes_types _ _).1]
    simp
  refine read_means hfuel _ (.poly b ht) ?_
  intro c hc hp
  obtain ⟨d, hd, -⟩ := TransGen.head'_iff.1 hc
  have := (choose_poly.2 ht).symm.trans (choose_attr.2 hd); simp at this

/-- **Coefficients**: setting one changes that one, and nothing else of what the biases mean. -/
theorem C100_coefficient (b : Bias) (p : ℕ) (v : ℝ) (σ : State) (hp : p ∈ b.powers) :
    (setCoef b p v σ).coef b p = v ∧ (∀ b' p', (b', p') ≠ (b, p) → (setCoef b p v σ).coef b' p' = σ.coef b' p') ∧ (setCoef b p v σ).types = σ.types := by
  unfold setCoef
  rw [if_pos hp]
  split
  · rename_i h; exact ⟨h.symm, fun _ _ _ => rfl, rfl⟩
  · refine ⟨by simp, fun b' p' h => ?_, rfl⟩
    by_cases hb : b' = b
    · subst hb
      have : p' ≠ p := fun e => h (by rw [e])
      simp [this]
    · simp [hb]

/-- **The initial polynomials** are those of the data files, if these have zeros where there is no parameter. -/
theorem C100_initial (data : Bias → List ℝ) (b : Bias) (c4 c3 c2 c1 c0 : ℝ) (hd : data b = [c4, c3, c2, c1, c0]) (hz : ∀ p ∉ b.powers, ∀ i, i + p = 4 → (data b)[i]? = some 0) :
    ∀ x, polynomial ((init data).coef b) b x = c4*x^4 + c3*x^3 + c2*x^2 + c1*x + c0 := by
  intro x
  cases b
  all_goals
    simp only [polynomial, init, hd, Bias.powers] at hz ⊢
    have h4 := hz 4; have h3 := hz 3; have h1 := hz 1
    simp at h4 h3 h1
    simp [h4, h3, h1]

/-- **A loop of replacements** always exhausts the stack. -/
theorem C100_loop (fits : Bias → ℝ → ℝ) (data : Bias → List ℝ) (fuel : ℕ) (ops : List Op) (b : Bias) (hl : Loops (run fits fuel (init data) ops).types b) :
    read fits fuel b (run fits fuel (init data) ops) = .error .recursion := by
  have hi : Inv fits (run fits fuel (init data) ops) := run_inv ops (init_inv data)
  cases h : read fits fuel b (run fits fuel (init data) ops) with
  | ok r =>
    obtain ⟨-, -, -, C', -, h2⟩ := read_keeps (g := r.1) (σ' := r.2) h hi
    exact (means_no_loop h2 hl).elim
  | error e =>
    cases e with
    | recursion => rfl
    | value =>
      exfalso
      obtain ⟨c, s, h1, h2, h3, h4, h5⟩ := read_value_error h
      have stop : ∀ d, ¬ Follows (run fits fuel (init data) ops).types c d := fun d hd => by
        have := (choose_fail.2 ⟨s, h2, h3, h4, h5⟩).symm.trans (choose_attr.2 hd); simp at this
      have aux : ∀ {d}, ReflTransGen (Follows (run fits fuel (init data) ops).types) d c → ¬ Loops (run fits fuel (init data) ops).types d := by
        intro d hd
        induction hd using ReflTransGen.head_induction_on with
        | refl =>
          rintro ⟨e, e1, e2⟩
          rcases ReflTransGen.cases_head e1 with rfl | ⟨x, hx, -⟩
          · obtain ⟨x, hx, -⟩ := TransGen.head'_iff.1 e2; exact stop x hx
          · exact stop x hx
        | head hf _ ih =>
          rintro ⟨e, e1, e2⟩
          rcases ReflTransGen.cases_head e1 with rfl | ⟨x, hx, h3⟩
          · obtain ⟨x, hx, h3⟩ := TransGen.head'_iff.1 e2
            have := follows_fun hx hf
            subst this
            exact ih ⟨_, h3, e2⟩
          · have := follows_fun hx hf
            subst this
            exact ih ⟨e, h3, e2⟩
      exact aux h1 hl

/-- **Unknown names are refused, and nothing is changed.** -/
theorem C100_reject (fits : Bias → ℝ → ℝ) (fuel : ℕ) (kws : List (String × Option String)) (σ : State) {k : String} {v : Option String} (hk : (k, v) ∈ kws) (hb : ∀ b : Bias, k ≠ b.name) :
    update kws σ = .error .value ∧ step fits fuel σ (.update kws) = σ := by
  have sub : ∀ e ∈ kws, e ∈ expand kws := by
    intro e he
    have h1 : ∀ {d : List (String × Option String)} {ks v}, e ∈ d → e ∈ putAll d ks v := fun h => List.mem_append_left _ h
    unfold expand
    simp only
    split
    · refine h1 ?_
      split
      · exact h1 he
      · exact he
    · split
      · exact h1 he
      · exact he
  have h : update kws σ = .error .value := by
    unfold update
    rw [if_pos]
    rw [List.any_eq_true]
    exact ⟨(k, v), sub _ hk, by rw [ofName_none.2 hb]; rfl⟩
  exact ⟨h, by simp only [step, h]⟩

/-- **The shorthands `b2_00 = …` and `b2_01 = …`, for which there is code, never work**: `update_nonlinear_biasing` raises `ValueError` and sets nothing. -/
theorem C100_shorthand_counterexample (kws : List (String × Option String)) (σ : State) {k : String} {v : Option String} (hk : (k, v) ∈ kws) (h : k = "b2_00" ∨ k = "b2_01") :
    update kws σ = .error .value := by
  refine (C100_reject (fun _ _ => 0) 0 kws σ hk fun b e => ?_).1
  rcases h with rfl | rfl
  · exact (name_ne b).1 e.symm
  · exact (name_ne b).2 e.symm

/-- **`nonlinear_bias_defaults` lacks five of the six biases**: the dict is made anew for each. -/
theorem C100_defaults_counterexample (data : Bias → List ℝ) (e : String × ℝ) (h : e ∈ defaults data) : ∃ i : ℕ, e.1 = "b2_01_b__" ++ toString i := by
  simp only [defaults, allBiases, List.foldl, List.mem_filterMap] at h
  obtain ⟨⟨d, i⟩, -, h⟩ := h
  simp only at h
  split at h
  · simp only [Option.some.injEq] at h
    exact ⟨4 - i, by rw [← h]; rfl⟩
  · simp at h

/-- a history with a stale bias: `b2_00_b` replaced by `b2_00_a`, a polynomial -/
def staleOps : List Op := [.update [("b2_00_b", some "b2_00_a"), ("b2_00_a", some "poly")], .read .b00, .coef .a00 0 1]

/-- **A bias replaced by a polynomial bias is not updated when the coefficients of that one change**: `b2_00_b` does not depend on them. -/
theorem C100_stale_counterexample (fits : Bias → ℝ → ℝ) : ∃ g σ', let σ := run fits 7 (init fun _ => []) staleOps
    read fits 7 .b00 σ = .ok (g, σ') ∧ ¬ Means σ.types σ.coef fits .b00 g ∧ Means σ.types σ.coef fits .b00 (fun _ => 1) := by
  obtain ⟨σ0, h0⟩ : ∃ σ0, σ0 = init (fun _ => []) := ⟨_, rfl⟩
  have c0 : σ0.coef = fun _ _ => 0 := by rw [h0]; funext b p; simp [init]
  have t0 : σ0.types = fun _ => none := by rw [h0]; rfl
  have e0 : σ0.cache = fun _ => none := by rw [h0]; rfl
  obtain ⟨T, hT⟩ : ∃ T : Types, T = Function.update (Function.update (fun _ => none) .b00 (some "b2_00_a")) .a00 (some "poly") := ⟨_, rfl⟩
  have hu : update [("b2_00_b", some "b2_00_a"), ("b2_00_a", some "poly")] σ0 = .ok { σ0 with types := T } := by
    have := update_names [(.b00, some "b2_00_a"), (.a00, some "poly")] σ0
    simp only [List.map_cons, List.map_nil] at this
    have e : (fun b : Bias => ((([(Bias.b00, some "b2_00_a"), (.a00, some "poly")] : List (Bias × Option String)).reverse.find? fun e => e.1 = b).map Prod.snd).getD (σ0.types b)) = T := by
      rw [hT, t0]; funext b; cases b <;> rfl
    rw [e] at this
    refine this.trans ?_
    have hne : ¬ T = σ0.types := fun h => by
      have := congrFun h .a00
      rw [hT, t0] at this; simp at this
    simp only [setTypes, if_neg hne, e0]
  have z : poly1d (coeffs (σ0.coef .a00) .a00) = fun _ => 0 := by funext x; rw [poly_eq, c0]; simp [polynomial]
  have Tb : T .b00 = some "b2_00_a" := by rw [hT]; rfl
  have Ta : T .a00 = some "poly" := by rw [hT]; simp
  have cb : choose (some "b2_00_a") .b00 = .attr .a00 := rfl
  have ca : choose (some "poly") .a00 = .poly := rfl
  have hr : read fits 7 .b00 { σ0 with types := T } =
      .ok (fun _ => 0, { σ0 with types := T, cache := Function.update (Function.update (fun _ => none) .a00 (some fun _ => 0)) .b00 (some fun _ => 0) }) := by
    simp only [read, e0, Tb, Ta, cb, ca, z]
  obtain ⟨σ, hσ⟩ : ∃ σ, σ = run fits 7 (init fun _ => []) staleOps := ⟨_, rfl⟩
  have hs : σ = setCoef .a00 0 1 { σ0 with types := T, cache := Function.update (Function.update (fun _ => none) .a00 (some fun _ => 0)) .b00 (some fun _ => 0) } := by
    rw [hσ, ← h0]
    simp only [run, staleOps, List.foldl, step, hu, hr]
  have hcoef : σ.coef = Function.update (fun _ _ => 0) .a00 (Function.update (fun _ => 0) 0 1) := by
    rw [hs, setCoef, if_pos (by decide), if_neg (by rw [c0]; norm_num)]
    simp only [c0]
  have htypes : σ.types = T := by
    rw [hs, (C100_coefficient _ _ _ _ (by decide)).2.2]
  have hcache : σ.cache .b00 = some fun _ => 0 := by
    rw [hs, setCoef, if_pos (by decide), if_neg (by rw [c0]; norm_num)]
    simp
  have good : Means σ.types σ.coef fits .b00 (fun _ => 1) := by
    rw [htypes, hcoef]
    refine .follow .b00 .a00 _ ⟨by decide, Or.inl Tb⟩ ?_
    have := Means.poly (T := T) (C := Function.update (fun _ _ => 0) Bias.a00 (Function.update (fun _ => 0) 0 1)) (fits := fits) .a00 Ta
    have e : polynomial (Function.update (fun _ _ => (0:ℝ)) Bias.a00 (Function.update (fun _ => 0) 0 1) .a00) .a00 = fun _ => 1 := by
      funext x; simp [polynomial]
    rwa [e] at this
  refine ⟨fun _ => 0, σ, ?_⟩
  simp only
  rw [← hσ]
  refine ⟨by rw [read, hcache], fun h => ?_, good⟩
  have := congrFun (means_fun h good) 0
  norm_num at this

/-- **`b2_00_b` and `b2_00_c` are exchanged**: by their documentation `b2_00_b` enters (P11+P02)[mu2] and `b2_00_c` enters P02[mu4]; but `P_mu2` does not depend on the former, nor `P_mu4`
on the latter. -/
theorem C100_documentation_counterexample (N : PT.Num) (m : PT.Biased) (k : ℝ) (g : ℝ → ℝ) :
    PT.Biased.P_mu2 N { m with b2_00_b := g } k = m.P_mu2 N k ∧ PT.Biased.P_mu4 N { m with b2_00_c := g } k = m.P_mu4 N k := ⟨rfl, rfl⟩

/-- a history that meets the hypotheses of `C100_poly`, with a coefficient set after: the bias is the polynomial with that coefficient -/
example (fits : Bias → ℝ → ℝ) : ∃ g σ', read fits 7 .a01 (run fits 7 (init fun _ => []) ([.vlah true, .read .a01] ++ .update [(Bias.a01.name, some "poly")] :: [.read .a01, .coef .a01 1 3])) =
    .ok (g, σ') ∧ g 2 = 6 := by
  obtain ⟨σ', h⟩ := C100_poly fits (fun _ => []) 7 le_rfl [.vlah true, .read .a01] [.read .a01, .coef .a01 1 3] (by simp [Quiet]) .a01
  refine ⟨_, σ', h, ?_⟩
  have e : (run fits 7 (init fun _ => []) ([.vlah true, .read .a01] ++ .update [(Bias.a01.name, some "poly")] :: [.read .a01, .coef .a01 1 3])).coef .a01 =
      (setCoef .a01 1 3 (run fits 7 (init fun _ => []) ([.vlah true, .read .a01] ++ .update [(Bias.a01.name, some "poly")] :: [.read .a01]))).coef .a01 := rfl
  have hc : (run fits 7 (init fun _ => []) ([.vlah true, .read .a01] ++ .update [(Bias.a01.name, some "poly")] :: [.read .a01])).coef = fun _ _ => 0 := by
    have q : ∀ (ops : List Op) (σ : State), Inv fits σ → (∀ op ∈ ops, ∀ b p v, op ≠ .coef b p v) → (run fits 7 σ ops).coef = σ.coef := by
      intro ops
      induction ops with
      | nil => intros; rfl
      | cons op ops ih =>
        intro σ hi hn
        have h1 : (step fits 7 σ op).coef = σ.coef := by
          cases op with
          | coef b p v => exact absurd rfl (hn _ List.mem_cons_self b p v)
          | types t => exact (setTypes_types t σ).2
          | update k =>
            simp only [step]
            split
            · rename_i h; obtain ⟨t, rfl⟩ := update_spec h; exact (setTypes_types t σ).2
            · rfl
          | vlah v =>
            simp only [step]
            split
            · rename_i h; obtain ⟨t, rfl⟩ := update_spec h; exact (setTypes_types t σ).2
            · rfl
          | read b =>
            simp only [step]
            split
            · rename_i h; exact (read_keeps h hi).2.2.1
            · rfl
        exact (ih _ (step_inv op hi) fun op h => hn op (List.mem_cons_of_mem _ h)).trans h1
    rw [q _ _ (init_inv _) (by simp)]
    funext b p; simp [init]
  obtain ⟨c1, c2, -⟩ := C100_coefficient .a01 1 3 (run fits 7 (init fun _ => []) ([.vlah true, .read .a01] ++ .update [(Bias.a01.name, some "poly")] :: [.read .a01])) (by decide)
  rw [e]
  simp only [polynomial, c1, c2 .a01 2 (by decide), c2 .a01 0 (by decide), hc]
  norm_num

/-- a history that meets the hypothesis of `C100_loop` -/
example (fits : Bias → ℝ → ℝ) : read fits 1000 .a00 (run fits 1000 (init fun _ => []) [.types fun b => if b = .a00 then some "b2_00_b" else some "vlah"]) = .error .recursion := by
  refine C100_loop fits _ 1000 _ .a00 ⟨.a00, .refl, ?_⟩
  have ht : (run fits 1000 (init fun _ => []) [.types fun b => if b = .a00 then some "b2_00_b" else some "vlah"]).types = fun b => if b = .a00 then some "b2_00_b" else some "vlah" :=
    (setTypes_types _ _).1
  rw [ht]
  exact .tail (b := .b00) (.single ⟨by decide, Or.inl rfl⟩) ⟨by decide, Or.inr ⟨rfl, rfl⟩⟩

end Verif.NlBias
