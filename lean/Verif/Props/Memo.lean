import Verif.Model.Memo
/-
Property C08: the evaluation memo.
-/
namespace Verif.Memo
variable {S V : Type}

/-- No parameter changes inside `use_cache` blocks. -/
def Prog.Frozen : Prog S → Prop
  | .update _ => False
  | .seq a b => a.Frozen ∧ b.Frozen
  | .withCache body => body.Frozen
  | _ => True

/-- Parameter changes only outside `use_cache` blocks. -/
def Prog.Disciplined : Prog S → Prop
  | .seq a b => a.Disciplined ∧ b.Disciplined
  | .withCache body => body.Frozen
  | _ => True

/-- Class name, function name and positional arguments determine the result at a given state: one live object per class
name, and results do not depend on keyword arguments. -/
def KeyDetermines (f : Call → S → Option V) : Prop :=
  ∀ c c' s, c.cls = c'.cls → c.fn = c'.fn → c.args = c'.args → f c s = f c' s

/-- Every stored entry is the current result. -/
def Good (f : Call → S → Option V) (p : Proc S V) : Prop :=
  ∀ d, p.memo = some d → ∀ c v, d.lookup c.key = some v → f c p.st = some v

theorem evalCall_good {f : Call → S → Option V} (hk : KeyDetermines f) (c : Call) (p : Proc S V) (hg : Good f p) :
    (evalCall f c p).1 = f c p.st ∧ (evalCall f c p).2.st = p.st ∧ Good f (evalCall f c p).2 ∧
      ((evalCall f c p).2.memo.isSome = p.memo.isSome) := by
  unfold evalCall
  cases hm : p.memo with
  | none => exact ⟨rfl, rfl, hg, by simp [hm]⟩
  | some d =>
    simp only
    cases hl : d.lookup c.key with
    | some v => exact ⟨(hg d hm c v hl).symm, rfl, hg, by simp [hm]⟩
    | none =>
      cases hf : f c p.st with
      | none => exact ⟨rfl, rfl, hg, by simp [hm]⟩
      | some v =>
        refine ⟨rfl, rfl, ?_, rfl⟩
        intro d' hd' c' v' hl'
        cases hd'
        simp only [List.lookup_cons] at hl'
        split at hl'
        · rename_i he
          have he : c'.key = c.key := by simpa using he
          cases hl'
          simp only [Call.key, Prod.mk.injEq] at he
          rw [hk c' c p.st he.1 he.2.1 he.2.2]
          exact hf
        · exact hg d hm c' v' hl'

theorem exec_frozen {f : Call → S → Option V} (hk : KeyDetermines f) : ∀ (b : Prog S), b.Frozen → ∀ p : Proc S V, Good f p →
    (exec f b p).1 = (execBare f b p.st).1 ∧ (exec f b p).2.1.st = (execBare f b p.st).2.1 ∧
      (exec f b p).2.2 = (execBare f b p.st).2.2 ∧ Good f (exec f b p).2.1 ∧
      (p.memo = none → (exec f b p).2.1.memo = none) := by
  intro b
  induction b with
  | skip => intro _ p hg; exact ⟨rfl, rfl, rfl, hg, id⟩
  | fail => intro _ p hg; exact ⟨rfl, rfl, rfl, hg, id⟩
  | update g => intro h; exact absurd h id
  | call c =>
    intro _ p hg
    obtain ⟨h1, h2, h3, h4⟩ := evalCall_good hk c p hg
    simp only [exec, execBare]
    cases he : evalCall f c p with
    | mk r p' =>
      rw [he] at h1 h2 h3 h4
      simp only at h1 h2 h3 h4
      rw [← h1]
      cases r with
      | none => exact ⟨rfl, h2, rfl, h3, fun hn => by rw [hn] at h4; simpa using h4⟩
      | some v => exact ⟨rfl, h2, rfl, h3, fun hn => by rw [hn] at h4; simpa using h4⟩
  | seq a b iha ihb =>
    intro hf p hg
    obtain ⟨a1, a2, a3, a4, a5⟩ := iha hf.1 p hg
    simp only [exec, execBare]
    rcases hx : exec f a p with ⟨o, p', e⟩
    rcases hy : execBare f a p.st with ⟨o', s', e'⟩
    rw [hx, hy] at a1 a2 a3
    rw [hx] at a4 a5
    simp only at a1 a2 a3 a4 a5
    subst a1 a2 a3
    cases e with
    | true => exact ⟨rfl, rfl, rfl, a4, a5⟩
    | false =>
      obtain ⟨b1, b2, b3, b4, b5⟩ := ihb hf.2 p' a4
      simp only
      refine ⟨by rw [b1], b2, b3, b4, fun hn => b5 (a5 hn)⟩
  | withCache body ih =>
    intro hf p hg
    obtain ⟨h1, h2, h3, _, _⟩ := ih hf { p with memo := some [] } (by
      intro d hd c v hl; cases hd; simp at hl)
    simp only [exec, execBare]
    refine ⟨h1, h2, h3, ?_, fun _ => trivial⟩
    intro d hd; cases hd

/-- **C08** (partial).  For every program (calls, parameter changes, nested `use_cache` blocks, exceptions) in which no
parameter changes *inside* a block, memoisation is invisible: same results in the same order, same final parameters, same
exception status; and after the program memoisation is off and nothing is kept.
Missing: parameter changes inside a block (`C08_stale_counterexample`), several objects of one class
(`C08_two_objects_counterexample`), keyword arguments. -/
theorem C08_transparent_partial (f : Call → S → Option V) (hk : KeyDetermines f) (b : Prog S) (hb : b.Disciplined)
    (s : S) :
    (exec f b ⟨s, none⟩).1 = (execBare f b s).1 ∧ (exec f b ⟨s, none⟩).2.1.st = (execBare f b s).2.1 ∧
      (exec f b ⟨s, none⟩).2.2 = (execBare f b s).2.2 ∧ (exec f b ⟨s, none⟩).2.1.memo = none := by
  suffices h : ∀ (b : Prog S), b.Disciplined → ∀ p : Proc S V, p.memo = none →
      (exec f b p).1 = (execBare f b p.st).1 ∧ (exec f b p).2.1.st = (execBare f b p.st).2.1 ∧
      (exec f b p).2.2 = (execBare f b p.st).2.2 ∧ (exec f b p).2.1.memo = none from h b hb ⟨s, none⟩ rfl
  intro b
  induction b with
  | skip => intro _ p hp; exact ⟨rfl, rfl, rfl, hp⟩
  | fail => intro _ p hp; exact ⟨rfl, rfl, rfl, hp⟩
  | update g => intro _ p hp; exact ⟨rfl, rfl, rfl, hp⟩
  | call c =>
    intro _ p hp
    simp only [exec, execBare, evalCall, hp]
    cases f c p.st <;> exact ⟨rfl, rfl, rfl, hp⟩
  | seq a b iha ihb =>
    intro hf p hp
    obtain ⟨a1, a2, a3, a4⟩ := iha hf.1 p hp
    simp only [exec, execBare]
    rcases hx : exec f a p with ⟨o, p', e⟩
    rcases hy : execBare f a p.st with ⟨o', s', e'⟩
    rw [hx, hy] at a1 a2 a3
    rw [hx] at a4
    simp only at a1 a2 a3 a4
    subst a1 a2 a3
    cases e with
    | true => exact ⟨rfl, rfl, rfl, a4⟩
    | false =>
      obtain ⟨b1, b2, b3, b4⟩ := ihb hf.2 p' a4
      exact ⟨by simp only [b1], b2, b3, b4⟩
  | withCache body _ =>
    intro hf p _
    obtain ⟨h1, h2, h3, _, _⟩ := exec_frozen hk body hf { p with memo := some [] } (by
      intro d hd c v hl; cases hd; simp at hl)
    exact ⟨h1, h2, h3, rfl⟩

/-- Leaving a block, normally or by an exception, always switches memoisation off and drops every entry. -/
theorem C08_off_after_block (f : Call → S → Option V) (b : Prog S) (p : Proc S V) :
    (exec f (.withCache b) p).2.1.memo = none := rfl

/-- **C08 fails** when a parameter changes inside the block: the second evaluation returns the old result. -/
theorem C08_stale_counterexample :
    let f : Call → Nat → Option Nat := fun c s => some (c.args + s)
    let c : Call := ⟨0, 0, 0, 5, 0⟩
    let b : Prog Nat := .withCache (.seq (.call c) (.seq (.update fun _ => 100) (.call c)))
    (exec f b ⟨1, none⟩).1 = [6, 6] ∧ (execBare f b 1).1 = [6, 105] := by decide

/-- **C08 fails** for two objects of the same class: the second gets the first one's result. -/
theorem C08_two_objects_counterexample :
    let f : Call → Nat → Option Nat := fun c _ => some c.obj
    let b : Prog Nat := .withCache (.seq (.call ⟨1, 0, 0, 5, 0⟩) (.call ⟨2, 0, 0, 5, 0⟩))
    (exec f b ⟨0, none⟩).1 = [1, 1] ∧ (execBare f b 0).1 = [1, 2] := by decide

/-- The per-term memo is transparent as long as the term object lives under one model state. -/
theorem C08_memoize_transparent {K : Type} [DecidableEq K] (g : K → V) (ks : List K) :
    (ks.foldl (fun (acc : List V × List (K × V)) k =>
      (acc.1 ++ [(memoCall g acc.2 k).1], (memoCall g acc.2 k).2)) ([], [])).1 = ks.map g := by
  suffices h : ∀ (ks : List K) (t : List (K × V)) (o : List V), (∀ k v, t.lookup k = some v → v = g k) →
      (ks.foldl (fun (acc : List V × List (K × V)) k =>
        (acc.1 ++ [(memoCall g acc.2 k).1], (memoCall g acc.2 k).2)) (o, t)).1 = o ++ ks.map g by
    simpa using h ks [] [] (by simp)
  intro ks
  induction ks with
  | nil => intro t o _; simp
  | cons k ks ih =>
    intro t o ht
    simp only [List.foldl_cons, List.map_cons]
    have h1 : (memoCall g t k).1 = g k := by
      unfold memoCall
      cases hl : t.lookup k with
      | some v => exact ht k v hl
      | none => rfl
    rw [ih]
    · rw [h1]; simp
    · intro k' v' hl'
      unfold memoCall at hl'
      cases hl : t.lookup k with
      | some v => rw [hl] at hl'; exact ht k' v' hl'
      | none =>
        rw [hl] at hl'
        simp only [List.lookup_cons] at hl'
        split at hl'
        · rename_i he
          have he : k' = k := by simpa using he
          cases hl'; rw [he]
        · exact ht k' v' hl'

example : (exec (fun c s => if c.args = 9 then none else some (c.args + s))
    (.seq (.withCache (.seq (.call ⟨0, 0, 0, 5, 0⟩) (.seq (.withCache (.call ⟨0, 0, 0, 5, 0⟩)) (.call ⟨0, 0, 0, 5, 0⟩))))
      (.seq (.update (· + 1)) (.withCache (.seq (.call ⟨0, 0, 0, 5, 0⟩) (.call ⟨0, 0, 0, 9, 0⟩))))) ⟨1, none⟩).1
    = [6, 6, 6, 7] := by decide

example : (Prog.seq (.withCache (.call ⟨0, 0, 0, 5, 0⟩)) (.update (· + 1)) : Prog Nat).Disciplined :=
  ⟨trivial, trivial⟩

end Verif.Memo
