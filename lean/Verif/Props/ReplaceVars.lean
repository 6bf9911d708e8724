/-
C24: substitution of variables in parameter files.
-/
import Verif.Model.ReplaceVars
import Mathlib.Tactic.Tauto

namespace Verif.Vars

/-! ### Specification: a string is a sequence of pieces -/

/-- A piece of a string: literal text, `$(name)`, or `$name`. -/
inductive Seg where
  | text (cs : List Char)
  | paren (name : List Char)
  | bare (name : List Char)

/-- How the pieces are written. -/
def render : List Seg → List Char
  | [] => []
  | .text cs :: ss => cs ++ render ss
  | .paren n :: ss => '$' :: '(' :: (n ++ ')' :: render ss)
  | .bare n :: ss => '$' :: (n ++ render ss)

/-- The result: text is kept, `$(name)` is looked up in the table and then in the environment, `$name` in the table only. -/
def subst (D env : List Char → Option (List Char)) : List Seg → Except Err (List Char)
  | [] => .ok []
  | .text cs :: ss => (subst D env ss).map (cs ++ ·)
  | .paren n :: ss =>
    match (D n).or (env n) with
    | some v => (subst D env ss).map (v ++ ·)
    | none => .error .key
  | .bare n :: ss =>
    match D n with
    | some v => (subst D env ss).map (v ++ ·)
    | none => .error .key

/-- Characters of names: the ASCII letters and digits, and the underscore. -/
def NameChar (c : Char) : Prop := c.isAlphanum = true ∨ c = '_'

instance (c : Char) : Decidable (NameChar c) := inferInstanceAs (Decidable (_ ∨ _))

/-- The pieces are read as intended when followed by `tail`: text has no `$`; a parenthesised name has no `)`; a bare name
consists of name characters and ends where the name characters end. -/
def WF : List Seg → List Char → Prop
  | [], _ => True
  | .text cs :: ss, t => '$' ∉ cs ∧ WF ss t
  | .paren n :: ss, t => ')' ∉ n ∧ WF ss t
  | .bare n :: ss, t =>
    (∀ c ∈ n, NameChar c) ∧
    (match render ss ++ t with
      | [] => n ≠ []
      | c :: _ => ¬ NameChar c ∧ (n = [] → c ≠ '(')) ∧ WF ss t

/-- What can follow the pieces: nothing, a lone `$`, or a `$(` that is never closed. -/
inductive Tail where
  | done
  | dollar
  | openParen (rest : List Char)

/-- How it is written. -/
def Tail.chars : Tail → List Char
  | .done => []
  | .dollar => ['$']
  | .openParen r => '$' :: '(' :: r

/-- How it ends. -/
def Tail.result : Tail → List Char → Except Err (List Char)
  | .done, out => .ok out
  | .dollar, _ => .error .trailing
  | .openParen _, _ => .error .unmatched

def Tail.WF : Tail → Prop
  | .openParen r => ')' ∉ r
  | _ => True

/-! ### Proof -/

theorem identChar_iff (c : Char) : identChar c = true ↔ NameChar c := by
  have e : ∀ a b : Char, (a ≤ b) = (a.val ≤ b.val) := fun _ _ => rfl
  simp only [identChar, NameChar, Char.isAlphanum, Char.isAlpha, Char.isUpper, Char.isLower, Char.isDigit, Bool.or_eq_true,
    Bool.and_eq_true, decide_eq_true_eq, beq_iff_eq, e, ge_iff_le]
  have h1 : 'a'.val = 97 := rfl
  have h2 : 'z'.val = 122 := rfl
  have h3 : 'A'.val = 65 := rfl
  have h4 : 'Z'.val = 90 := rfl
  have h5 : '0'.val = 48 := rfl
  have h6 : '9'.val = 57 := rfl
  simp only [h1, h2, h3, h4, h5, h6]
  tauto

theorem identChar_false_iff (c : Char) : identChar c = false ↔ ¬ NameChar c := by
  rw [← identChar_iff]; simp

theorem takeWhile_app {p : Char → Bool} (a b : List Char) (h : ∀ c ∈ a, p c = true) (hb : ∀ c, b.head? = some c → p c = false) :
    (a ++ b).takeWhile p = a ∧ (a ++ b).dropWhile p = b := by
  induction a with
  | nil =>
    cases b with
    | nil => simp
    | cons c b => have := hb c rfl; simp [this]
  | cons x a ih =>
    have hx := h x List.mem_cons_self
    obtain ⟨i1, i2⟩ := ih (fun c hc => h c (List.mem_cons_of_mem _ hc))
    simp [hx, i1, i2]

theorem loop_text (D env) (cs : List Char) (hcs : '$' ∉ cs) (r out : List Char) (fuel : Nat) :
    loop D env (fuel + 1) (cs ++ r) out = loop D env (fuel + 1) r (out ++ cs) := by
  have hne : ∀ c ∈ cs, (c != '$') = true := by
    intro c hc
    have : c ≠ '$' := by intro e; subst e; exact hcs hc
    simpa using this
  have h1 : (cs ++ r).dropWhile (· != '$') = r.dropWhile (· != '$') := by
    clear hcs
    induction cs with
    | nil => rfl
    | cons x cs ih =>
      have := hne x List.mem_cons_self
      simp only [List.cons_append, List.dropWhile_cons, this, if_true]
      exact ih (fun c hc => hne c (List.mem_cons_of_mem _ hc))
  have h2 : (cs ++ r).takeWhile (· != '$') = cs ++ r.takeWhile (· != '$') := by
    clear hcs h1
    induction cs with
    | nil => rfl
    | cons x cs ih =>
      have := hne x List.mem_cons_self
      simp only [List.cons_append, List.takeWhile_cons, this, if_true]
      rw [ih (fun c hc => hne c (List.mem_cons_of_mem _ hc))]
  simp only [loop, h1, h2, List.append_assoc]

theorem loop_dollar (D env) (rest out : List Char) (fuel : Nat) :
    loop D env (fuel + 1) ('$' :: rest) out =
      match rest with
      | [] => .error .trailing
      | '(' :: r =>
        match r.dropWhile (· != ')') with
        | [] => .error .unmatched
        | _ :: r' =>
          match D (r.takeWhile (· != ')')) with
          | some v => loop D env fuel r' (out ++ v)
          | none =>
            match env (r.takeWhile (· != ')')) with
            | some v => loop D env fuel r' (out ++ v)
            | none => .error .key
      | c :: r =>
        match D ((c :: r).takeWhile identChar) with
        | some v => loop D env fuel ((c :: r).dropWhile identChar) (out ++ v)
        | none => .error .key := by
  have hd : ('$' :: rest).dropWhile (· != '$') = '$' :: rest := by simp
  have ht : ('$' :: rest).takeWhile (· != '$') = [] := by simp
  rw [loop, hd, ht]
  simp only [List.append_nil]
  rfl

theorem dropWhile_nil {p : Char → Bool} (l : List Char) : l.dropWhile p = [] ↔ ∀ c ∈ l, p c = true := by
  induction l with
  | nil => simp
  | cons x l ih =>
    by_cases h : p x = true
    · simp [h, ih]
    · simp [h]

theorem mem_takeWhile {p : Char → Bool} (l : List Char) {c : Char} (h : c ∈ l.takeWhile p) : p c = true := by
  induction l with
  | nil => cases h
  | cons x l ih =>
    by_cases hx : p x = true
    · simp only [List.takeWhile_cons, hx, if_true, List.mem_cons] at h
      rcases h with rfl | h
      · exact hx
      · exact ih h
    · simp [hx] at h

theorem main_lemma (D env) (ss : List Seg) (t : Tail) (ht : t.WF) :
    ∀ (out : List Char) (fuel : Nat), WF ss t.chars → (render ss ++ t.chars).length < fuel →
      loop D env fuel (render ss ++ t.chars) out = (subst D env ss).bind (fun r => t.result (out ++ r)) := by
  induction ss with
  | nil =>
    intro out fuel _ hf
    cases fuel with
    | zero => omega
    | succ fuel =>
      cases t with
      | done => simp [render, Tail.chars, loop, subst, Tail.result, Except.bind]
      | dollar => simp [render, Tail.chars, loop, subst, Tail.result, Except.bind]
      | openParen r =>
        have hr : r.dropWhile (· != ')') = [] := by
          rw [dropWhile_nil]
          intro c hc
          have : c ≠ ')' := by intro e; subst e; exact ht hc
          simpa using this
        simp [render, Tail.chars, loop, subst, Tail.result, Except.bind, hr]
  | cons s ss ih =>
    intro out fuel hwf hf
    cases fuel with
    | zero => omega
    | succ fuel =>
      cases s with
      | text cs =>
        obtain ⟨h1, h2⟩ := hwf
        simp only [render, List.append_assoc] at hf ⊢
        rw [loop_text D env cs h1, ih (out ++ cs) (fuel + 1) h2 (by simp at hf ⊢; omega)]
        simp only [subst]
        cases subst D env ss <;> simp [Except.bind, Except.map]
      | paren n =>
        obtain ⟨h1, h2⟩ := hwf
        simp only [render, List.cons_append, List.append_assoc] at hf ⊢
        rw [loop_dollar]
        have hk : (n ++ ')' :: (render ss ++ t.chars)).takeWhile (· != ')') = n ∧
            (n ++ ')' :: (render ss ++ t.chars)).dropWhile (· != ')') = ')' :: (render ss ++ t.chars) := by
          apply takeWhile_app
          · intro c hc
            have : c ≠ ')' := by intro e; subst e; exact h1 hc
            simpa using this
          · intro c hc; simp at hc; simp [← hc]
        simp only [hk.1, hk.2, subst]
        have hl : (render ss ++ t.chars).length < fuel := by simp at hf ⊢; omega
        cases hD : D n with
        | some v =>
          simp only [Option.some_or]
          rw [ih (out ++ v) fuel h2 hl]
          cases subst D env ss <;> simp [Except.bind, Except.map]
        | none =>
          simp only [Option.none_or]
          cases hE : env n with
          | some v =>
            simp only
            rw [ih (out ++ v) fuel h2 hl]
            cases subst D env ss <;> simp [Except.bind, Except.map]
          | none => simp [Except.bind]
      | bare n =>
        obtain ⟨h1, h2, h3⟩ := hwf
        simp only [render, List.cons_append, List.append_assoc] at hf ⊢
        have hl : (render ss ++ t.chars).length < fuel := by simp at hf ⊢; omega
        have hk : (n ++ (render ss ++ t.chars)).takeWhile identChar = n ∧
            (n ++ (render ss ++ t.chars)).dropWhile identChar = render ss ++ t.chars := by
          apply takeWhile_app _ _ (fun c hc => (identChar_iff c).2 (h1 c hc))
          intro c hc
          split at h2
          next hx => rw [hx] at hc; cases hc
          next c' r hx => rw [hx] at hc; simp at hc; subst hc; exact (identChar_false_iff _).2 h2.1
        have hne : n ++ (render ss ++ t.chars) ≠ [] := by
          intro hx
          rw [List.append_eq_nil_iff] at hx
          simp [hx.2] at h2
          exact h2 hx.1
        have hnp : ∀ r, n ++ (render ss ++ t.chars) ≠ '(' :: r := by
          intro r hx
          cases n with
          | nil =>
            simp only [List.nil_append] at hx
            rw [hx] at h2
            exact h2.2 rfl rfl
          | cons a n =>
            simp only [List.cons_append, List.cons.injEq] at hx
            have := h1 a List.mem_cons_self
            rw [hx.1] at this
            revert this; decide
        rw [loop_dollar]
        generalize hq : n ++ (render ss ++ t.chars) = q at hk hne hnp
        split
        · exact absurd rfl hne
        next r => exact absurd rfl (hnp r)
        next c r _ =>
          simp only [hk.1, hk.2, subst]
          cases hD : D n with
          | some v =>
            simp only
            rw [ih (out ++ v) fuel h3 hl]
            cases subst D env ss <;> simp [Except.bind, Except.map]
          | none => simp [Except.bind]

/-- **C24.** Whatever the table and the environment: a string made of well-formed pieces is replaced piece by piece, all other
text being kept; a string that goes on with a lone final `$`, or with a `$(` that is never closed, raises the corresponding error
(unless an earlier variable is unknown, which raises a KeyError first). -/
theorem C24_exact (D env : List Char → Option (List Char)) (ss : List Seg) (t : Tail) (hw : WF ss t.chars) (ht : t.WF) :
    replaceVars D env (render ss ++ t.chars) = (subst D env ss).bind t.result := by
  unfold replaceVars
  rw [main_lemma D env ss t ht [] _ hw (by omega)]
  rfl

/-- **C24, no other strings.** Every string is of this form. -/
theorem C24_all_strings (s : List Char) : ∃ ss t, s = render ss ++ Tail.chars t ∧ WF ss t.chars ∧ t.WF := by
  generalize hk : s.length = k
  induction k using Nat.strongRecOn generalizing s with
  | ind k ih =>
    cases s with
    | nil => exact ⟨[], .done, rfl, trivial, trivial⟩
    | cons c r =>
      simp only [List.length_cons] at hk
      by_cases hc : c = '$'
      · subst hc
        cases r with
        | nil => exact ⟨[], .dollar, rfl, trivial, trivial⟩
        | cons d r =>
          simp only [List.length_cons] at hk
          by_cases hd : d = '('
          · subst hd
            by_cases hm : ')' ∈ r
            · have hsplit := List.takeWhile_append_dropWhile (p := (· != ')')) (l := r)
              have hnot : ')' ∉ r.takeWhile (· != ')') := by
                intro hx
                have := mem_takeWhile _ hx
                simp at this
              cases hdw : r.dropWhile (· != ')') with
              | nil =>
                rw [dropWhile_nil] at hdw
                have := hdw ')' hm
                simp at this
              | cons e r' =>
                have he : e = ')' := by
                  have := List.head?_dropWhile_not (· != ')') r
                  rw [hdw] at this
                  simpa using this
                subst he
                have hlen : r'.length < k := by
                  have := congrArg List.length hsplit
                  rw [hdw] at this
                  simp at this
                  omega
                obtain ⟨ss, t, h1, h2, h3⟩ := ih r'.length hlen r' rfl
                refine ⟨.paren (r.takeWhile (· != ')')) :: ss, t, ?_, ⟨hnot, h2⟩, h3⟩
                simp only [render, List.cons_append, List.append_assoc]
                rw [← h1, ← hdw, hsplit]
            · exact ⟨[], .openParen r, rfl, trivial, hm⟩
          · have hsplit := List.takeWhile_append_dropWhile (p := identChar) (l := d :: r)
            have hlen : ((d :: r).dropWhile identChar).length < k := by
              have := (List.dropWhile_sublist identChar (l := d :: r)).length_le
              simp only [List.length_cons] at this
              omega
            obtain ⟨ss, t, h1, h2, h3⟩ := ih _ hlen _ rfl
            refine ⟨.bare ((d :: r).takeWhile identChar) :: ss, t, ?_, ⟨?_, ?_, h2⟩, h3⟩
            · simp only [render, List.cons_append, List.append_assoc]
              rw [← h1, hsplit]
            · intro c hx; exact (identChar_iff _).1 (mem_takeWhile _ hx)
            · rw [← h1]
              cases hdw : (d :: r).dropWhile identChar with
              | nil =>
                simp only
                intro hx
                rw [hx, hdw] at hsplit
                cases hsplit
              | cons e r' =>
                have he : identChar e = false := by
                  have := List.head?_dropWhile_not identChar (d :: r)
                  rw [hdw] at this
                  simpa using this
                refine ⟨(identChar_false_iff _).1 he, fun hx => ?_⟩
                rw [hx, hdw] at hsplit
                simp only [List.nil_append, List.cons.injEq] at hsplit
                rw [hsplit.1]
                exact hd
      · obtain ⟨ss, t, h1, h2, h3⟩ := ih r.length (by omega) r rfl
        refine ⟨.text [c] :: ss, t, ?_, ⟨?_, h2⟩, h3⟩
        · simp only [render, List.cons_append, List.nil_append]
          rw [← h1]
        · simp [Ne.symm hc]

/-- **C24, corollary.** Strings without `$` are unchanged. -/
theorem C24_no_dollar (D env : List Char → Option (List Char)) (s : List Char) (h : '$' ∉ s) :
    replaceVars D env s = .ok s := by
  have := C24_exact D env [.text s] .done ⟨h, trivial⟩ trivial
  simpa [render, Tail.chars, subst, Except.bind, Except.map, Tail.result] using this

/-- A non-trivial instance: the example of the docstring. -/
example : WF [.text "I know my ".toList, .paren "my_var1".toList, .text "s and ".toList, .bare "my_var2".toList,
    .text "'s".toList] (Tail.done).chars ∧
    String.ofList (render [.text "I know my ".toList, .paren "my_var1".toList, .text "s and ".toList, .bare "my_var2".toList,
      .text "'s".toList]) = "I know my $(my_var1)s and $my_var2's" := by
  constructor
  · refine ⟨by decide, by decide, by decide, by decide, ⟨by decide, by decide⟩, by decide, trivial⟩
  · decide

end Verif.Vars
