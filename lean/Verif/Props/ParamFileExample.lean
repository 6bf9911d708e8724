import Verif.Props.ParamFileMore
/-!
A small Python and a run that meets the hypotheses of the theorems on parameter files.
-/
namespace Verif.PFile.Example

/-- Objects: atoms, and dictionaries as chains of items. -/
inductive V where
  | none | ff | tt | ninf | pinf
  | num (n : ℕ)
  | str (t : Txt)
  | empty
  | item (k : Txt) (v rest : V)
  deriving DecidableEq

def items : V → Option (List (Txt × V))
  | .empty => some []
  | .item k v r => (items r).map ((k, v) :: ·)
  | _ => Option.none

def mkDict : List (Txt × V) → V
  | [] => .empty
  | (k, v) :: r => .item k v (mkDict r)

theorem items_mkDict (l : List (Txt × V)) : items (mkDict l) = some l := by
  induction l with
  | nil => rfl
  | cons x l ih => simp [mkDict, items, ih]

/-- The text of an object; `inside` is the position in a dictionary. -/
def repr : Bool → V → Txt
  | _, .none => ['N', 'o', 'n', 'e']
  | _, .ff => ['F', 'a', 'l', 's', 'e']
  | _, .tt => ['T', 'r', 'u', 'e']
  | _, .ninf => ['-', 'i', 'n', 'f']
  | _, .pinf => ['i', 'n', 'f']
  | _, .num n => List.replicate (n + 1) '1'
  | _, .str t => '\'' :: t ++ ['\'']
  | false, .empty => ['{', '}']
  | true, .empty => ['}']
  | false, .item k v r => '{' :: '\'' :: k ++ ['\'', ':', ' '] ++ repr false v ++ ',' :: repr true r
  | true, .item k v r => '\'' :: k ++ ['\'', ':', ' '] ++ repr false v ++ ',' :: repr true r

/-- The fit parameter of the example. -/
def dictOfF : V :=
  mkDict [(['n','a','m','e'], .str ['f']), (['v','a','l','u','e'], .num 3), (['v','a','r','y'], .tt), (['m','i','n'], .num 1),
    (['p','r','i','o','r','_','n','a','m','e'], .str ['u','n','i','f','o','r','m']), (['l','o','w','e','r'], .num 1),
    (['u','p','p','e','r'], .num 5), (['a','n','a','l','y','t','i','c'], .ff)]

/-- What the interpreter of the example can evaluate. -/
def table : List V :=
  [.none, .ff, .tt, .num 3, .str ['$', '(', 'H', ')', '/', 'c'], .str ['/', 'h', '/', 'c'], .str ['x'], dictOfF]

def toy : Python where
  Val := V
  none := .none
  ff := .ff
  ninf := .ninf
  pinf := .pinf
  ofTxt := .str
  str := repr false
  repr := repr false
  eval := fun _ t => table.find? (fun v => decide (repr false v = t))
  items := items
  mkDict := mkDict
  gt := fun a b => match a, b with | .num m, .num n => decide (n < m) | _, _ => false
  finite := fun a => match a with | .num _ => true | _ => false
  dollar := fun a => match a with | .str t => decide ('$' ∈ t) | _ => false
  validName := fun _ => true
  priorOk := fun a => decide (a = .none) || decide (a = .str ['u','n','i','f','o','r','m'])
  dec := inferInstance

instance : DecidableEq toy.Val := inferInstanceAs (DecidableEq V)

theorem toy_lawful : Lawful toy where
  items := items_mkDict
  none_ninf := by intro h; exact V.noConfusion h
  none_pinf := by intro h; exact V.noConfusion h
  none_ff := by intro h; exact V.noConfusion h
  ofTxt := by intro t h; exact V.noConfusion h
  fin_none := rfl
  fin_ninf := rfl
  fin_pinf := rfl
  prior := rfl

/-- `$H` is `/h`. -/
def env : Txt → Option Txt := fun v => if v = ['H'] then some ['/', 'h'] else none

/-- A free parameter with a lower bound and a uniform prior. -/
def f : Par toy :=
  { name := ['f'], value := V.num 3, output := none, vary := V.tt, min := V.num 1, max := V.pinf, expr := V.none, fiducial := V.none,
    prior := V.str ['u','n','i','f','o','r','m'], lower := V.num 1, upper := V.num 5, mu := V.none, sigma := V.none, analytic := V.ff }

def run : Run toy where
  driver := [(['s'], { bare toy ['s'] (V.str ['/', 'h', '/', 'c']) with output := some (V.str ['$', '(', 'H', ')', '/', 'c']) }),
    (['b'], bare toy ['b'] (V.num 3))]
  data := [(['m'], bare toy ['m'] V.none)]
  theory := [(['f'], f)]
  extras := [(['g'], ['x'])]
  model := []

theorem toDict_f : Par.toDict f true = [(['n','a','m','e'], V.str ['f']), (['v','a','l','u','e'], V.num 3), (['v','a','r','y'], V.tt),
    (['m','i','n'], V.num 1), (['p','r','i','o','r','_','n','a','m','e'], V.str ['u','n','i','f','o','r','m']), (['l','o','w','e','r'], V.num 1),
    (['u','p','p','e','r'], V.num 5), (['a','n','a','l','y','t','i','c'], V.ff)] := by
  show (_ : List (Txt × V)) = _
  rfl

theorem plain_bare (n : Txt) (v : V) (o : Option V) (h : ∀ its, items v = some its → ∃ kv ∈ its, kv.1 ∉ validKeys) :
    Plain ({ bare toy n v with output := o } : Par toy) :=
  ⟨rfl, rfl, rfl, rfl, rfl, rfl, rfl, rfl, rfl, rfl, rfl, h⟩

theorem reads_simple (t : Txt) (v : V) (hd : '$' ∉ t) (h : table.find? (fun w => decide (repr false w = t)) = some v) :
    ReadsAs toy env t v none := by
  intro D _
  exact Or.inl ⟨hd, rfl, h⟩

theorem one_field (t : Txt) (h : (decide (t ≠ []) && t.head?.all (fun c => decide (32 < c.toNat)) &&
    t.getLast?.all (fun c => decide (32 < c.toNat)) && decide ('\n' ∉ t) && decide ('#' ∉ t) && decide ('\\' ∉ t) && decide ('=' ∉ t)) = true) :
    OneField t := by
  simp only [Bool.and_eq_true, decide_eq_true_eq] at h
  obtain ⟨⟨⟨⟨⟨⟨h1, h2⟩, h3⟩, h4⟩, h5⟩, h6⟩, h7⟩ := h
  refine ⟨h1, ⟨?_, ?_⟩, h4, h5, h6, h7⟩
  · intro c hc; rw [Option.mem_def] at hc; rw [hc] at h2; simpa using h2
  · intro c hc; rw [Option.mem_def] at hc; rw [hc] at h3; simpa using h3

/-- The run of the example has a value with a variable, a bounded free parameter, a further name, and can be written. -/
theorem run_writable : Writable toy env run where
  driver := by
    refine ⟨by decide, ?_⟩
    intro np h
    simp only [run, List.mem_cons, List.not_mem_nil, or_false] at h
    rcases h with h | h <;> subst h
    · refine ⟨⟨by decide, by decide⟩, rfl, rfl, plain_bare _ _ _ (by intro its h; cases h), one_field _ (by decide), ?_⟩
      intro D hD
      refine Or.inr ⟨by decide, V.str ['$', '(', 'H', ')', '/', 'c'], ['\'', '/', 'h', '/', 'c', '\''], rfl, by decide, ?_, ?_, by
        show table.find? (fun v => decide (repr false v = ['\'', '/', 'h', '/', 'c', '\''])) = some (V.str ['/', 'h', '/', 'c'])
        decide⟩
      · have hH : D ['H'] = none := by
          cases hx : D ['H'] with
          | none => rfl
          | some v => exact absurd (hD ['H'] (by rw [hx]; rfl)) (by decide)
        simp [Vars.replaceVars, Vars.loop, toy, repr, env, hH, bare]
      · exact (one_field _ (by decide)).trim
    · exact ⟨⟨by decide, by decide⟩, rfl, rfl, plain_bare _ _ none (by intro its h; cases h), one_field _ (by decide),
        reads_simple _ _ (by decide) (by decide)⟩
  data := by
    refine ⟨by decide, ?_⟩
    intro np h
    simp only [run, List.mem_cons, List.not_mem_nil, or_false] at h
    subst h
    exact ⟨⟨by decide, by decide⟩, rfl, rfl, plain_bare _ _ none (by intro its h; cases h), one_field _ (by decide),
      reads_simple _ _ (by decide) (by decide)⟩
  theory := by
    refine ⟨by decide, ?_⟩
    intro np h
    simp only [run, List.mem_cons, List.not_mem_nil, or_false] at h
    subst h
    refine ⟨⟨by decide, by decide⟩, rfl, rfl, ?_, ?_, ?_⟩
    · exact ⟨rfl, by decide, by decide, Or.inr rfl, Or.inl rfl, (fun _ => rfl), (fun h => by cases h), by decide, rfl⟩
    · show OneField (toy.repr (toy.mkDict (Par.toDict f true)))
      rw [toDict_f]; exact one_field _ (by decide)
    · show ReadsAs toy env (toy.repr (toy.mkDict (Par.toDict f true))) (toy.mkDict (Par.toDict f true)) none
      rw [toDict_f]; exact reads_simple _ _ (by decide) (by decide)
  extras := by
    refine ⟨by decide, ?_⟩
    intro np h
    simp only [run, List.mem_cons, List.not_mem_nil, or_false] at h
    subst h
    exact ⟨⟨by decide, by decide⟩, rfl, one_field _ (by decide), rfl, reads_simple _ _ (by decide) (by decide)⟩
  model := ⟨by decide, by intro np h; cases h⟩

/-- So its file gives it back. -/
theorem example_round_trip : ∃ ps, fromFile toy env (some "theory".toList) run.text = .ok ps ∧ ps.Perm run.theory :=
  (C125_round_trip toy_lawful env run run_writable).2.2.1

end Verif.PFile.Example
