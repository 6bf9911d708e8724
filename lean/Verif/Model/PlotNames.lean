import Mathlib.Data.Int.Log
import Mathlib.Data.Nat.Digits.Defs
import Mathlib.Data.Rat.Floor
import Mathlib.Logic.Function.Basic

/-!
# What is plotted, and under which label

`format_scaled_param` and the second half of `extract_parameter_names` (`pyRSD/rsdfit/analysis/tools.py:25-50, 289-366`); its first half is in `Verif.Analysis`.

Simplifications: numbers are rational and exact; labels are lists of characters; dictionaries of the user are functions, or lists in the order of insertion; the parameter set is given by its bounds.
-/

namespace Verif.PlotNames

/-- A label -/
abbrev Label := List Char

/-! ### The label of a scaled parameter -/

/-- A natural number in decimals, no digits for zero -/
def dec (n : ℕ) : Label := (Nat.digits 10 n).reverse.map Nat.digitChar

/-- Rounding to the nearest integer, a half to the even one -/
def nearest (x : ℚ) : ℕ :=
  if x - ⌊x⌋₊ < 1 / 2 then ⌊x⌋₊
  else if 1 / 2 < x - ⌊x⌋₊ then ⌊x⌋₊ + 1
  else if ⌊x⌋₊ % 2 = 0 then ⌊x⌋₊ else ⌊x⌋₊ + 1

/-- The digit and the exponent of `"%0.e" % x` for a positive `x` -/
def mantExp (x : ℚ) : ℕ × ℤ :=
  if nearest (x / 10 ^ (Int.log 10 x)) = 10 then (1, Int.log 10 x + 1) else (nearest (x / 10 ^ (Int.log 10 x)), Int.log 10 x)

/-- The exponent is written with two digits, or more -/
def expText (e : ℕ) : Label := if e = 0 then ['0', '0'] else if e < 10 then '0' :: dec e else dec e

/-- `"%0.e" % x` -/
def sci (x : ℚ) : Label :=
  if x = 0 then ['0', 'e', '+', '0', '0']
  else (if x < 0 then ['-'] else []) ++ (dec (mantExp |x|).1 ++ ('e' :: (if (mantExp |x|).2 < 0 then '-' else '+') :: expText (mantExp |x|).2.natAbs))

/-- `name[left+1:right]` (lines 32-35): between the first and the last dollar, if there are two -/
def strip (l : Label) : Label :=
  if 2 ≤ l.count '$' then ((((l.dropWhile (· != '$')).drop 1).reverse.dropWhile (· != '$')).drop 1).reverse else l

/-- The regular expressions of lines 43 and 46 at the beginning of a text: the two groups -/
def matchAt (sign : Char) : Label → Option (Label × Label)
  | '$' :: l =>
    match l.dropWhile Char.isDigit with
    | 'e' :: s :: r =>
      if s = sign then
        some ((r.dropWhile (· == '0')).takeWhile Char.isDigit, ((r.dropWhile (· == '0')).dropWhile Char.isDigit).takeWhile (· != '\n'))
      else none
    | _ => none
  | _ => none

/-- `re.search` -/
def search (sign : Char) : Label → Option (Label × Label)
  | [] => none
  | c :: l =>
    match matchAt sign (c :: l) with
    | some r => some r
    | none => search sign l

/-- Line 48 -/
def power (sign : Char) (g : Label × Label) : Label := '$' :: '1' :: '0' :: '^' :: '{' :: sign :: (g.1 ++ '}' :: g.2)

/-- `format_scaled_param(name, number)` (lines 25-50); `none`: there is no match (`AttributeError`) -/
def format (name : Label) (number : ℚ) : Option Label :=
  if number = 1 then some name
  else if number < 1000 ∧ 1 < number then some ('$' :: (dec ⌊number⌋₊ ++ '~' :: (strip name ++ ['$'])))
  else
    match search '+' ('$' :: (sci number ++ (strip name ++ ['$']))) with
    | some g => some (power '+' g)
    | none =>
      match search '-' ('$' :: (sci number ++ (strip name ++ ['$']))) with
      | some g => some (power '-' g)
      | none => none

/-! ### The groups -/

/-- A dictionary of lists, in the order of insertion -/
abbrev Groups := List (String × List String)

/-- `d[key].append(v)` of a `defaultdict(list)` -/
def push : Groups → String → String → Groups
  | [], k, v => [(k, [v])]
  | p :: d, k, v => if p.1 = k then (p.1, p.2 ++ [v]) :: d else p :: push d k v

/-- `d[key]`, empty if there is none -/
def get : Groups → String → List String
  | [], _ => []
  | p :: d, k => if p.1 = k then p.2 else get d k

/-- Lines 318-327: the figures of the one-dimensional posteriors -/
def groups1 (free params to1 : List String) : Groups :=
  params.foldl (fun d n => if to1 = [] then push d (if n ∈ free then "free" else "constrained") n else if n ∈ to1 then push d "subset" n else d) []

/-- `itertools.combinations(keys, 2)` -/
def pairs {α : Type*} : List α → List (α × α)
  | [] => []
  | a :: l => l.map (fun b => (a, b)) ++ pairs l

/-- Lines 310-313, for one pair of groups -/
def pairGroup (params : List String) (d : Groups) (p : (String × List String) × (String × List String)) : Groups :=
  (p.1.2 ++ p.2.2).foldl (fun d k => if k ∈ params then push d (p.1.1 ++ "_vs_" ++ p.2.1) k else d) d

inductive Err where
  | type
  | value
  | attribute
  | zeroDivision

/-- Lines 300-315: the figures of the two-dimensional posteriors; `keys[0]` of a view of the keys is a `TypeError` -/
def groups2 (free params : List String) (to2 : Groups) : Except Err Groups :=
  if to2 = [] then .ok [("free", free)]
  else if to2.length = 1 then .error .type
  else .ok ((pairs to2).foldl (pairGroup params) [])

/-! ### The loop over the parameters -/

/-- A bound of a parameter -/
inductive Bound where
  | none
  | infinite
  | at (x : ℚ)

/-- Lines 331-334 -/
def Bound.finite : Bound → Option ℚ
  | .none => Option.none
  | .infinite => Option.none
  | .at x => some x

/-- What is known of a parameter after the loop (`ref_names`, `plot_tex_names`, `scales`, `boundaries`, `param_indices`) -/
structure Row where
  name : String
  label : Label
  scale : ℚ
  lower : Option ℚ
  upper : Option ℚ
  index : ℕ

/-- What is asked: the options `to_plot_1d`, `to_plot_2d`, `scales`, and the bounds -/
structure Ask where
  to1 : List String
  to2 : Groups
  scales : String → Option ℚ
  lower : String → Bound
  upper : String → Bound

/-- The scale of a parameter (lines 337-339) -/
def Ask.scale (a : Ask) (n : String) : ℚ := (a.scales n).getD 1

/-- `param_indices[name]` (lines 349-352) -/
def indexOf (free cons : List String) (n : String) : ℕ := if n ∈ free then free.idxOf n else free.length + cons.idxOf n

/-- The latex names; the dictionary is shared by all analyses of a process (`driver.py:49`, `analysis/__init__.py:1`) -/
abbrev Tex := String → Option Label

/-- Lines 318-352 for the parameters; the dictionary of the latex names is changed (line 344), also if there is an error -/
def rows (a : Ask) (free cons : List String) : Tex → List String → Except Err (List Row) × Tex
  | tex, [] => (.ok [], tex)
  | tex, n :: l =>
    match tex n with
    | none => (.error .value, tex)
    | some t =>
      if a.scale n = 0 then (.error .zeroDivision, tex)
      else
      match format t (1 / a.scale n) with
      | none => (.error .attribute, tex)
      | some t' =>
        match rows a free cons (Function.update tex n (some t')) l with
        | (.error e, tex') => (.error e, tex')
        | (.ok rs, tex') => (.ok (⟨n, t', a.scale n, (a.lower n).finite, (a.upper n).finite, indexOf free cons n⟩ :: rs), tex')

/-- The results -/
structure Out where
  rows : List Row
  plots1 : Groups
  plots2 : Groups

/-- `extract_parameter_names` from line 289 on, and the dictionary of the latex names after it -/
def extract (a : Ask) (free cons : List String) (tex : Tex) : Except Err Out × Tex :=
  match groups2 free (free ++ cons) a.to2 with
  | .error e => (.error e, tex)
  | .ok g2 =>
    match rows a free cons tex (free ++ cons) with
    | (.error e, tex') => (.error e, tex')
    | (.ok rs, tex') => (.ok ⟨rs, groups1 free (free ++ cons) a.to1, g2⟩, tex')

/-- Analyses one after the other in one process -/
def analyses : List (Ask × List String × List String) → Tex → List (Except Err Out) × Tex
  | [], tex => ([], tex)
  | (a, free, cons) :: l, tex =>
    match extract a free cons tex with
    | (r, tex') => match analyses l tex' with
      | (rs, tex'') => (r :: rs, tex'')

end Verif.PlotNames
