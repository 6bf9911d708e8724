import Mathlib.Data.List.DropRight
import Mathlib.Data.List.Sort
import Mathlib.Data.List.Lex
import Verif.Model.ReplaceVars
/-!
Model of the parameter files: `ParameterSet.from_file` and `ParameterSet.to_file`
(`pyRSD/rsdfit/parameters/parameterset.py:104-273`), the construction and the dictionary of a `Parameter`
(`pyRSD/rsdfit/parameters/parameter.py:83-136, 142-154, 485-510`), the merging of a file into the defaults
(`pyRSD/rsdfit/theory/base.py:196-241`) and the file of a whole run (`pyRSD/rsdfit/driver.py:496-510`,
`pyRSD/rsdfit/theory/base.py:494-514`).

Texts are lists of characters; a file is its text.  Python itself is a parameter of the model (`Python`): how values are
printed (`str`, `repr`), which text evaluates to which value, what a `dict` is, and how values compare.
-/
namespace Verif.PFile

/-- Texts. -/
abbrev Txt := List Char

/-- What can be raised. -/
inductive Err where
  | lonely      -- `tools.py:159` ValueError("Error reading parameter ...")
  | fields      -- `tools.py:161` ValueError("Cannot understand line ...")
  | bad         -- `parameterset.py:171, 179` the text of a value cannot be evaluated
  | var         -- an exception of `replace_vars`
  | kwargs      -- an exception of `Parameter(**v)`
  | key         -- KeyError of `lmfit.Parameters.__setitem__`: not a name
  deriving DecidableEq, Repr

/-- The part of Python that is used, as a parameter of the model. -/
structure Python where
  /-- objects -/
  Val : Type
  /-- `None`, `False`, `-inf`, `+inf` -/
  none : Val
  ff : Val
  ninf : Val
  pinf : Val
  /-- a string object -/
  ofTxt : Txt → Val
  /-- `str(v)`, `repr(v)` -/
  str : Val → Txt
  repr : Val → Txt
  /-- `eval(text, ..., D)`; `Option.none` is an exception -/
  eval : (Txt → Option Val) → Txt → Option Val
  /-- the items, if the object is a `dict` -/
  items : Val → Option (List (Txt × Val))
  /-- the dictionary with these items -/
  mkDict : List (Txt × Val) → Val
  /-- `a > b` -/
  gt : Val → Val → Bool
  /-- `np.isfinite` -/
  finite : Val → Bool
  /-- is a string with `$` in it -/
  dollar : Val → Bool
  /-- `lmfit`'s test of names -/
  validName : Txt → Bool
  /-- one of the names of priors, or `None` -/
  priorOk : Val → Bool
  dec : DecidableEq Val

attribute [instance] Python.dec

/-- Characters removed by `str.strip` (ASCII; simplification: the further Unicode spaces are not in the model). -/
def ws (c : Char) : Bool :=
  c ∈ [' ', '\t', '\n', '\r', Char.ofNat 11, Char.ofNat 12, Char.ofNat 28, Char.ofNat 29, Char.ofNat 30, Char.ofNat 31]

/-- `str.strip()`. -/
def strip (s : Txt) : Txt := (s.dropWhile ws).rdropWhile ws

/-- Assignment to a key of an ordered `dict`. -/
def dset {V : Type} (l : List (Txt × V)) (k : Txt) (v : V) : List (Txt × V) :=
  if k ∈ l.map Prod.fst then l.map (fun p => if p.1 = k then (k, v) else p) else l ++ [(k, v)]

/-- Reading a key of a `dict`. -/
def dget {V : Type} (l : List (Txt × V)) (k : Txt) : Option V := (l.find? (·.1 = k)).map Prod.snd

/-- The variables of the loop over the lines: `D`, `orig`, `old` (`parameterset.py:129-131`). -/
structure Reading (py : Python) where
  D : List (Txt × py.Val)
  orig : List (Txt × py.Val)
  old : Txt

/-- The assignment of a line with key `k` and text of the value `t` (`parameterset.py:160-181`).  The modules imported for
the evaluation are part of `Python.eval`. -/
def assign (py : Python) (env : Txt → Option Txt) (s : Reading py) (k t : Txt) : Except Err (Reading py) :=
  if '$' ∈ t then
    match py.eval (fun _ => Option.none) t with                               -- line 168
    | Option.none => .error .bad
    | some o =>
      match Vars.replaceVars (fun v => (dget s.D v).map py.str) env t with    -- line 169
      | .error _ => .error .var
      | .ok t' =>
        match py.eval (dget s.D) (strip t') with                              -- line 176
        | Option.none => .error .bad
        | some v => .ok { s with D := dset s.D k v, orig := dset s.orig k o } -- line 180
  else
    match py.eval (dget s.D) (strip t) with
    | Option.none => .error .bad
    | some v => .ok { s with D := dset s.D k v }

/-- One line (`parameterset.py:133-181`). -/
def readLine (py : Python) (env : Txt → Option Txt) (s : Reading py) (raw : Txt) : Except Err (Reading py) :=
  let line := strip raw                                                       -- line 134
  if line = [] ∨ line.head? = some '#' then .ok s                             -- lines 135-136
  else
    let line := line.takeWhile (· != '#')                                     -- lines 137-138
    let head := line.takeWhile (· != '\\')                                    -- line 139
    if '\\' ∈ line then .ok { s with old := s.old ++ ' ' :: head }            -- lines 140-142
    else
      let line := s.old ++ ' ' :: line                                        -- line 144
      let s := { s with old := [] }                                           -- line 145
      match line.splitOn '=' with                                             -- lines 146-151 (both ends are stripped)
      | [] => .ok s
      | k :: rest =>
        if strip k = [] then .ok s                                            -- `tools.py:156-157`
        else
          match rest with
          | [] => .error .lonely
          | [t] => assign py env s (strip k) (strip t)
          | _ => .error .fields

/-- The loop over the lines. -/
def readLines (py : Python) (env : Txt → Option Txt) : List Txt → Reading py → Except Err (Reading py)
  | [], s => .ok s
  | l :: ls, s =>
    match readLine py env s l with
    | .error e => .error e
    | .ok s' => readLines py env ls s'

/-- A `Parameter` (`parameter.py:83-136`); the description is not in the model, as it is not written to files.
`output` is `_output_value`. -/
structure Par (py : Python) where
  name : Txt
  value : py.Val
  output : Option py.Val
  vary : py.Val
  min : py.Val
  max : py.Val
  expr : py.Val
  fiducial : py.Val
  prior : py.Val
  lower : py.Val
  upper : py.Val
  mu : py.Val
  sigma : py.Val
  analytic : py.Val

/-- `Parameter.valid_keys` (`parameter.py:79-81`). -/
def validKeys : List Txt :=
  ["name".toList, "value".toList, "vary".toList, "min".toList, "max".toList, "expr".toList, "description".toList,
   "fiducial".toList, "prior_name".toList, "prior".toList, "lower".toList, "upper".toList, "mu".toList, "sigma".toList,
   "analytic".toList]

/-- `_init_bounds` (`parameter.py:141-153`), on the value. -/
def clamp (py : Python) (v mn mx expr : py.Val) : py.Val :=
  if v ≠ py.none then
    let v := if mx ≠ py.none ∧ py.gt v mx then mx else v
    if mn ≠ py.none ∧ py.gt mn v then mn else v
  else if mn ≠ py.none ∧ expr = py.none then mn
  else if mx ≠ py.none ∧ expr = py.none then mx
  else v

/-- `Parameter(**kws)` (`parameter.py:83-136`); unknown keywords do not occur (`from_file` checks).  `None` bounds become
infinite (`setup_bounds` of `lmfit`). -/
def Par.make (py : Python) (kws : List (Txt × py.Val)) : Except Err (Par py) :=
  let get := fun k : String => (dget kws k.toList).getD py.none
  let value := if get "value" = py.none then get "fiducial" else get "value"
  let value := clamp py value (get "min") (get "max") (get "expr")
  let prior := (dget kws "prior".toList).getD (get "prior_name")
  if py.priorOk prior then
    .ok { name := [], value := value, output := Option.none, vary := (dget kws "vary".toList).getD py.ff,
          min := if get "min" = py.none then py.ninf else get "min",
          max := if get "max" = py.none then py.pinf else get "max",
          expr := get "expr", fiducial := get "fiducial", prior := prior, lower := get "lower", upper := get "upper",
          mu := get "mu", sigma := get "sigma", analytic := (dget kws "analytic".toList).getD py.ff }
  else .error .kwargs

/-- `Parameter(**v)` for a dictionary of attributes, else `Parameter(value=v)` (`parameterset.py:186-189`). -/
def payload (py : Python) (v : py.Val) : Except Err (Par py) :=
  match py.items v with
  | some its => if its.all (fun kv => decide (kv.1 ∈ validKeys)) then Par.make py its
                else Par.make py [("value".toList, v)]
  | Option.none => Par.make py [("value".toList, v)]

/-- The parameter made of an evaluated line (`parameterset.py:185-196`). -/
def build (py : Python) (orig : List (Txt × py.Val)) (k : Txt) (v : py.Val) : Except Err (Par py) :=
  match payload py v with
  | .error e => .error e
  | .ok p => .ok { p with name := k, output := dget orig k }

/-- The first occurrence of `pat`: the text before and the text after it. -/
def cut (pat : Txt) : Txt → Option (Txt × Txt)
  | [] => if pat = [] then some ([], []) else Option.none
  | c :: r =>
    if pat.isPrefixOf (c :: r) then some ([], (c :: r).drop pat.length)
    else (cut pat r).map (fun ab => (c :: ab.1, ab.2))

/-- The test for a tag (`parameterset.py:201-210`): `k.rsplit(tag + '.')` has two parts; the second one is the name. -/
def matchTag (tag k : Txt) : Option Txt :=
  match cut (tag ++ ['.']) k with
  | Option.none => Option.none
  | some (_, b) =>
    match cut (tag ++ ['.']) b with
    | Option.none => some (strip b)
    | some _ => Option.none

/-- A set of parameters in its order. -/
abbrev Params (py : Python) := List (Txt × Par py)

/-- The loop that makes the output (`parameterset.py:185-223`), for one tag or none. -/
def collect (py : Python) (tag : Option Txt) (orig : List (Txt × py.Val)) :
    List (Txt × py.Val) → Params py → Except Err (Params py)
  | [], out => .ok out
  | (k, v) :: r, out =>
    match build py orig k v with
    | .error e => .error e
    | .ok p =>
      match tag with
      | some t =>
        match matchTag t k with
        | Option.none => collect py tag orig r out
        | some n =>
          if py.validName n then collect py tag orig r (dset out n { p with name := n })
          else .error .key
      | Option.none =>
        let n := k.map (fun c => if c = '.' then '_' else c)
        if py.validName n then collect py tag orig r (dset out n { p with name := n })
        else collect py tag orig r out

/-- `ParameterSet.from_file(filename, tags)` for at most one tag, on the text of the file. -/
def fromFile (py : Python) (env : Txt → Option Txt) (tag : Option Txt) (file : Txt) : Except Err (Params py) :=
  match readLines py env (file.splitOn '\n') ⟨[], [], []⟩ with
  | .error e => .error e
  | .ok s => collect py tag s.orig s.D []

/-- `Parameter.to_dict` (`parameter.py:485-507`); with `output` the value is that for output. -/
def Par.toDict {py : Python} (p : Par py) (output : Bool) : List (Txt × py.Val) :=
  let val := if output then p.output.getD p.value else p.value
  let all : List (String × py.Val) :=
    [("name", py.ofTxt p.name), ("value", val), ("vary", p.vary), ("min", p.min), ("max", p.max), ("expr", p.expr),
     ("fiducial", p.fiducial), ("prior_name", p.prior), ("lower", p.lower), ("upper", p.upper), ("mu", p.mu),
     ("sigma", p.sigma), ("analytic", p.analytic)]
  (all.filter (fun kv => decide (kv.2 ≠ py.none) &&
      (!(decide (kv.1 = "min") || decide (kv.1 = "max")) || py.finite kv.2))).map (fun kv => (kv.1.toList, kv.2))

/-- The order of names. -/
def nameLe (a b : Txt) : Bool := decide (a.map Char.toNat ≤ b.map Char.toNat)

/-- `sorted(self.items())`: the names are different, so only they are compared. -/
def sorted {py : Python} (ps : Params py) : Params py := ps.mergeSort (fun a b => nameLe a.1 b.1)

/-- The text of one parameter (`parameterset.py:260-268`). -/
def entry {py : Python} (asDict : Bool) (tag : Txt) (np : Txt × Par py) : Txt :=
  tag ++ '.' :: np.1 ++ " = ".toList ++
    (if asDict then py.repr (py.mkDict (np.2.toDict true)) else py.repr (np.2.output.getD np.2.value))

/-- `"\n".join(...)`. -/
def joinLines (ls : List Txt) : Txt := List.intercalate ['\n'] ls

/-- The line of dashes. -/
def rule : Txt := '#' :: List.replicate 79 '-'

/-- What `to_file` writes, with header and footer (`parameterset.py:250-273`); the dictionary of a parameter is never
empty, as it has a name. -/
def section_ {py : Python} (hdr : Txt) (asDict : Bool) (tag : Txt) (ps : Params py) : Txt :=
  rule ++ '\n' :: "# ".toList ++ hdr ++ '\n' :: rule ++ '\n' ::
    joinLines ((sorted ps).map (entry asDict tag)) ++ '\n' :: rule ++ "\n\n".toList

/-- The lines of the further parameters (`theory/base.py:502-510`); `extras` are their names and descriptions. -/
def extraSection (extras : List (Txt × Txt)) : Txt :=
  joinLines (extras.map (fun nd => "theory_extra.".toList ++ nd.1 ++ " =  '".toList ++ nd.2 ++ ['\''])) ++ "\n\n".toList

/-- The parameters of a run: driver, data, theory (fit parameters), further names, model. -/
structure Run (py : Python) where
  driver : Params py
  data : Params py
  theory : Params py
  extras : List (Txt × Txt)
  model : Params py

/-- `FittingDriver.to_file` (`driver.py:496-510`, `power_measurement.py:990-1003`, `theory/base.py:494-514`). -/
def Run.text {py : Python} (r : Run py) : Txt :=
  section_ "driver_params".toList false "driver".toList r.driver ++
  section_ "data params".toList false "data".toList r.data ++
  section_ "theory params".toList true "theory".toList r.theory ++
  extraSection r.extras ++
  section_ "model params".toList false "model".toList r.model

/-- `setattr(par, key, val)` of `update_param` (`parameterset.py:391-409`) for the keys of `to_dict`; setting the value goes
through `value.setter` (`parameter.py:252-258`), which notes texts with `$` for output (the value is then the text with
the variables replaced: `subst`). -/
def Par.setAttr {py : Python} (subst : py.Val → py.Val) (p : Par py) (k : Txt) (v : py.Val) : Par py :=
  if k = "value".toList then
    if py.dollar v then { p with output := some v, value := subst v } else { p with value := v }
  else if k = "vary".toList then { p with vary := v }
  else if k = "min".toList then { p with min := v }
  else if k = "max".toList then { p with max := v }
  else if k = "expr".toList then { p with expr := v }
  else if k = "fiducial".toList then { p with fiducial := v }
  else if k = "prior_name".toList then { p with prior := v }
  else if k = "lower".toList then { p with lower := v }
  else if k = "upper".toList then { p with upper := v }
  else if k = "mu".toList then { p with mu := v }
  else if k = "sigma".toList then { p with sigma := v }
  else if k = "analytic".toList then { p with analytic := v }
  else p

/-- `params.add(**fromfile[name].to_dict())` for a name among the defaults (`theory/base.py:222`). -/
def Par.merge {py : Python} (subst : py.Val → py.Val) (dflt file : Par py) : Par py :=
  (file.toDict false).foldl (fun p kv => p.setAttr subst kv.1 kv.2) dflt

end Verif.PFile
