/-
The nonlinear biases: `NonlinearBiasingMixin` (`pyRSD/rsd/nonlinear_biasing.py`).

Simplifications: `nonlinear_bias_types` is the value of the six names only (the constructor puts nothing else in it, and `update_nonlinear_biasing` refuses other names); mutating that dict in
place is not modelled; `nonlinear_bias_fitter` is a given function of the bias for each name; the LRU caches of the two functions `b2_00_a` and `b2_01_a`, which do not change their values, are
left out (C09, C31 are about them).  `cache_override` is in `Model/Cache.lean`.
-/
import Mathlib.Data.Real.Basic
import Mathlib.Data.Fintype.Basic

namespace Verif.NlBias

/-- `nonlinear_biases` (`nonlinear_biasing.py:45`) -/
inductive Bias | a00 | b00 | c00 | d00 | a01 | b01
  deriving DecidableEq

/-- the names (`nonlinear_biasing.py:45`) -/
def Bias.name : Bias → String
  | .a00 => "b2_00_a" | .b00 => "b2_00_b" | .c00 => "b2_00_c" | .d00 => "b2_00_d" | .a01 => "b2_01_a" | .b01 => "b2_01_b"

/-- `kind + '_a'` (`nonlinear_biasing.py:22`) -/
def Bias.first : Bias → Bias
  | .a00 | .b00 | .c00 | .d00 => .a00
  | .a01 | .b01 => .a01

/-- all of them, in order -/
def allBiases : List Bias := [.a00, .b00, .c00, .d00, .a01, .b01]

/-- `t in self.nonlinear_biases`, and which it is (`nonlinear_biasing.py:27`) -/
def ofName (s : String) : Option Bias := allBiases.find? (fun b => b.name = s)

/-- the powers whose coefficients are parameters (`nonlinear_biasing.py:130-261`) -/
def Bias.powers : Bias → List ℕ
  | .a00 | .b00 | .c00 | .d00 => [4, 2, 0]
  | .a01 | .b01 => [2, 1, 0]

/-- errors -/
inductive Err | value | recursion
  deriving DecidableEq

/-- the values of `nonlinear_bias_types`; `none` is `None` or a missing key -/
abbrev Types := Bias → Option String

/-- a model: `nonlinear_bias_types`, the coefficient parameters, and `_cache` for the six properties -/
structure State where
  types : Types
  coef : Bias → ℕ → ℝ
  cache : Bias → Option (ℝ → ℝ)

/-- `numpy.poly1d(coeffs)`: highest power first -/
def poly1d (cs : List ℝ) (x : ℝ) : ℝ := cs.foldl (fun acc c => acc*x + c) 0

/-- the list `coeffs` of each property (`nonlinear_biasing.py:147,170,193,216,239,262`) -/
def coeffs (c : ℕ → ℝ) : Bias → List ℝ
  | .a00 | .b00 | .c00 | .d00 => [c 4, 0, c 2, 0, c 0]
  | .a01 | .b01 => [0, 0, c 2, c 1, c 0]

/-- what `_get_nonlinear_biasing_function` decides to do (`nonlinear_biasing.py:15-30`) -/
inductive Choice
  | fit
  | poly
  | attr (b : Bias)
  | fail

/-- the branches of `_get_nonlinear_biasing_function` (`nonlinear_biasing.py:17-30`) -/
def choose (t : Option String) (b : Bias) : Choice :=
  match t with
  | none => .fit
  | some s =>
    if s = b.name ∨ (s = "vlah" ∧ b.first = b) then .fit
    else if s = "vlah" then .attr b.first
    else if s = "poly" then .poly
    else match ofName s with
      | some b' => .attr b'
      | none => .fail

/-- reading one of the six cached properties (`_cache.py:279-295`, `nonlinear_biasing.py:142-263`); `fuel` bounds the depth of the calls, as Python's recursion limit does -/
def read (fits : Bias → ℝ → ℝ) : ℕ → Bias → State → Except Err ((ℝ → ℝ) × State)
  | 0, _, _ => .error .recursion
  | n+1, b, σ =>
    match σ.cache b with
    | some g => .ok (g, σ)
    | none =>
      match choose (σ.types b) b with
      | .fit => .ok (fits b, { σ with cache := Function.update σ.cache b (some (fits b)) })
      | .poly =>
        let g := poly1d (coeffs (σ.coef b) b)
        .ok (g, { σ with cache := Function.update σ.cache b (some g) })
      | .attr b' =>
        match read fits n b' σ with
        | .ok (g, σ') => .ok (g, { σ' with cache := Function.update σ'.cache b (some g) })
        | .error e => .error e
      | .fail => .error .value

open Classical in
/-- setting a coefficient parameter: only the property of that name depends on it (`nonlinear_biasing.py:142,165,188,211,234,257`, `_cache.py:221-238`); another name is a plain attribute -/
noncomputable def setCoef (b : Bias) (p : ℕ) (v : ℝ) (σ : State) : State :=
  if p ∈ b.powers then
    if v = σ.coef b p then σ
    else { σ with coef := Function.update σ.coef b (Function.update (σ.coef b) p v), cache := Function.update σ.cache b none }
  else σ

open Classical in
/-- setting `nonlinear_bias_types`: the six properties depend on it (`nonlinear_biasing.py:80-85`, `_cache.py:221-238`) -/
noncomputable def setTypes (t : Types) (σ : State) : State :=
  if t = σ.types then σ else { σ with types := t, cache := fun _ => none }

/-- `d[k] = v` for keyword arguments -/
def putAll (d : List (String × Option String)) (ks : List String) (v : Option String) : List (String × Option String) := d ++ ks.map fun k => (k, v)

/-- a key of a list of keyword arguments -/
def lookup (d : List (String × Option String)) (k : String) : Option (Option String) := (d.find? fun e => e.1 = k).map Prod.snd

/-- the last value set for a key: `x.update(**d)` -/
def lastOf (d : List (String × Option String)) (k : String) : Option (Option String) := lookup d.reverse k

/-- the dict `d` of `update_nonlinear_biasing` (`nonlinear_biasing.py:105-117`): it is copied before the shorthands are taken out of `kws` -/
def expand (kws : List (String × Option String)) : List (String × Option String) :=
  let d := kws
  let d := match lookup kws "b2_00" with
    | some v => putAll d ["b2_00_a", "b2_00_b", "b2_00_c", "b2_00_d"] v
    | none => d
  match lookup kws "b2_01" with
    | some v => putAll d ["b2_01_a", "b2_01_b"] v
    | none => d

/-- `update_nonlinear_biasing` (`nonlinear_biasing.py:101-125`) -/
noncomputable def update (kws : List (String × Option String)) (σ : State) : Except Err State :=
  if (expand kws).any (fun e => (ofName e.1).isNone) then .error .value
  else .ok (setTypes (fun b => (lastOf (expand kws) b.name).getD (σ.types b)) σ)

/-- the setter of `use_vlah_biasing` (`nonlinear_biasing.py:87-99`) -/
noncomputable def setVlah (v : Bool) (σ : State) : Except Err State :=
  update (allBiases.map fun b => (b.name, if v then some "vlah" else none)) σ

/-- `__init__` (`nonlinear_biasing.py:47-70`), from the coefficients of the data files, highest power first: `names[i]` is power `4 - i` -/
noncomputable def init (data : Bias → List ℝ) : State where
  types := fun _ => none
  coef := fun b p => if p ∈ b.powers then ((data b)[4 - p]?).getD 0 else 0
  cache := fun _ => none

/-- `nonlinear_bias_defaults` after `__init__` (`nonlinear_biasing.py:53-70`): it is created anew for each name -/
noncomputable def defaults (data : Bias → List ℝ) : List (String × ℝ) :=
  allBiases.foldl (fun _ b => ((data b).zipIdx.filterMap fun (d, i) => if 4 - i ∈ b.powers then some (b.name ++ "__" ++ toString (4 - i), d) else none)) []

/-- what a user can do -/
inductive Op
  | coef (b : Bias) (p : ℕ) (v : ℝ)
  | types (t : Types)
  | update (kws : List (String × Option String))
  | vlah (v : Bool)
  | read (b : Bias)

/-- one operation; an exception leaves the state as it was when it was raised -/
noncomputable def step (fits : Bias → ℝ → ℝ) (fuel : ℕ) (σ : State) : Op → State
  | .coef b p v => setCoef b p v σ
  | .types t => setTypes t σ
  | .update kws => match NlBias.update kws σ with | .ok σ' => σ' | .error _ => σ
  | .vlah v => match setVlah v σ with | .ok σ' => σ' | .error _ => σ
  | .read b => match NlBias.read fits fuel b σ with | .ok (_, σ') => σ' | .error _ => σ

/-- a history -/
noncomputable def run (fits : Bias → ℝ → ℝ) (fuel : ℕ) (σ : State) (ops : List Op) : State := ops.foldl (step fits fuel) σ

end Verif.NlBias
