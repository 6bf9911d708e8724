import Mathlib.Data.Real.Basic

/-!
# Setting the model of a fit

`BasePowerTheory.__init__` and its `model` setter (`pyRSD/rsdfit/theory/base.py:377-428, 450-494`), its gradient
(`base.py:598-607`), `DarkMatterSpectrum.update` (`pyRSD/rsd/power/dm/power_dm.py:737-746`), and what the parameters
of the fit keep of the model (`base.py:150-182, 214-220, 296-304`).

Simplifications: the objects of a Python process are a list and a reference is a place in it; the attributes of a
model are a function from names to values, and whether a setter takes a value depends on the class, the name and the value only;
`set_free_parameters` is its effect when the values are accepted (the list of the new values of all the fit parameters);
what the parameters are is `Params`, and what makes the values of constrained ones is not here, only the model they ask.
-/

namespace Verif.SetModel

noncomputable section

open Classical

/-- The errors -/
inductive Err
  | configuration | value | type | runtime | missing
  deriving DecidableEq

/-- The value of an option: a number, `None`, or anything else -/
inductive V
  | num (x : ℝ)
  | none
  | other (n : ℕ)

/-- A model: its class and its attributes -/
structure Obj (Cls : Type) where
  cls : Cls
  attr : String → V

variable {Cls : Type}

/-- `setattr(self, k, v)` -/
def Obj.set (o : Obj Cls) (k : String) (v : V) : Obj Cls := { o with attr := fun k' => if k' = k then v else o.attr k' }

/-- `DarkMatterSpectrum.update` (`power_dm.py:737-746`): the attributes in the order of the keywords; the first that is refused ends
it, and what was set before stays. -/
def Obj.update (accepts : Cls → String → V → Bool) (o : Obj Cls) : List (String × V) → Obj Cls × Option Err
  | [] => (o, Option.none)
  | (k, v) :: l => if accepts o.cls k v then Obj.update accepts (o.set k v) l else (o, some .runtime)

/-- The keyword `k` of a dictionary -/
def look (k : String) : List (String × V) → Option V
  | [] => Option.none
  | (k', v) :: l => if k' = k then some v else look k l

/-- `kwargs[k] = v` (a keyword that is there keeps its place) -/
def put (k : String) (v : V) : List (String × V) → List (String × V)
  | [] => [(k, v)]
  | (k', v') :: l => if k' = k then (k, v) :: l else (k', v') :: put k v l

/-- What there is besides the theory: the classes and the files -/
structure Env (Cls : Type) where
  /-- `model_cls` -/
  own : Cls
  /-- `isinstance(x, model_cls)`, for an `x` of the class -/
  isa : Cls → Bool
  /-- whether the setter takes the value -/
  accepts : Cls → String → V → Bool
  /-- what a new model has when nothing is said -/
  defaults : String → V
  /-- `rsd_io.load_model` (`rsd_io.py:52-67`) -/
  load : String → Except Err (Obj Cls)

/-- What a theory is made with (`base.py:396-406`) -/
structure Given where
  /-- `model_params`: the options of the parameter file -/
  params : List (String × V)
  /-- `self.kmin` -/
  kmin : Option ℝ
  /-- `self.kmax` -/
  kmax : Option ℝ

/-- A theory; `none` for an attribute that is not there yet -/
structure Theory where
  /-- `_model` -/
  model : Option ℕ
  /-- `fit_params.model` -/
  fitModel : Option ℕ
  /-- the model whose `sigmav_from_bias` the constraints ask (`base.py:180, 219`) -/
  asked : Option ℕ
  /-- the model of `_pkmu_gradient` -/
  grad : Option ℕ

/-- What is given to the setter: `None`, the name of a file, an object, anything else -/
inductive Value
  | none
  | file (path : String)
  | inst (r : ℕ)
  | other

/-- Lines 463-465: `if self.kmin < kwargs.get('kmin', np.inf): kwargs['kmin'] = self.kmin` -/
def lower (x : Option ℝ) (kw : List (String × V)) : Except Err (List (String × V)) :=
  match x with
  | Option.none => .ok kw
  | some x =>
    match look "kmin" kw with
    | Option.none => .ok (put "kmin" (.num x) kw)
    | some (.num y) => .ok (if x < y then put "kmin" (.num x) kw else kw)
    | some _ => .error .type

/-- Lines 466-468: the same for the largest `k` -/
def upper (x : Option ℝ) (kw : List (String × V)) : Except Err (List (String × V)) :=
  match x with
  | Option.none => .ok kw
  | some x =>
    match look "kmax" kw with
    | Option.none => .ok (put "kmax" (.num x) kw)
    | some (.num y) => .ok (if y < x then put "kmax" (.num x) kw else kw)
    | some _ => .error .type

/-- Lines 461-468: the keywords for the model -/
def kwargs (g : Given) : Except Err (List (String × V)) :=
  match lower g.kmin g.params with
  | .error e => .error e
  | .ok kw => upper g.kmax kw

/-- Line 471: `self._model_cls(**kwargs)` -/
def construct (E : Env Cls) (kw : List (String × V)) : Except Err (Obj Cls) :=
  match Obj.update E.accepts ⟨E.own, E.defaults⟩ kw with
  | (o, Option.none) => .ok o
  | (_, some e) => .error e

/-- Lines 482-489: the class of what is there now, and the model of the fit parameters -/
def finish (E : Env Cls) (h : List (Obj Cls)) (t : Theory) : Theory × Option Err :=
  match t.model.bind (h[·]?) with
  | Option.none => (t, some .value)
  | some o =>
    if E.isa o.cls then (if t.fitModel.isSome then { t with fitModel := t.model } else t, Option.none)
    else (t, some .value)

/-- `update(**kwargs)` of what was just assigned (lines 473-478) -/
def assignUpdate (E : Env Cls) (kw : List (String × V)) (h : List (Obj Cls)) (t : Theory) (r : ℕ) (o : Obj Cls) :
    List (Obj Cls) × Theory × Option Err :=
  match Obj.update E.accepts o kw with
  | (o', some e) => (h.set r o', { t with model := some r }, some e)
  | (o', Option.none) => (h.set r o', finish E (h.set r o') { t with model := some r })

/-- The `model` setter (`base.py:454-489`): the objects, the theory, and the error that is raised -/
def setModel (E : Env Cls) (g : Given) (h : List (Obj Cls)) (t : Theory) (v : Value) : List (Obj Cls) × Theory × Option Err :=
  match kwargs g with
  | .error e => (h, t, some e)
  | .ok kw =>
    match v with
    | .none =>
      match construct E kw with
      | .error e => (h, t, some e)
      | .ok o => (h ++ [o], finish E (h ++ [o]) { t with model := some h.length })
    | .file p =>
      match E.load p with
      | .error e => (h, t, some e)
      | .ok o => assignUpdate E kw (h ++ [o]) t h.length o
    | .inst r =>
      match h[r]? with
      | Option.none => (h, t, some .configuration)
      | some o => if E.isa o.cls then assignUpdate E kw h t r o else (h, t, some .configuration)
    | .other => (h, t, some .configuration)

/-- `BasePowerTheory.__init__` (`base.py:396-428`): the model, then the parameters of the fit, made with that model -/
def create (E : Env Cls) (g : Given) (h : List (Obj Cls)) (v : Value) : List (Obj Cls) × Except Err Theory :=
  match setModel E g h ⟨Option.none, Option.none, Option.none, Option.none⟩ v with
  | (h', _, some e) => (h', .error e)
  | (h', t, Option.none) => (h', .ok { t with fitModel := t.model, asked := t.model })

/-- `set_free_parameters`, when the values are accepted: the model of the fit parameters gets all of them (`base.py:296-304`) -/
def setFree (E : Env Cls) (h : List (Obj Cls)) (t : Theory) (fit : List (String × V)) : List (Obj Cls) × Option Err :=
  match t.fitModel with
  | Option.none => (h, some .runtime)
  | some r =>
    match h[r]? with
    | Option.none => (h, some .runtime)
    | some o => (h.set r (Obj.update E.accepts o fit).1, (Obj.update E.accepts o fit).2)

/-- The model of a prediction (`base.py:680-692`: `self.model` when it is asked) -/
def predictor (h : List (Obj Cls)) (t : Theory) : Option (Obj Cls) := t.model.bind (h[·]?)

/-- `pkmu_gradient` (`base.py:598-607`) -/
def useGradient (t : Theory) : Theory := if t.grad.isSome then t else { t with grad := t.model }

/-- The model of a gradient -/
def gradientOf (h : List (Obj Cls)) (t : Theory) : Option (Obj Cls) := (useGradient t).grad.bind (h[·]?)

/-- The model which the constraints ask for velocity dispersions -/
def askedOf (h : List (Obj Cls)) (t : Theory) : Option (Obj Cls) := t.asked.bind (h[·]?)

/-- What can happen to a theory -/
inductive Op
  | setModel (v : Value)
  | setFree (fit : List (String × V))
  | gradient

/-- One of them -/
def step (E : Env Cls) (g : Given) (s : List (Obj Cls) × Theory) : Op → List (Obj Cls) × Theory
  | .setModel v => ((setModel E g s.1 s.2 v).1, (setModel E g s.1 s.2 v).2.1)
  | .setFree fit => ((setFree E s.1 s.2 fit).1, s.2)
  | .gradient => (s.1, useGradient s.2)

/-- Some of them, one after the other -/
def run (E : Env Cls) (g : Given) (s : List (Obj Cls) × Theory) (l : List Op) : List (Obj Cls) × Theory := l.foldl (step E g) s

end

end Verif.SetModel
