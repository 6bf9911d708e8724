/-
The classes of default parameters: the metaclass `Schema` of `pyRSD/rsdfit/theory/base.py`, and the quasar model of `pyRSD/rsdfit/theory/qso_defaults.py`.

Real numbers in place of doubles: a division by zero and a power of a negative number have a value here, where Python raises an exception or gives a complex number; the theorems ask for positive dilations where it matters.
-/
import Verif.Model.Params
import Mathlib.Analysis.SpecialFunctions.Pow.Real

namespace Verif.Params

/-- what an entry of the class is: made by `@free`, made by `@fixed`, or anything else (`base.py:60-116`) -/
inductive AttrKind where
  | free
  | fixed
  | other
  deriving DecidableEq

/-- an entry of the dictionary of the class -/
structure Attr where
  name : String
  kind : AttrKind
  modelParam : Bool := true
  deprecated : Bool := false

/-- the sets that `Schema.__init__` attaches to the class (`base.py:33-57`), as lists -/
structure Registry where
  free : List String
  fixed : List String
  modelParams : List String
  extraParams : List String
  deprecated : List String

/-- one pass of the loop (`base.py:43-57`) -/
def Registry.add (r : Registry) (a : Attr) : Registry :=
  match a.kind with
  | .other => r
  | .free =>
    if a.deprecated then { r with deprecated := a.name :: r.deprecated }
    else if a.modelParam then { r with free := a.name :: r.free, modelParams := a.name :: r.modelParams }
    else { r with free := a.name :: r.free, extraParams := a.name :: r.extraParams }
  | .fixed =>
    if a.deprecated then { r with deprecated := a.name :: r.deprecated }
    else if a.modelParam then { r with fixed := a.name :: r.fixed, modelParams := a.name :: r.modelParams }
    else { r with fixed := a.name :: r.fixed, extraParams := a.name :: r.extraParams }

/-- `Schema.__init__` (`base.py:33-57`) -/
def schema (attrs : List Attr) : Registry := attrs.foldl Registry.add ⟨[], [], [], [], []⟩

/-- `sorted` of a list of names -/
def sortNames (l : List String) : List String := l.mergeSort fun a b => decide (a ≤ b)

/-- `__iter__` (`qso_defaults.py:48-51`): the names; the sets of the free and of the fixed have no common element -/
def Registry.iter (r : Registry) : List String := sortNames (r.free ++ r.fixed)

/-- `model_params` (`qso_defaults.py:30-32`) -/
def Registry.modelParamsSorted (r : Registry) : List String := sortNames r.modelParams

/-- `__contains__` (`qso_defaults.py:45-46`) -/
def Registry.contains (r : Registry) (name : String) : Bool := decide (name ∈ r.modelParams ∨ name ∈ r.extraParams)

/-- the entries of `DefaultQuasarPowerTheory` (`qso_defaults.py:4-164`), of which those that are no parameters are `model_kwargs` and the methods of lines 30-59 -/
def qsoAttrs : List Attr :=
  [⟨"model_kwargs", .other, true, false⟩, ⟨"model_params", .other, true, false⟩, ⟨"deprecated", .other, true, false⟩, ⟨"extra_params", .other, true, false⟩,
   ⟨"iterfree", .other, true, false⟩, ⟨"iterfixed", .other, true, false⟩,
   ⟨"sigma8_z", .free, true, false⟩,       -- line 61
   ⟨"f", .free, true, false⟩,              -- line 68
   ⟨"alpha_perp", .free, true, false⟩,     -- line 75
   ⟨"alpha_par", .free, true, false⟩,      -- line 82
   ⟨"alpha_drag", .fixed, true, false⟩,    -- line 89
   ⟨"b1", .free, true, false⟩,             -- line 96
   ⟨"sigma_fog", .free, true, false⟩,      -- line 103
   ⟨"f_nl", .free, true, false⟩,           -- line 110
   ⟨"N", .fixed, true, false⟩,             -- line 117
   ⟨"p", .fixed, true, false⟩,             -- line 124
   ⟨"fsigma8", .fixed, false, false⟩,      -- line 131
   ⟨"b1sigma8", .fixed, false, false⟩,     -- line 138
   ⟨"F_AP", .fixed, false, false⟩,         -- line 145
   ⟨"alpha", .fixed, false, false⟩,        -- line 152
   ⟨"epsilon", .fixed, false, false⟩]      -- line 159

/-- The parameters of `DefaultQuasarPowerTheory` (`qso_defaults.py:61-164`). -/
inductive Qso where
  | F_AP | N | alpha | alpha_drag | alpha_par | alpha_perp | b1 | b1sigma8 | epsilon | f | f_nl | fsigma8 | p | sigma8_z | sigma_fog
  deriving DecidableEq, Repr

open Qso

/-- the name in Python -/
def Qso.str : Qso → String
  | F_AP => "F_AP" | N => "N" | alpha => "alpha" | alpha_drag => "alpha_drag" | alpha_par => "alpha_par" | alpha_perp => "alpha_perp" | b1 => "b1" | b1sigma8 => "b1sigma8"
  | epsilon => "epsilon" | f => "f" | f_nl => "f_nl" | fsigma8 => "fsigma8" | p => "p" | sigma8_z => "sigma8_z" | sigma_fog => "sigma_fog"

/-- the parameters in the order of the dictionary (`qso_defaults.py:48-51`, `theory/base.py:170`) -/
def qsoNames : List Qso := [F_AP, N, alpha, alpha_drag, alpha_par, alpha_perp, b1, b1sigma8, epsilon, f, f_nl, fsigma8, p, sigma8_z, sigma_fog]

/-- the parameters that are passed to the model (`qso_defaults.py:30-32`) -/
def qsoModelParams : List Qso := [N, alpha_drag, alpha_par, alpha_perp, b1, f, f_nl, p, sigma8_z, sigma_fog]

noncomputable section

/-- The constraint expressions (`qso_defaults.py:131-164`). -/
def qsoExpr : Qso → Option (Expr Qso ℝ)
  | fsigma8 => some ⟨[f, sigma8_z], fun | [x, s] => x*s | _ => 0⟩                                              -- line 136
  | b1sigma8 => some ⟨[b1, sigma8_z], fun | [b, s] => b*s | _ => 0⟩                                            -- line 143
  | F_AP => some ⟨[alpha_par, alpha_perp], fun | [a, b] => a/b | _ => 0⟩                                       -- line 150
  | alpha => some ⟨[alpha_perp, alpha_par], fun | [a, b] => (a^2*b)^((1:ℝ)/3) | _ => 0⟩                        -- line 157
  | epsilon => some ⟨[alpha_perp, alpha_par], fun | [a, b] => (a/b)^(-(1:ℝ)/3) - 1 | _ => 0⟩                   -- line 164
  | _ => none

/-- the values, and the ends of the uniform priors of those that have one (`qso_defaults.py:61-129`) -/
def qsoFiducial : Qso → ℝ × Option (ℝ × ℝ)
  | sigma8_z => (0.61, some (0.3, 0.9))
  | f => (0.78, some (0.6, 1.0))
  | alpha_perp => (1.00, some (0.8, 1.2))
  | alpha_par => (1.00, some (0.8, 1.2))
  | alpha_drag => (1.00, none)
  | b1 => (2.0, some (1.2, 6.0))
  | sigma_fog => (4, some (0, 20))
  | f_nl => (0, some (-500, 500))
  | N => (0, some (-500, 500))
  | p => (1.6, none)
  | _ => (0, none)     -- constrained: no value of its own

/-- which vary, the values and the bounds may be changed by a parameter file -/
def qsoSys (vary : Qso → Bool) (clamp : Qso → ℝ → ℝ) : Sys Qso ℝ :=
  { names := qsoNames, expr := qsoExpr, vary := vary, clamp := clamp }

end

end Verif.Params
