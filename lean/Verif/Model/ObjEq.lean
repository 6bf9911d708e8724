/-
Model of `obj_eq` (`pyRSD/rsd/_cache.py:194-210`) on the values a model parameter holds.
-/
namespace Verif.Cache

/-- Parameter values: `None`, a Python/numpy scalar number, a one-dimensional numeric array, a string.
Simplification: exact rationals instead of floats; NaN/inf and multi-dimensional arrays are not modelled. -/
inductive Val where
  | none
  | scalar (q : Rat)
  | array (l : List Rat)
  | str (s : String)
  deriving DecidableEq, Repr

/-- `numpy.allclose(new, old)` for one element, default tolerances rtol = 1e-5, atol = 1e-8. -/
def closeTo (new old : Rat) : Bool := decide ((new - old).abs ≤ 1 / 100000000 + 1 / 100000 * old.abs)

/-- `obj_eq(new_val, old_val)` (`_cache.py:194-210`): `None` as old value is never equal; two scalars (strings are
scalars for `numpy.isscalar`) are compared with `==`; otherwise `allclose` with broadcasting of scalars and length-1
arrays; when `allclose` raises (strings, `None`, shape mismatch) the fallback `new == old` of line 207 either compares or
itself raises/returns an array (then the outer `except` gives `False`; an elementwise comparison of different shapes
is falsy). -/
def objEq : Val → Val → Bool
  | _, .none => false
  | .scalar a, .scalar b => decide (a = b)
  | .str a, .str b => decide (a = b)
  | .array a, .array b =>
    if a.length = b.length then (a.zip b).all (fun e => closeTo e.1 e.2)
    else match a, b with
      | [x], _ => b.all (fun y => closeTo x y)
      | _, [y] => a.all (fun x => closeTo x y)
      | _, _ => false
  | .array a, .scalar y => a.all (fun x => closeTo x y)
  | .scalar x, .array b => b.all (fun y => closeTo x y)
  | _, _ => false

end Verif.Cache
