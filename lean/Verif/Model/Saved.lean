/-
Saving and loading a model object: `DarkMatterSpectrum.__getstate__` (`pyRSD/rsd/power/dm/power_dm.py:142-152`), `BiasedSpectrum.__getstate__` (`pyRSD/rsd/power/biased/power_biased.py:63-68`),
`to_npy` and `from_npy` (`power_dm.py:720-731`), on the model of the parameter framework.
-/
import Verif.Model.Cache

namespace Verif.Cache

variable {N V : Type} [DecidableEq N]

/-- `for k in list(self._cache): if hasattr(self._cache[k], 'cache_info'): d['_cache'].pop(k)` (`power_dm.py:147-150`): the dictionary is that of the object itself -/
def popLru (isLru : V → Bool) (σ : State N V) : State N V :=
  { σ with cache := fun n => match σ.cache n with
    | some v => if isLru v then Option.none else some v
    | Option.none => Option.none }

/-- the `del` statements one after the other (`power_biased.py:66-67`); the first exception ends the call -/
def delEach (s : Schema N V) (fuel : Nat) : List N → State N V → Except Err Unit × State N V
  | [], σ => (.ok (), σ)
  | n :: t, σ =>
    match Cache.delCached s fuel n σ with
    | (.ok _, σ) => delEach s fuel t σ
    | (.error e, σ) => (.error e, σ)

/-- `__getstate__`: what is written, or an exception, and the object afterwards.  `big` is empty for `DarkMatterSpectrum` and holds the two stochasticity fits for `BiasedSpectrum`. -/
def getstate (s : Schema N V) (fuel : Nat) (big : List N) (isLru : V → Bool) (σ : State N V) : Except Err (State N V) × State N V :=
  match delEach s fuel big σ with
  | (.error e, σ) => (.error e, σ)
  | (.ok _, σ) => (.ok (popLru isLru σ), popLru isLru σ)

/-- Pickling fails on the functions wrapped by `lru_cache`, so that what is written must hold none.  Loading makes an object with `__new__` and fills its dictionary (`_cache.py:186-189`): the object loaded is what was written. -/
def saveLoad (s : Schema N V) (fuel : Nat) (big : List N) (isLru : V → Bool) (σ : State N V) : Except Err (State N V) × State N V := getstate s fuel big isLru σ

/-- what a user can do: use the object, save it (and go on with it), or save it and go on with the object loaded from the file -/
inductive SOp (N V : Type) where
  | op (o : Op N V)
  | save
  | reload

/-- one operation -/
def stepS (s : Schema N V) (fuel : Nat) (big : List N) (isLru : V → Bool) (σ : State N V) : SOp N V → State N V
  | .op o => step s fuel σ o
  | .save => (saveLoad s fuel big isLru σ).2
  | .reload => match (saveLoad s fuel big isLru σ).1 with
    | .ok σ' => σ'
    | .error _ => (saveLoad s fuel big isLru σ).2

/-- outcomes of `load_model` -/
inductive Loaded (M : Type) where
  | extension              -- ValueError
  | attribute              -- AttributeError
  | ok (m : M) (warned : Bool)
  deriving DecidableEq

/-- `load_model(filename, show_warning)` (`rsd/__init__.py:47-71`): `ext` the extension of the name, `m` the object in the file, `ver` its `__version__` if it has one, `cur` the version of the package.  Simplification: that
`numpy.load` refuses pickled objects unless told otherwise (from numpy 1.16.3 on) is not modelled. -/
def loadModel {M : Type} (cur : String) (ext : String) (m : M) (ver : Option String) (showWarning : Bool) : Loaded M :=
  if ext ≠ ".npy" then .extension
  else if showWarning ∧ (ver = Option.none ∨ ver ≠ some cur) then
    match ver with
    | some _ => .ok m true
    | Option.none => .attribute
  else .ok m false

end Verif.Cache
