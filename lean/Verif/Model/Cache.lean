/-
Model of `pyRSD/rsd/_cache.py` (the parameter / cached-property framework), plus the context managers that
manipulate it: `DarkMatterSpectrum.preserve` (`rsd/power/dm/power_dm.py:180-219`) and
`BiasedSpectrum.cache_override` (`rsd/power/biased/power_biased.py:73-100`).

Conventions: attribute names are an arbitrary type `N` with decidable equality, values an arbitrary type `V`.
Python exceptions are values.  `fuel` plays the role of the interpreter's recursion limit.
-/
namespace Verif.Cache

/-- The exceptions that can come out of an attribute access or assignment. -/
inductive Err where
  | attribute   -- AttributeError: no such attribute
  | unset       -- `_cache.py:252`  required parameter has not been set
  | recursion   -- RecursionError
  | invalid     -- a validating setter / default rejected the value; or `_cache.py:174`, `_cache.py:260`
  | raised      -- the method body raised
  deriving DecidableEq, Repr

/-- The body `f` of a cached property, seen through the attributes it reads from `self`
(`_cache.py:288` `val = f(self)`, `_cache.py:368` `val = f(self, interp_domain)`): either it returns, or it raises,
or it reads an attribute and goes on depending on the value.  Simplification: bodies have no side effects other than
reading attributes of `self`. -/
inductive Body (N V : Type) where
  | ret (v : V)
  | raise
  | read (n : N) (k : V → Body N V)

/-- `default` keyword of `@parameter` (`_cache.py:218-220`, `_cache.py:245-252`).  `attr d` is a string default naming
an attribute of the object; `value v` any other default. -/
inductive Default (N V : Type) where
  | none
  | value (v : V)
  | attr (d : N)

/-- A class attribute managed by the framework.
* `param validate dflt`: `@parameter` (`_cache.py:212-266`); `validate` is the decorated function `f(self, value)`
  (`none` = it raises).  Simplification: validators are pure functions of the value.
* `cached parents body interp`: `@cached_property(*parents)` (`_cache.py:268-307`, `interp = false`) or
  `@interpolated_function(*parents)` (`_cache.py:344-389`, `interp = true`; the stored value is the interpolant). -/
inductive Attr (N V : Type) where
  | param (validate : V → Option V) (dflt : Default N V)
  | cached (parents : List N) (body : Body N V) (interp : Bool)

/-- A class: its method-resolution order (`_cache.py:129`, most derived class first), each class being the list of its
`__dict__` entries; `extra d` are the names put into the dependents of descriptor `d` by *other* classes that share the
descriptor object (base classes and sibling classes, whose `CacheSchema.__init__` also ran `invert_cachemap`);
`eqv new old` is `obj_eq` (`_cache.py:194-210`). -/
structure Schema (N V : Type) where
  mro : List (List (N × Attr N V))
  extra : N → List N
  eqv : V → V → Bool

variable {N V : Type} [DecidableEq N]

/-- `getattr(cls, name, None)` through the MRO (`_cache.py:158-160`). -/
def Schema.lookup (s : Schema N V) (n : N) : Option (Attr N V) :=
  s.mro.findSome? (fun c => c.lookup n)

/-- All names that are cached in some class of the MRO: the keys of `_cachemap` (`_cache.py:130-142`). -/
def Schema.cachedNames (s : Schema N V) : List N :=
  s.mro.flatMap (fun c => c.filterMap (fun e => match e.2 with
    | .cached .. => some e.1
    | .param .. => Option.none))

/-- `_cachemap[name]` (`_cache.py:142`): classes are visited base-first, later assignments overwrite, so the value is
the parent list of the most derived class that declares `name` as cached. -/
def Schema.cachemap (s : Schema N V) (n : N) : Option (List N) :=
  s.mro.findSome? (fun c => match c.lookup n with
    | some (.cached ps _ _) => some ps
    | _ => Option.none)

/-- One level of `invert_cachemap(name, deps)` (`_cache.py:155-174`): the loop over `deps`; `rec` is the recursive call
of line 168. -/
def Schema.ancStep (s : Schema N V) (rec : List N → Except Err (List N)) : List N → Except Err (List N)
  | [] => .ok []
  | p :: ps =>
    match s.lookup p with
    | Option.none => .error .invalid
    | some (.param _ _) =>
      match s.ancStep rec ps with
      | .ok r => .ok (p :: r)
      | .error e => .error e
    | some (.cached qs _ _) =>
      match rec qs with
      | .error e => .error e
      | .ok a =>
        match s.ancStep rec ps with
        | .ok r => .ok (p :: (a ++ r))
        | .error e => .error e

/-- `invert_cachemap(name, deps)` (`_cache.py:150-174`): the list of descriptors to whose `_deps` the name is added. -/
def Schema.ancestors (s : Schema N V) : Nat → List N → Except Err (List N)
  | 0 => s.ancStep (fun _ => .error .recursion)
  | f + 1 => s.ancStep (s.ancestors f)

/-- Is `n` one of the names added to `_deps` of descriptor `d` when this class is created (`_cache.py:177-178`)? -/
def Schema.inverted (s : Schema N V) (fuel : Nat) (d n : N) : Bool :=
  match s.cachemap n with
  | Option.none => false
  | some ps => match s.ancestors fuel ps with
    | .ok a => decide (d ∈ a)
    | .error _ => false

/-- The `_deps` set of descriptor `d`. -/
def Schema.deps (s : Schema N V) (fuel : Nat) (d : N) : List N :=
  s.cachedNames.filter (fun n => s.inverted fuel d n) ++ s.extra d

/-- Class creation raises unless every inversion succeeds (`_cache.py:174`, or infinite recursion on a cycle). -/
def Schema.createOk (s : Schema N V) (fuel : Nat) : Bool :=
  s.cachedNames.all (fun n => match s.cachemap n with
    | some ps => (match s.ancestors fuel ps with | .ok _ => true | .error _ => false)
    | Option.none => false)

/-- An instance: the stored parameter values (`self.__dict__['__'+name]`), `self._cache`, `self._cache_overrides`. -/
structure State (N V : Type) where
  params : N → Option V
  cache : N → Option V
  overrides : N → Option V

/-- A brand-new object that holds the given parameter values (empty `_cache`, `_cache.py:186-189`). -/
def State.fresh (π : N → Option V) : State N V := ⟨π, fun _ => Option.none, fun _ => Option.none⟩

/-- dict update -/
def upd (f : N → Option V) (n : N) (v : Option V) : N → Option V := fun m => if m = n then v else f m

/-- `self._cache.pop(dep, None)` for all `dep` in a list (`_cache.py:237-238`, `100-101`). -/
def popAll (c : N → Option V) (ds : List N) : N → Option V := fun m => if m ∈ ds then Option.none else c m

/-- The result of running code on an object: a value or an exception, and the object afterwards. -/
abbrev Res (N V : Type) := Except Err V × State N V

/-- Running a method body, given how attributes are read. -/
def runBody (get : N → State N V → Res N V) : Body N V → State N V → Res N V
  | .ret v, σ => (.ok v, σ)
  | .raise, σ => (.error .raised, σ)
  | .read n k, σ =>
    match get n σ with
    | (.ok v, σ') => runBody get (k v) σ'
    | (.error e, σ') => (.error e, σ')

/-- Attribute access `self.n`: `parameter._get_property` (`_cache.py:242-254`),
`cached_property._get_property` (`_cache.py:280-294`), `interpolated_function.wrapped` (`_cache.py:354-380`; it does not
consult `_cache_overrides`).  `rec` is how nested attribute reads are served.  Simplification: for a string default,
`hasattr(self, d)` followed by `getattr(self, d)` (`_cache.py:246-247`) is one access. -/
def getStep (s : Schema N V) (rec : N → State N V → Res N V) (n : N) (σ : State N V) : Res N V :=
  match s.lookup n with
  | Option.none => (.error .attribute, σ)
  | some (.param val dflt) =>
    match σ.params n with
    | some v => (.ok v, σ)
    | Option.none =>
      match dflt with
      | .none => (.error .unset, σ)
      | .value v => (match val v with | some w => .ok w | Option.none => .error .invalid, σ)
      | .attr d => rec d σ
  | some (.cached _ body interp) =>
    match (if interp then Option.none else σ.overrides n) with
    | some v => (.ok v, σ)
    | Option.none =>
      match σ.cache n with
      | some v => (.ok v, σ)
      | Option.none =>
        match runBody rec body σ with
        | (.ok v, σ') => (.ok v, { σ' with cache := upd σ'.cache n (some v) })
        | (.error e, σ') => (.error e, σ')

/-- `getattr(self, n)` with a bound on the depth of nested attribute reads (the interpreter's recursion limit). -/
def getAttr (s : Schema N V) : Nat → N → State N V → Res N V
  | 0 => getStep s (fun _ σ => (.error .recursion, σ))
  | f + 1 => getStep s (getAttr s f)

/-- `self.p = x` (`_cache.py:77-83`, `223-239`).  Setting anything but a parameter raises. -/
def setAttr (s : Schema N V) (fuel : Nat) (p : N) (x : V) (σ : State N V) : Except Err Unit × State N V :=
  match s.lookup p with
  | some (.param val _) =>
    match val x with
    | Option.none => (.error .invalid, σ)
    | some v =>
      let doset := match σ.params p with
        | Option.none => true
        | some old => !(s.eqv v old)
      if doset then
        (.ok (), { σ with params := upd σ.params p (some v), cache := popAll σ.cache (s.deps fuel p) })
      else (.ok (), σ)
  | _ => (.error .attribute, σ)

/-- `del self.n` for a cached attribute (`_cache.py:93-101`, `296-297`): the entry and its dependents are popped.
(`del` on an `interpolated_function` attribute is an AttributeError: it is a plain method.) -/
def delCached (s : Schema N V) (fuel : Nat) (n : N) (σ : State N V) : Except Err Unit × State N V :=
  match s.lookup n with
  | some (.cached _ _ false) =>
    (.ok (), { σ with cache := popAll (upd σ.cache n Option.none) (s.deps fuel n) })
  | _ => (.error .attribute, σ)

/-- `del self.p` for a parameter (`_cache.py:66-69`, `256-260`): only the stored value is dropped;
`ParameterProperty` does not override `__delete__`, so no cache entry is popped. -/
def delParam (s : Schema N V) (p : N) (σ : State N V) : Except Err Unit × State N V :=
  match s.lookup p with
  | some (.param _ _) =>
    match σ.params p with
    | Option.none => (.error .invalid, σ)
    | some _ => (.ok (), { σ with params := upd σ.params p Option.none })
  | _ => (.error .attribute, σ)

/-- The operations a user performs on an object. -/
inductive Op (N V : Type) where
  | set (p : N) (x : V)
  | get (n : N)
  | delCached (n : N)
  | delParam (p : N)

/-- Perform one operation (exceptions are caught by the caller and the object is used on). -/
def step (s : Schema N V) (fuel : Nat) (σ : State N V) : Op N V → State N V
  | .set p x => (setAttr s fuel p x σ).2
  | .get n => (getAttr s fuel n σ).2
  | .delCached n => (Cache.delCached s fuel n σ).2
  | .delParam p => (Cache.delParam s p σ).2

/-- Perform a history of operations. -/
def run (s : Schema N V) (fuel : Nat) (σ : State N V) (ops : List (Op N V)) : State N V :=
  ops.foldl (step s fuel) σ

/-- `for k in set_params: setattr(self, k, set_params[k])` (`power_dm.py:214-215`). -/
def restoreParams (s : Schema N V) (fuel : Nat) : List (N × V) → State N V → State N V
  | [], σ => σ
  | (p, v) :: rest, σ => restoreParams s fuel rest (setAttr s fuel p v σ).2

/-- `for k in unset_params: if '__'+k in self.__dict__: delattr(self, k)` (`power_dm.py:216-218`). -/
def unsetParams (s : Schema N V) : List N → State N V → State N V
  | [], σ => σ
  | p :: rest, σ => unsetParams s rest (if (σ.params p).isSome then (Cache.delParam s p σ).2 else σ)

/-- The values saved by `preserve` for a list of names: those that are set (`power_dm.py:188-190`, `196-198`). -/
def saveParams (σ : State N V) (names : List N) : List (N × V) :=
  names.filterMap (fun p => (σ.params p).map (fun v => (p, v)))

/-- The exit half of `preserve` (`power_dm.py:208-220`): `σ` is the object at entry, `σ₁` the object at the end of the
block. -/
def preserveExit (s : Schema N V) (fuel : Nat) (pnames kw : List N) (σ σ₁ : State N V) : State N V :=
  let unsetNames := pnames.filter (fun p => (σ.params p).isNone)
  let σ₂ := unsetParams s unsetNames
    (restoreParams s fuel (saveParams σ pnames) (restoreParams s fuel (saveParams σ kw) σ₁))
  { σ₂ with cache := fun n => match σ.cache n with | some v => some v | Option.none => σ₂.cache n }

/-- `with self.preserve(): ops` (`power_dm.py:180-220`; keyword arguments are assignments at the head of `ops`).
`pnames` is `_param_names` and `kw` is `allowable_kwargs` (in the iteration order of the sets).  `raises` says that an
exception escapes the block after `ops`: the generator has no `try/finally` around its `yield`, so the exit half is
skipped.  Simplification: every name in `kw` is a parameter that the constructor has set (`power_dm.py:100-136`), so
that `getattr(self, k)` of line 198 is the stored value. -/
def preserve (s : Schema N V) (fuel : Nat) (pnames kw : List N) (ops : List (Op N V)) (raises : Bool)
    (σ : State N V) : State N V :=
  let σ₁ := run s fuel σ ops
  if raises then σ₁ else preserveExit s fuel pnames kw σ σ₁

/-- `with self.cache_override(**ov): ops` (`power_biased.py:73-100`) with no exception escaping the block. -/
def withOverride (s : Schema N V) (fuel : Nat) (ov : N → Option V) (ops : List (Op N V)) (σ : State N V) :
    State N V :=
  { run s fuel { σ with overrides := ov } ops with overrides := fun _ => Option.none }

end Verif.Cache
