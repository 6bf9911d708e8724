/-
Model of `pyRSD/rsd/cosmology.py` (`Cosmology`, the dictionary of cosmological parameters with an astropy object inside) and of
`ClassParams.from_astropy` (`pyRSD/_gcl/python/ClassParams.i:98-163`).

Astropy is not part of the repository.  What is used of it is the structure `Astropy` and the functions `Engine.*` below: the classes `LambdaCDM`,
`wCDM` and their flat versions (and `w0waCDM` as something `from_astropy` may be given), their constructors, attributes and `clone`.  Numbers are exact
reals; units are not modelled (they are removed on reading); attributes of the astropy object that are not constructor arguments, its functions and
`fittable` are not modelled.
-/
import Mathlib.Data.Real.Basic
import Mathlib.Data.Multiset.Sort
import Mathlib.Data.List.Sort

namespace Verif.CosmoDict

noncomputable section

open Classical

/-- The constructor arguments (`cosmology.py:138-139`), and any other word. -/
inductive Key where
  | H0 | Om0 | Ob0 | Ode0 | w0 | Tcmb0 | Neff | mnu | ns | sigma8 | flat | name
  | other (s : String)
  deriving DecidableEq

/-- The values: numbers, neutrino masses, words, flags, and `None`. -/
inductive V where
  | num (x : ℝ)
  | masses (l : List ℝ)
  | str (s : String)
  | flag (b : Bool)
  | none

/-- Keyword arguments, or a dictionary (without its order). -/
abbrev Dict := Key → Option V

/-- no arguments -/
def Dict.empty : Dict := fun _ => Option.none

/-- `d[k] = v` -/
def Dict.set (d : Dict) (k : Key) (v : V) : Dict := fun k' => if k' = k then some v else d k'

/-- `d.update(e)` -/
def Dict.update (d e : Dict) : Dict := fun k => (e k).orElse fun _ => d k

/-- The exceptions. -/
inductive Err where
  | typeError      -- unknown keyword argument, or a value of another type
  | valueError     -- of astropy, of `__setitem__` (line 282), of `ClassParams.i:110`
  | attribute      -- `AttributeError` (line 326; also `clone` of astropy with a word that is no argument)
  | keyError       -- line 304
  | indexError     -- `ClassParams.i:130`

/-- What astropy computes: `rad H0 Tcmb0 Neff m_nu` is the density of photons and neutrinos today; `photons` that of the photons; `expand Tcmb0 Neff m_nu` is
the attribute `m_nu` of an object made with these arguments (one mass for every species; `None` if there is no radiation), or none if astropy refuses them.
Making another object from the expanded masses gives the same masses. -/
structure Astropy where
  rad : ℝ → ℝ → ℝ → V → ℝ
  photons : ℝ → ℝ → ℝ
  expand : ℝ → ℝ → V → Option V
  idem : ∀ {T N m m'}, expand T N m = some m' → expand T N m' = some m'
  shape : ∀ {T N m m'}, expand T N m = some m' → m' = .none ∨ ∃ l, m' = .masses l

/-- The dark energy of a class of astropy. -/
inductive Kind where
  | lambda
  | w (w0 : ℝ)
  | w0wa (w0 wa : ℝ)

/-- An astropy object. -/
structure Engine where
  kind : Kind
  isFlat : Bool
  H0 : ℝ
  Om0 : ℝ
  Ob0 : Option ℝ
  Ode0 : ℝ
  Tcmb0 : ℝ
  Neff : ℝ
  mnu : V
  name : Option String

variable (A : Astropy)

/-- The constructors of astropy: the masses are expanded, a flat one computes `Ode0` (the argument is not there), densities that make no sense are refused. -/
def Engine.make (kind : Kind) (isFlat : Bool) (H0 Om0 : ℝ) (Ob0 : Option ℝ) (Ode0 Tcmb0 Neff : ℝ) (mnu : V) (name : Option String) :
    Except Err Engine :=
  match A.expand Tcmb0 Neff mnu with
  | Option.none => .error .valueError
  | some m =>
    if Om0 < 0 ∨ ∃ b, Ob0 = some b ∧ (b < 0 ∨ Om0 < b) then .error .valueError
    else .ok { kind := kind, isFlat := isFlat, H0 := H0, Om0 := Om0, Ob0 := Ob0,
               Ode0 := if isFlat then 1 - Om0 - A.rad H0 Tcmb0 Neff m else Ode0, Tcmb0 := Tcmb0, Neff := Neff, mnu := m, name := name }

/-- `Ok0` of astropy: zero by definition for the flat classes. -/
def Engine.Ok0 (e : Engine) : ℝ := if e.isFlat then 0 else 1 - e.Om0 - e.Ode0 - A.rad e.H0 e.Tcmb0 e.Neff e.mnu

/-- the value for an attribute that may be `None` -/
def optNum : Option ℝ → V
  | Option.none => .none
  | some x => .num x

/-- see `optNum` -/
def optStr : Option String → V
  | Option.none => .none
  | some s => .str s

/-- The attributes of an astropy object among the words here: a cosmological constant has no `w0`. -/
def Engine.attr (e : Engine) : Key → Option V
  | .H0 => some (.num e.H0)
  | .Om0 => some (.num e.Om0)
  | .Ob0 => some (optNum e.Ob0)
  | .Ode0 => some (.num e.Ode0)
  | .w0 => match e.kind with
    | .lambda => Option.none
    | .w x => some (.num x)
    | .w0wa x _ => some (.num x)
  | .Tcmb0 => some (.num e.Tcmb0)
  | .Neff => some (.num e.Neff)
  | .mnu => some e.mnu
  | .name => some (optStr e.name)
  | .ns => Option.none
  | .sigma8 => Option.none
  | .flat => Option.none
  | .other _ => Option.none

/-- A number among the keyword arguments, or its default. -/
def getNum (kw : Dict) (k : Key) (default : ℝ) : Except Err ℝ :=
  match kw k with
  | Option.none => .ok default
  | some (.num x) => .ok x
  | some _ => .error .typeError

/-- A number or `None` (`Ob0`). -/
def getOptNum (kw : Dict) (k : Key) (default : ℝ) : Except Err (Option ℝ) :=
  match kw k with
  | Option.none => .ok (some default)
  | some (.num x) => .ok (some x)
  | some .none => .ok Option.none
  | some _ => .error .typeError

/-- A word or `None` (`name`). -/
def getStr (kw : Dict) (k : Key) : Except Err (Option String) :=
  match kw k with
  | Option.none => .ok Option.none
  | some (.str s) => .ok (some s)
  | some .none => .ok Option.none
  | some _ => .error .typeError

/-- A flag (`flat`). -/
def getFlag (kw : Dict) (k : Key) : Except Err Bool :=
  match kw k with
  | Option.none => .ok false
  | some (.flag b) => .ok b
  | some _ => .error .typeError

/-- A `Cosmology`: the astropy object, the dictionary, and the attributes that were assigned to the object itself. -/
structure Cosmo where
  engine : Engine
  dict : Dict
  own : Dict

/-- The arguments after their defaults are filled in (`cosmology.py:138-139`). -/
structure Args where
  H0 : ℝ
  Om0 : ℝ
  Ob0 : Option ℝ
  Ode0 : ℝ
  w0 : ℝ
  Tcmb0 : ℝ
  Neff : ℝ
  mnu : V
  ns : ℝ
  sigma8 : ℝ
  flat : Bool
  name : Option String

/-- Matching the keyword arguments with the signature (`cosmology.py:138-139`). -/
def args (kw : Dict) : Except Err Args :=
  if ∃ s, kw (.other s) ≠ Option.none then .error .typeError
  else do
    let H0 ← getNum kw .H0 67.6
    let Om0 ← getNum kw .Om0 0.31
    let Ob0 ← getOptNum kw .Ob0 0.0486
    let Ode0 ← getNum kw .Ode0 0.69
    let w0 ← getNum kw .w0 (-1)
    let Tcmb0 ← getNum kw .Tcmb0 2.7255
    let Neff ← getNum kw .Neff 3.04
    let ns ← getNum kw .ns 0.9667
    let sigma8 ← getNum kw .sigma8 0.8159
    let flat ← getFlag kw .flat
    let name ← getStr kw .name
    return ⟨H0, Om0, Ob0, Ode0, w0, Tcmb0, Neff, (kw .mnu).getD (.num 0), ns, sigma8, flat, name⟩

/-- The astropy object of the arguments (`cosmology.py:173-191`). -/
def Args.engine (a : Args) : Except Err Engine :=
  let kind := if a.w0 = -1 then Kind.lambda else Kind.w a.w0
  Engine.make A kind a.flat a.H0 a.Om0 a.Ob0 a.Ode0 a.Tcmb0 a.Neff a.mnu a.name

/-- The entries that `dict.__init__` is given (`cosmology.py:193-198`): `Ode0` only if it was an argument of the astropy class. -/
def Args.entries (a : Args) (e : Engine) : Dict
  | .H0 => some (.num a.H0)
  | .Om0 => some (.num a.Om0)
  | .sigma8 => some (.num a.sigma8)
  | .ns => some (.num a.ns)
  | .flat => some (.flag a.flat)
  | .w0 => some (.num a.w0)
  | .name => some (optStr e.name)
  | .Ob0 => some (optNum e.Ob0)
  | .Tcmb0 => some (.num e.Tcmb0)
  | .Neff => some (.num e.Neff)
  | .mnu => some e.mnu
  | .Ode0 => if a.flat then Option.none else some (.num e.Ode0)
  | .other _ => Option.none

/-- `__init__` (`cosmology.py:138-198`), on an object whose dictionary may already have entries (`dict.__init__` adds to them) and that may already have
attributes. -/
def initOn (old : Dict) (own : Dict) (kw : Dict) : Except Err Cosmo := do
  let a ← args kw
  let e ← a.engine A
  return { engine := e, dict := old.update (a.entries e), own := own }

/-- `Cosmology(**kw)` -/
def init (kw : Dict) : Except Err Cosmo := initOn A Dict.empty Dict.empty kw

/-- `self[key]` (`cosmology.py:284-304`): an entry, else an attribute of the astropy object. -/
def Cosmo.getItem (c : Cosmo) (k : Key) : Except Err V :=
  match c.dict k with
  | some v => .ok v
  | Option.none => match c.engine.attr k with
    | some v => .ok v
    | Option.none => .error .keyError

/-- `self.key` (`cosmology.py:306-326`): an attribute of the object itself, else one of the astropy object, else an entry. -/
def Cosmo.getAttr (c : Cosmo) (k : Key) : Except Err V :=
  match c.own k with
  | some v => .ok v
  | Option.none => match c.engine.attr k with
    | some v => .ok v
    | Option.none => match c.dict k with
      | some v => .ok v
      | Option.none => .error .attribute

/-- `self[key] = value` (`cosmology.py:276-282`) -/
def Cosmo.setItem (c : Cosmo) (_k : Key) (_v : V) : Except Err Cosmo := let _ := c; .error .valueError

/-- `self.update(d)`: inherited from `dict`, it does not call `__setitem__`. -/
def Cosmo.update (c : Cosmo) (d : Dict) : Cosmo := { c with dict := c.dict.update d }

/-- `self.key = value`: inherited from `object`. -/
def Cosmo.setAttr (c : Cosmo) (k : Key) (v : V) : Cosmo := { c with own := c.own.set k v }

/-- `copy` (`cosmology.py:206-207`) -/
def Cosmo.copy (c : Cosmo) : Except Err Cosmo := init A c.dict

/-- Pickling and unpickling (`cosmology.py:226-233`; also `copy.copy`, `copy.deepcopy`): `Cosmology()`, then `__init__` again with the entries. -/
def Cosmo.pickle (c : Cosmo) : Except Err Cosmo := do
  let blank ← init A Dict.empty
  initOn A blank.dict blank.own c.dict

/-- The names that `from_astropy` takes over (`cosmology.py:262`). -/
def validNames : List Key := [.H0, .Om0, .Ob0, .Ode0, .w0, .Tcmb0, .Neff, .mnu]

/-- `from_astropy` (`cosmology.py:250-274`); `kw` may contain `n_s` and `sigma8`, whose defaults (line 251) are those of the constructor. -/
def fromAstropy (e : Engine) (kw : Dict) : Except Err Cosmo :=
  let kw1 : Dict := fun k => if k ∈ validNames then (e.attr k).orElse (fun _ => kw k) else kw k            -- lines 263-268
  let kw2 := kw1.set .flat (.flag (decide (e.Ok0 A = 0)))                                                   -- line 269
  let kw3 := if kw2 .name = Option.none then kw2.set .name (optStr e.name) else kw2                         -- line 270
  init A kw3

/-- The constructor arguments of the class of an astropy object. -/
def Engine.isArg (e : Engine) : Key → Bool
  | .H0 | .Om0 | .Ob0 | .Tcmb0 | .Neff | .mnu | .name => true
  | .Ode0 => !e.isFlat
  | .w0 => match e.kind with
    | .lambda => false
    | _ => true
  | _ => false

/-- The dark energy with another `w0` -/
def Kind.withW0 (k : Kind) (x : ℝ) : Kind :=
  match k with
  | .lambda => .lambda
  | .w _ => .w x
  | .w0wa _ wa => .w0wa x wa

/-- The `w0` of the dark energy -/
def Kind.w0 : Kind → ℝ
  | .lambda => -1
  | .w x => x
  | .w0wa x _ => x

/-- `Ob0` of a clone: the old one, or the one asked for -/
def keepNum (kw : Dict) (k : Key) (old : Option ℝ) : Except Err (Option ℝ) :=
  match kw k with
  | Option.none => .ok old
  | some _ => getOptNum kw k 0

/-- the name of a clone -/
def keepStr (kw : Dict) (k : Key) (old : Option String) : Except Err (Option String) :=
  match kw k with
  | Option.none => .ok (old.map (· ++ " (modified)"))
  | some _ => getStr kw k

/-- `clone` of astropy: without changes the object itself; a word that is no argument of the class is refused; a name that is not changed gets the
ending ` (modified)`. -/
def Engine.clone (e : Engine) (kw : Dict) : Except Err Engine :=
  if kw = Dict.empty then .ok e
  else if ∃ k, kw k ≠ Option.none ∧ e.isArg k = false then .error .attribute
  else do
    let H0 ← getNum kw .H0 e.H0
    let Om0 ← getNum kw .Om0 e.Om0
    let Ob0 ← keepNum kw .Ob0 e.Ob0
    let Ode0 ← getNum kw .Ode0 e.Ode0
    let w0 ← getNum kw .w0 e.kind.w0
    let Tcmb0 ← getNum kw .Tcmb0 e.Tcmb0
    let Neff ← getNum kw .Neff e.Neff
    let name ← keepStr kw .name e.name
    Engine.make A (e.kind.withW0 w0) e.isFlat H0 Om0 Ob0 Ode0 Tcmb0 Neff ((kw .mnu).getD e.mnu) name

/-- `clone` (`cosmology.py:328-361`) -/
def Cosmo.clone (c : Cosmo) (kw : Dict) : Except Err Cosmo := do
  let extras : Dict := fun k => if c.engine.attr k = Option.none then (kw k).orElse (fun _ => c.dict k) else Option.none    -- lines 354-355
  let rest : Dict := fun k => if c.engine.attr k = Option.none then Option.none else kw k
  let e ← c.engine.clone A rest
  fromAstropy A e extras

/-- `np.isclose(a, b, rtol=1e-4)` -/
def isClose (a b : ℝ) : Prop := |a - b| ≤ 1 / 10 ^ 8 + 1 / 10 ^ 4 * |b|

/-- two attributes of the list of line 219; `None` is refused by numpy -/
def closeV : V → V → Except Err Bool
  | .num a, .num b => .ok (decide (isClose a b))
  | _, _ => .error .typeError

/-- `np.allclose(self.m_nu, other.m_nu, rtol=1e-4)`: lists of different lengths cannot be compared, unless one has a single element. -/
def closeMasses : V → V → Except Err Bool
  | .masses a, .masses b =>
    if a.length = b.length then .ok ((a.zip b).all fun p => decide (isClose p.1 p.2))
    else if a.length = 1 then .ok (b.all fun x => a.all fun y => decide (isClose y x))
    else if b.length = 1 then .ok (a.all fun x => b.all fun y => decide (isClose x y))
    else .error .valueError
  | _, _ => .error .typeError

/-- The loop of lines 220-222. -/
def closeKeys (c d : Cosmo) : List Key → Except Err Bool
  | [] => .ok true
  | k :: ks => do
    let x ← c.getAttr k
    let y ← d.getAttr k
    let b ← closeV x y
    if b then closeKeys c d ks else return false

/-- The keys of line 219. -/
def eqKeys : List Key := [.H0, .Om0, .Ob0, .Ode0, .w0, .Tcmb0, .Neff, .ns, .sigma8]

/-- `c == d` (`cosmology.py:209-224`) for two different objects of the class. -/
def Cosmo.eq (c d : Cosmo) : Except Err Bool := do
  let x ← c.getAttr .flat
  let y ← d.getAttr .flat
  match x, y with
  | .flag a, .flag b =>
    if a ≠ b then return false
    else do
      let m ← c.getAttr .mnu
      let m' ← d.getAttr .mnu
      let close ← closeMasses m m'
      if !close then return false
      else closeKeys c d eqKeys
  | _, _ => return false

/-- The order in which the entries were made. -/
def order : List Key := [.H0, .Om0, .sigma8, .ns, .flat, .w0, .name, .Ob0, .Tcmb0, .Neff, .mnu, .Ode0]

/-- Two entries of different objects compared by `==`: masses compare element by element, and the result has a truth value only if it has at most one element. -/
def entryEq : V → V → Except Err Bool
  | .num a, .num b => .ok (decide (a = b))
  | .str a, .str b => .ok (decide (a = b))
  | .flag a, .flag b => .ok (decide (a = b))
  | .none, .none => .ok true
  | .masses a, .masses b =>
    if a.length = b.length ∧ 2 ≤ a.length then .error .valueError else .ok (decide (a = b))
  | _, _ => .ok false

/-- `dict_equal` of Python: entry by entry until one differs. -/
def entriesEq (c d : Dict) : List Key → Except Err Bool
  | [] => .ok true
  | k :: ks => match c k with
    | Option.none => entriesEq c d ks
    | some x => match d k with
      | Option.none => .ok false
      | some y => do
        let b ← entryEq x y
        if b then entriesEq c d ks else return false

/-- `c != d` for two different objects: the class defines `__eq__` only, so this is `dict.__ne__`. -/
def Cosmo.ne (c d : Cosmo) : Except Err Bool :=
  if (order.filter fun k => (c.dict k).isSome).length = (order.filter fun k => (d.dict k).isSome).length then (entriesEq c.dict d.dict order).map (! ·)
  else .ok true

/-! ### The parameters of CLASS -/

/-- The values of CLASS parameters. -/
inductive CV where
  | num (x : ℝ)
  | int (n : ℕ)
  | list (l : List ℝ)
  | str (s : String)

/-- The parameters of CLASS. -/
abbrev CDict := String → Option CV

/-- `pars[k] = v` -/
def CDict.set (d : CDict) (k : String) (v : CV) : CDict := fun k' => if k' = k then some v else d k'

/-- The table of line 128 of `ClassParams.i` -/
def Nur : List ℝ := [2.0328, 1.0196, 0.00641]

/-- The masses that are not zero -/
def massive : V → List ℝ
  | .masses l => l.filter fun m => decide (0 < m)
  | _ => []

/-- The masses in decreasing order (line 133) -/
def decreasing (l : List ℝ) : List ℝ := l.mergeSort (fun a b => decide (b ≤ a))

/-- The dark energy among the parameters of CLASS (the last part of `ClassParams.from_astropy`) -/
def darkEnergy (kind : Kind) (p : CDict) : CDict :=
  match kind with
  | .lambda => (p.set "w0_fld" (.num (-1))).set "wa_fld" (.num 0)
  | .w x => ((p.set "w0_fld" (.num x)).set "wa_fld" (.num 0)).set "Omega_Lambda" (.num 0)
  | .w0wa x wa => ((p.set "w0_fld" (.num x)).set "wa_fld" (.num wa)).set "Omega_Lambda" (.num 0)

/-- `ClassParams.from_astropy` (`ClassParams.i:98-163`) -/
def classParams (e : Engine) (extra : CDict) : Except Err CDict :=
  match e.Ob0 with
  | Option.none => .error .valueError                                               -- lines 109-110
  | some ob =>
    let p0 : CDict := fun _ => Option.none
    let p1 := (((p0.set "h" (.num (e.H0 / 100))).set "Omega_g" (.num (A.photons e.H0 e.Tcmb0))).set "Omega_b" (.num ob)).set "Omega_cdm" (.num (e.Om0 - ob))
    let nu : Except Err CDict :=
      if massive e.mnu ≠ [] then
        match Nur[(massive e.mnu).length - 1]? with                                 -- line 130
        | Option.none => .error .indexError
        | some x => .ok (((p1.set "N_ur" (.num (e.Neff / 3.046 * x))).set "N_ncdm" (.int (massive e.mnu).length)).set "m_ncdm" (.list (decreasing (massive e.mnu))))
      else .ok (((p1.set "N_ur" (.num e.Neff)).set "N_ncdm" (.int 0)).set "m_ncdm" (.num 0))
    match nu with
    | .error x => .error x
    | .ok p2 =>
      let p3 := darkEnergy e.kind p2
      let extra1 := if extra "P_k_max_h/Mpc" = Option.none then extra.set "P_k_max_h/Mpc" (.num 20) else extra
      let extra2 := if extra1 "z_max_pk" = Option.none then extra1.set "z_max_pk" (.num 2) else extra1
      .ok (fun k => (extra2 k).orElse fun _ => p3 k)

/-- The CLASS parameters of `to_class` (`cosmology.py:381-387`; what is made of them is `toClass` of `Model/Cosmo.lean`). -/
def Cosmo.toClass (c : Cosmo) (config : CDict) : Except Err CDict := do
  let p ← classParams A c.engine config
  let n ← c.getAttr .ns
  match n with
  | .num x => return p.set "n_s" (.num x)
  | _ => .error .typeError

end

end Verif.CosmoDict
