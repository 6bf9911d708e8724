import Verif.Spec.Cache
/-
The shipped spectrum classes seen as classes of the caching framework (`Model/Cache.lean`): which attributes they have,
what each declares, and what the code computing it reads.  The tables themselves are generated from the source text by
`tools/readsets.py` (`Model/ShippedTables.lean`).

How the read sets are obtained (simplifications):
* reads are closed through plain methods and properties (`normed_power_lin`, `Pdv_jennings`, ...), through the
  `normalize_*` decorators of the perturbation-theory integrals (`pt_integrals.py:10-40`), and through helper functions
  that are passed the model (`power/biased/P00.py:3`, `power/biased/P01.py:3`, `nonlinear_biasing.py:10`);
* a power-term object (`P00`, `P01_ss`, ...) memoises what its angular terms compute (`power/__init__.py:4-20`), so
  creating it counts as reading everything any of its terms' methods can read;
* an interpolated function also reads its interpolation domain (`_cache.py:367`);
* the sub-models `hzpt`, `P11_sim_model`, `Pdv_sim_model`, `bias_to_sigma_relation` are updated in place by the
  parameter setters (`_update_models`, `power_dm.py:795`), so reading one of them also reads the pushed parameters
  *now*; the attribute itself only freezes what is not pushed.  `hzpt.P00` and `hzpt.Phm` do not use the growth rate;
* `_loaded_data` (`sim_loader.py:49`) is not a parameter of the framework but is changed by `load_dm_sims`; it is
  listed as a parameter on which nothing declares a dependency;
* the branch of the nonlinear biasing that maps one bias to another by name (`nonlinear_biasing.py:27`) is not followed.
-/
namespace Verif.Shipped
open Verif.Cache

/-- The shipped models. -/
inductive Cls where
  | DarkMatterSpectrum   -- rsd/power/dm/power_dm.py:17
  | BiasedSpectrum       -- rsd/power/biased/power_biased.py:25
  | HaloSpectrum         -- rsd/power/biased/power_halo.py:4
  | QuasarSpectrum       -- rsd/power/qso/power_qso.py:49
  | GalaxySpectrum       -- rsd/power/gal/power_gal.py:10
  deriving DecidableEq, Repr

inductive Kind where
  | param (dflt : Option Nat)
  | cached (parents : List Nat) (interp : Bool)
  deriving DecidableEq, Repr

structure Row where
  kind : Kind
  reads : List Nat
  deriving DecidableEq, Repr

/-- `@parameter` (with an attribute-valued default) -/
abbrev P (d : Option Nat) : Row := ⟨.param d, []⟩
/-- `@cached_property(*parents)` -/
abbrev C (parents reads : List Nat) : Row := ⟨.cached parents false, reads⟩
/-- `@interpolated_function(*parents)` -/
abbrev I (parents reads : List Nat) : Row := ⟨.cached parents true, reads⟩

/-- the managed entries of a class `__dict__` -/
abbrev Table := List (Nat × Row)

/-- The entry found through the method-resolution order. -/
def rowOf (M : List Table) (n : Nat) : Option Row := M.findSome? (fun t => t.lookup n)

/-- The code of a class: a setter per parameter, a default value for the parameters that have a non-attribute default,
and a body per cached attribute. -/
structure Impl (V : Type) where
  validate : Nat → V → Option V
  dflt : Nat → Option V
  body : Nat → Body Nat V

def Row.attr {V : Type} (c : Impl V) (n : Nat) : Row → Attr Nat V
  | ⟨.param (some d), _⟩ => .param (c.validate n) (.attr d)
  | ⟨.param none, _⟩ => .param (c.validate n) (match c.dflt n with | some v => .value v | none => .none)
  | ⟨.cached ps i, _⟩ => .cached ps (c.body n) i

/-- The class as the caching framework sees it.  Simplification: an entry that is overridden in a more derived class is
given the code of the overriding one (it is never looked up). -/
def schema {V : Type} (M : List Table) (c : Impl V) (extra : Nat → List Nat) (eqv : V → V → Bool) : Schema Nat V :=
  { mro := M.map (fun t => t.map (fun e => (e.1, e.2.attr c e.1))), extra := extra, eqv := eqv }

/-- What the code computing `n` can read. -/
def readsOf (M : List Table) (n : Nat) : List Nat :=
  match rowOf M n with
  | some r => r.reads
  | none => []

/-- The code reads only what the table says. -/
def Impl.Respects {V : Type} (c : Impl V) (M : List Table) : Prop :=
  ∀ n r, rowOf M n = some r → (c.body n).ReadsOnly r.reads

/-! ### certificates -/

/-- Bit sets over the attribute numbers: which are parameters; read closure, declared ancestors, exceptions per name. -/
structure Cert where
  params : Nat
  rc : List Nat
  dc : List Nat
  bad : List Nat

def sub (a b : Nat) : Bool := a ||| b == b

def at' (l : List Nat) (n : Nat) : Nat := l.getD n 0

def orAll (f : Nat → Nat) (ms : List Nat) : Nat := ms.foldr (fun m a => f m ||| a) 0

/-- Local correctness of a certificate at name `n`. -/
def checkRow (M : List Table) (K : Nat) (c : Cert) (n : Nat) : Bool :=
  match rowOf M n with
  | none => !c.params.testBit n && at' c.rc n == 0 && at' c.dc n == 0 && at' c.bad n == 0
  | some ⟨.param d, rd⟩ =>
    let ms := match d with | some m => [m] | none => []
    rd.isEmpty && c.params.testBit n && ms.all (fun m => decide (m < n) && (rowOf M m).isSome) &&
    at' c.rc n == (1 <<< n ||| orAll (at' c.rc) ms) && at' c.dc n == 0 && at' c.bad n == orAll (at' c.bad) ms &&
    decide (n < K)
  | some ⟨.cached ps _, rd⟩ =>
    !c.params.testBit n && ps.all (fun m => decide (m < n)) &&
    rd.all (fun m => decide (m < n) && (rowOf M m).isSome) &&
    at' c.rc n == (1 <<< n ||| orAll (at' c.rc) rd) &&
    at' c.dc n == orAll (fun m => 1 <<< m ||| at' c.dc m) ps &&
    at' c.bad n == (((at' c.rc n &&& c.params) ^^^ (at' c.rc n &&& c.params &&& at' c.dc n)) ||| orAll (at' c.bad) rd) &&
    decide (n < K)

/-- All entries have small names and existing parents; the certificate is right at every name. -/
def check (M : List Table) (K : Nat) (c : Cert) : Bool :=
  M.all (fun t => t.all (fun e => decide (e.1 < K) && (match e.2.kind with
    | .param _ => true
    | .cached ps _ => ps.all (fun m => (rowOf M m).isSome)))) &&
  (List.range K).all (checkRow M K c)

/-- The parameters whose change may leave `n` stale. -/
def exceptions (K : Nat) (c : Cert) (n : Nat) : List Nat := (List.range K).filter (fun p => (at' c.bad n).testBit p)

end Verif.Shipped
