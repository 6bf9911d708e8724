/-
Model of the temporary sources of dark matter spectra: simulation data loaded in place of the model's terms (`pyRSD/rsd/sim_loader.py`, `load_dm_sims` in
`pyRSD/rsd/power/dm/power_dm.py:250-278`) and `use_spt` (`power_dm.py:221-248`), on top of the model of the cache (`Verif.Model.Cache`).

Names are an arbitrary type, as are values.  A loadable term is identified with the name of its `..._loaded` parameter, its flag.  Exceptions of single operations are caught by the caller, as in the
model of the cache.
-/
import Verif.Model.Cache

namespace Verif.Loaded

open Verif.Cache

variable {N V : Type} [DecidableEq N]

/-- The body of a cached attribute, which may look at loaded data: `loaded p k b` is `if self.<p>: d = self._get_loaded_data(...); k(d) else: b` (`power_dm.py:863-864`,
`power/dm/P00.py:11-12`, `P01.py:11-12`, `P11.py:11-12`, `P11.py:58-59`). Simplification: the power term objects (`P00`, ...) are their values, as in C09. -/
inductive DBody (N V : Type) where
  | ret (v : V)
  | raise
  | read (n : N) (k : V → DBody N V)
  | loaded (p : N) (k : V → DBody N V) (b : DBody N V)

/-- The loaded data, `_loaded_data` (`sim_loader.py:12`). -/
abbrev Data (N V : Type) := N → Option V

/-- The body on an object with the data `D`: `_get_loaded_data` raises a `ValueError` when there are none (`sim_loader.py:46-52`). -/
def DBody.inst (truthy : V → Bool) (D : Data N V) : DBody N V → Body N V
  | .ret v => .ret v
  | .raise => .raise
  | .read n k => .read n fun v => (k v).inst truthy D
  | .loaded p k b => .read p fun v =>
    if truthy v then
      match D p with
      | some d => (k d).inst truthy D
      | none => .raise
    else b.inst truthy D

/-- A class attribute: see `Verif.Cache.Attr`. -/
inductive DAttr (N V : Type) where
  | param (validate : V → Option V) (dflt : Default N V)
  | cached (parents : List N) (body : DBody N V) (interp : Bool)

/-- see `DBody.inst` -/
def DAttr.inst (truthy : V → Bool) (D : Data N V) : DAttr N V → Attr N V
  | .param f d => .param f d
  | .cached ps b i => .cached ps (b.inst truthy D) i

/-- A class: see `Verif.Cache.Schema`. `tt` and `ff` are `True` and `False`; `flags` are the loadable terms (`_loadable_power_terms`, `sim_loader.py:9`). -/
structure DSchema (N V : Type) where
  mro : List (List (N × DAttr N V))
  extra : N → List N
  eqv : V → V → Bool
  truthy : V → Bool
  tt : V
  ff : V
  flags : List N

/-- The class as seen by an object with the data `D`. -/
def DSchema.at (S : DSchema N V) (D : Data N V) : Schema N V :=
  { mro := S.mro.map fun c => c.map fun e => (e.1, e.2.inst S.truthy D), extra := S.extra, eqv := S.eqv }

/-- An object: its parameters and cache, its data. -/
structure Obj (N V : Type) where
  st : State N V
  data : Data N V

/-- reading an attribute -/
def Obj.read (S : DSchema N V) (F : Nat) (o : Obj N V) (n : N) : Except Err V := (getAttr (S.at o.data) F n o.st).1

/-- `_load(name, k, P)` (`sim_loader.py:55-65`); a `ValueError` for other names -/
def load (S : DSchema N V) (F : Nat) (o : Obj N V) (p : N) (d : V) : Obj N V :=
  if p ∈ S.flags then
    let D := upd o.data p (some d)
    ⟨(setAttr (S.at D) F p S.tt o.st).2, D⟩
  else o

/-- `_unload(name)` (`sim_loader.py:68-74`) -/
def unload (S : DSchema N V) (F : Nat) (o : Obj N V) (p : N) : Obj N V :=
  if (o.data p).isSome then
    let D := upd o.data p none
    ⟨(setAttr (S.at D) F p S.ff o.st).2, D⟩
  else o

/-- What is done to an object. -/
inductive LOp (N V : Type) where
  | base (o : Op N V)
  | load (p : N) (d : V)
  | unload (p : N)

/-- one operation -/
def lstep (S : DSchema N V) (F : Nat) (o : Obj N V) : LOp N V → Obj N V
  | .base x => ⟨step (S.at o.data) F o.st x, o.data⟩
  | .load p d => load S F o p d
  | .unload p => unload S F o p

/-- several operations -/
def lrun (S : DSchema N V) (F : Nat) (o : Obj N V) (ops : List (LOp N V)) : Obj N V := ops.foldl (lstep S F) o

/-- the calls of `_load` at the entry of `load_dm_sims` (`power_dm.py:268-271`) -/
def loadAll (S : DSchema N V) (F : Nat) (l : List (N × V)) (o : Obj N V) : Obj N V := lrun S F o (l.map fun e => .load e.1 e.2)

/-- the calls of `_unload` at its exit (`power_dm.py:275-278`) -/
def unloadAll (S : DSchema N V) (F : Nat) (l : List (N × V)) (o : Obj N V) : Obj N V := lrun S F o (l.map fun e => .unload e.1)

/-- `with self.load_dm_sims(val): ops` (`power_dm.py:250-278`), for the tables `l` of an allowed `val`: `raises` says that an exception escapes the block, in which case the exit half is skipped. -/
def withSims (S : DSchema N V) (F : Nat) (l : List (N × V)) (ops : List (LOp N V)) (raises : Bool) (o : Obj N V) : Obj N V :=
  let o₁ := lrun S F (loadAll S F l o) ops
  if raises then o₁ else unloadAll S F l o₁

/-- `self.k = False` for the names of `use_spt` (`power_dm.py:238-240`) -/
def turnOff (S : DSchema N V) (F : Nat) (us : List N) (o : Obj N V) : Obj N V := lrun S F o (us.map fun u => .base (.set u S.ff))

/-- `with self.use_spt(): ops` (`power_dm.py:221-248`): `us` are the names `use_*_model` among `allowable_kwargs`, which the constructor has set. The result says whether the exception reaches the caller:
the `except: pass` around the `yield` swallows it. -/
def useSpt (S : DSchema N V) (F : Nat) (us : List N) (ops : List (LOp N V)) (_raises : Bool) (o : Obj N V) : Bool × Obj N V :=
  let saved := saveParams o.st us
  let o₁ := lrun S F (turnOff S F us o) ops
  (false, ⟨restoreParams (S.at o₁.data) F saved o₁.st, o₁.data⟩)

end Verif.Loaded
