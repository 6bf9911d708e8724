import Verif.Model.Cache
/-
Specification vocabulary for the caching framework: what it means for a class to be well formed and for one attribute
to depend on another.  None of this mentions `_deps`, `_cache` or the inversion algorithm.
-/
namespace Verif.Cache
variable {N V : Type} [DecidableEq N]

/-- The body reads only attributes in `ps`, whatever values those reads return. -/
def Body.ReadsOnly (ps : List N) : Body N V → Prop
  | .ret _ => True
  | .raise => True
  | .read n k => n ∈ ps ∧ ∀ v, (k v).ReadsOnly ps

/-- `n` declares `m` as a parent. -/
def Schema.Declares (s : Schema N V) (n m : N) : Prop :=
  ∃ ps b i, s.lookup n = some (.cached ps b i) ∧ m ∈ ps

/-- `n` is a parameter whose default is the attribute `m`. -/
def Schema.DefaultsTo (s : Schema N V) (n m : N) : Prop :=
  ∃ f, s.lookup n = some (.param f (.attr m))

/-- `n` depends on `m` through a (non-empty) chain of declared parents. -/
inductive Schema.Reach (s : Schema N V) : N → N → Prop
  | one {n m} : s.Declares n m → s.Reach n m
  | cons {n m l} : s.Declares n m → s.Reach m l → s.Reach n l

/-- Reading `n` may end up reading `m`: zero or more steps through declared parents or attribute-valued defaults. -/
inductive Schema.MayRead (s : Schema N V) : N → N → Prop
  | refl (n) : s.MayRead n n
  | cons {n m l} : (s.Declares n m ∨ s.DefaultsTo n m) → s.MayRead m l → s.MayRead n l

def Schema.IsParam (s : Schema N V) (p : N) : Prop := ∃ f d, s.lookup p = some (.param f d)
def Schema.IsCached (s : Schema N V) (n : N) : Prop := ∃ ps b i, s.lookup n = some (.cached ps b i)

/-- The declarations of a class make sense: the declared dependency graph is acyclic (witnessed by `rank`) and every
declared parent exists.  Says nothing about what the bodies read. -/
structure Schema.Shape (s : Schema N V) (rank : N → Nat) : Prop where
  acyclic : ∀ n m, (s.Declares n m ∨ s.DefaultsTo n m) → rank m < rank n
  parents_exist : ∀ c n ps b i, c ∈ s.mro → c.lookup n = some (.cached ps b i) → ∀ m ∈ ps, s.lookup m ≠ Option.none

/-- A class the framework is meant for: the dependency graph is acyclic (witnessed by `rank`), every declared parent
exists, and every cached attribute's body reads only its declared parents. -/
structure Schema.WellFormed (s : Schema N V) (rank : N → Nat) : Prop extends s.Shape rank where
  reads : ∀ n ps b i, s.lookup n = some (.cached ps b i) → b.ReadsOnly ps

/-- Attribute-valued defaults are covered by declarations: whenever a cached attribute may end up reading a parameter
through such a default, it also depends on that parameter through declared parents. -/
def Schema.DefaultsCovered (s : Schema N V) : Prop :=
  ∀ n p, s.IsCached n → s.IsParam p → s.MayRead n p → s.Reach n p

/-- The object reads `n` as a brand-new object with the same parameter values would. -/
def ReadsFresh (s : Schema N V) (fuel : Nat) (σ : State N V) (n : N) : Prop :=
  (getAttr s fuel n σ).1 = (getAttr s fuel n (State.fresh σ.params)).1

end Verif.Cache
