import Verif.Spec.Cache
/-
Specification vocabulary for classes whose cached attributes may read *more* than they declare: `rd n` lists the
attributes that the code computing `n` can read.
-/
namespace Verif.Cache
variable {N V : Type} [DecidableEq N]

/-- The code computing each cached attribute `n` reads only attributes in `rd n`. -/
def Schema.ReadsBounded (s : Schema N V) (rd : N → List N) : Prop :=
  ∀ n ps b i, s.lookup n = some (.cached ps b i) → b.ReadsOnly (rd n)

/-- Reading `n` may directly read `m`: because the code of `n` does, or because `m` is the default of parameter `n`. -/
def Schema.ReadStep (s : Schema N V) (rd : N → List N) (n m : N) : Prop :=
  (s.IsCached n ∧ m ∈ rd n) ∨ s.DefaultsTo n m

/-- Reading `n` may end up reading `m`, through any number of steps. -/
inductive Schema.MayReadVia (s : Schema N V) (rd : N → List N) : N → N → Prop
  | refl (n) : s.MayReadVia rd n n
  | cons {n m l} : s.ReadStep rd n m → s.MayReadVia rd m l → s.MayReadVia rd n l

/-- Changing `p` cannot make `n` stale: every cached attribute `m` that reading `n` may evaluate and that may end up
reading `p` depends on `p` through declared parents. -/
def Schema.SafeFor (s : Schema N V) (rd : N → List N) (n p : N) : Prop :=
  ∀ m, s.MayReadVia rd n m → s.IsCached m → s.MayReadVia rd m p → s.Reach m p

end Verif.Cache
