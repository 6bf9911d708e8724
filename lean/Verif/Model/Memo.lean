/-
Model of the evaluation memo: `cacheable`, `cache_on`, `cache_off` (`pyRSD/rsd/tools.py:131-163`), the context manager
`use_cache` (`pyRSD/rsd/power/dm/power_dm.py:161-175`), and the per-object memo `memoize`
(`pyRSD/rsd/power/__init__.py:4-20`).
-/
namespace Verif.Memo

/-- A decorated call `obj.f(*args, **kws)`: the object's identity, its class name, the function name, the positional and
the keyword arguments.  Simplification: names and arguments are natural numbers, the SHA hash of `get_hash_key`
(`tools.py:38-49`) is taken to be injective. -/
structure Call where
  obj : Nat
  cls : Nat
  fn : Nat
  args : Nat
  kws : Nat
  deriving DecidableEq, Repr

/-- `hashkey` (`tools.py:154-155`): class name, function name and positional arguments only. -/
def Call.key (c : Call) : Nat × Nat × Nat := (c.cls, c.fn, c.args)

/-- The process: the state `S` on which evaluations depend (model parameters), and `_global_cache`. -/
structure Proc (S V : Type) where
  st : S
  memo : Option (List ((Nat × Nat × Nat) × V))

/-- Code run by a user: calls, parameter changes, `with model.use_cache():` blocks, raising. -/
inductive Prog (S : Type) where
  | skip
  | call (c : Call)
  | update (g : S → S)
  | seq (a b : Prog S)
  | withCache (body : Prog S)
  | fail

variable {S V : Type}

/-- `wrap(self, *args, **kws)` (`tools.py:150-161`).  `none` = the evaluation raises (then nothing is stored). -/
def evalCall (f : Call → S → Option V) (c : Call) (p : Proc S V) : Option V × Proc S V :=
  match p.memo with
  | some d =>
    match d.lookup c.key with
    | some v => (some v, p)
    | none => match f c p.st with
      | some v => (some v, { p with memo := some ((c.key, v) :: d) })
      | none => (none, p)
  | none => (f c p.st, p)

/-- Execution: the list of results returned by calls, the process afterwards, and whether an exception is propagating.
`withCache` is `cache_on(); try: yield; except: raise; finally: cache_off()` (`power_dm.py:169-175`). -/
def exec (f : Call → S → Option V) : Prog S → Proc S V → List V × Proc S V × Bool
  | .skip, p => ([], p, false)
  | .call c, p => match evalCall f c p with
    | (some v, p') => ([v], p', false)
    | (none, p') => ([], p', true)
  | .update g, p => ([], { p with st := g p.st }, false)
  | .seq a b, p => match exec f a p with
    | (o, p', true) => (o, p', true)
    | (o, p', false) => match exec f b p' with
      | (o', p'', e) => (o ++ o', p'', e)
  | .withCache body, p => match exec f body { p with memo := some [] } with
    | (o, p', e) => (o, { p' with memo := none }, e)
  | .fail, p => ([], p, true)

/-- The same code with memoisation removed (every decorated function is the bare one). -/
def execBare (f : Call → S → Option V) : Prog S → S → List V × S × Bool
  | .skip, s => ([], s, false)
  | .call c, s => match f c s with
    | some v => ([v], s, false)
    | none => ([], s, true)
  | .update g, s => ([], g s, false)
  | .seq a b, s => match execBare f a s with
    | (o, s', true) => (o, s', true)
    | (o, s', false) => match execBare f b s' with
      | (o', s'', e) => (o ++ o', s'', e)
  | .withCache body, s => execBare f body s
  | .fail, s => ([], s, true)

/-- `memoize` (`power/__init__.py:4-20`): a per-object dict without invalidation, keyed by the hash of `k`; `t` is the
object's own dict, `g` the underlying function of the current model state. -/
def memoCall {K : Type} [DecidableEq K] (g : K → V) (t : List (K × V)) (k : K) : V × List (K × V) :=
  match t.lookup k with
  | some v => (v, t)
  | none => (g k, (k, g k) :: t)

end Verif.Memo
