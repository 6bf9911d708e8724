/-
Model of `pyRSD/extern/backports/lru_cache.py` (the fallback `lru_cache` decorator), size-limited branch with its
circular doubly linked list kept as a heap of links, plus the unlimited and the size-0 branch.

Keys are an arbitrary type `K` with decidable equality (the result of `_make_key`, or the argument tuple), results an
arbitrary type `V`.  A wrapped function is `f : K → Except E V` (`.error` = it raises).
-/
namespace Verif.Lru

/-- A list cell `[PREV, NEXT, KEY, RESULT]` (`lru_cache.py:71`, `74`). -/
structure Link (K V : Type) where
  prev : Nat
  next : Nat
  key : Option K
  result : Option V

/-- The closure variables of the size-limited wrapper (`lru_cache.py:62-74`): the cells by address, the dict
`cache` (key ↦ cell), the root cell, the next unused address, and `stats`. -/
structure Mem (K V : Type) where
  heap : Nat → Link K V
  cache : List (K × Nat)
  root : Nat
  fresh : Nat
  hits : Nat
  misses : Nat

variable {K V : Type} [DecidableEq K]

/-- `root[:] = [root, root, None, None]`, empty dict, zero statistics (`lru_cache.py:64-73`). -/
def Mem.init : Mem K V := ⟨fun _ => ⟨0, 0, none, none⟩, [], 0, 1, 0, 0⟩

/-- Assignment to the `NEXT`, `PREV`, `KEY`/`RESULT` fields of the cell at an address. -/
def setNext (h : Nat → Link K V) (a b : Nat) : Nat → Link K V := fun x => if x = a then { h x with next := b } else h x
def setPrev (h : Nat → Link K V) (a b : Nat) : Nat → Link K V := fun x => if x = a then { h x with prev := b } else h x
def setKV (h : Nat → Link K V) (a : Nat) (k : Option K) (v : Option V) : Nat → Link K V :=
  fun x => if x = a then { h x with key := k, result := v } else h x
/-- Allocation of a new cell. -/
def setLink (h : Nat → Link K V) (a : Nat) (l : Link K V) : Nat → Link K V := fun x => if x = a then l else h x

/-- `del d[k]` on an association-list dict. -/
def dictDel {β : Type} (d : List (K × β)) (k : K) : List (K × β) := d.filter (fun e => decide (e.1 ≠ k))

/-- First locked section of `wrapper` (`lru_cache.py:105-118`): on a hit, move the link to the front and return the
stored result.  `none` = miss. -/
def look (m : Mem K V) (k : K) : Option (Option V) × Mem K V :=
  match m.cache.lookup k with
  | some a =>
    let link := m.heap a
    let h1 := setNext m.heap link.prev link.next      -- link_prev[NEXT] = link_next
    let h2 := setPrev h1 link.next link.prev          -- link_next[PREV] = link_prev
    let last := (h2 m.root).prev                      -- last = root[PREV]
    let h3 := setNext h2 last a                       -- last[NEXT] = link
    let h4 := setPrev h3 m.root a                     -- root[PREV] = link
    let h5 := setPrev h4 a last                       -- link[PREV] = last
    let h6 := setNext h5 a m.root                     -- link[NEXT] = root
    (some link.result, { m with heap := h6, hits := m.hits + 1 })
  | none => (none, m)

/-- Second locked section of `wrapper` (`lru_cache.py:120-144`), reached when the wrapped function has returned `v`.
`none` = the `KeyError` of `del cache[oldkey]` (`root[KEY]` of the new root is not a key of the dict). -/
def store (maxsize : Nat) (m : Mem K V) (k : K) (v : V) : Option (Mem K V) :=
  match m.cache.lookup k with
  | some _ => some { m with misses := m.misses + 1 }
  | none =>
    if maxsize ≤ m.cache.length then
      let h1 := setKV m.heap m.root (some k) (some v)
      let newroot := (h1 m.root).next
      let oldkey := (h1 newroot).key
      let h2 := setKV h1 newroot none none
      match oldkey with
      | none => none
      | some ok =>
        match m.cache.lookup ok with
        | none => none
        | some _ =>
          some { m with heap := h2, root := newroot, cache := (k, m.root) :: dictDel m.cache ok,
                        misses := m.misses + 1 }
    else
      let last := (m.heap m.root).prev
      let a := m.fresh
      let h1 := setLink m.heap a ⟨last, m.root, some k, some v⟩
      let h2 := setNext h1 last a
      let h3 := setPrev h2 m.root a
      some { m with heap := h3, cache := (k, a) :: m.cache, fresh := m.fresh + 1, misses := m.misses + 1 }

/-- `cache_clear()` (`lru_cache.py:152-158`). -/
def clear (m : Mem K V) : Mem K V :=
  { m with cache := [], heap := setLink m.heap m.root ⟨m.root, m.root, none, none⟩, hits := 0, misses := 0 }

/-- What happens at the lock, in the order in which the lock is taken.  Threads (or recursive calls) interleave
arbitrarily: `look k` is the first section of a call with key `k`, `stored k v` the second section of a call whose
evaluation returned `v`, `clear` a `cache_clear()`. -/
inductive Ev (K V : Type) where
  | look (k : K)
  | stored (k : K) (v : V)
  | clear

/-- Run one section; the output is the value returned to the caller on a hit or by the second section. -/
def stepEv (maxsize : Nat) (m : Mem K V) : Ev K V → Option (Option V × Mem K V)
  | .look k => match look m k with
    | (some r, m') => some (r, m')
    | (none, m') => some (none, m')
  | .stored k v => (store maxsize m k v).map (fun m' => (some v, m'))
  | .clear => some (none, clear m)

/-- Run a schedule; the outputs of its sections, and the memory at the end. -/
def runEv (maxsize : Nat) : Mem K V → List (Ev K V) → Option (List (Option V) × Mem K V)
  | m, [] => some ([], m)
  | m, e :: es => match stepEv maxsize m e with
    | some (r, m') => match runEv maxsize m' es with
      | some (rs, m'') => some (r :: rs, m'')
      | none => none
    | none => none

/-- The (key, result) cells met when following `NEXT` for `n` steps from an address: how an observer reads the order of
the stored entries, oldest first. -/
def walk (h : Nat → Link K V) : Nat → Nat → List (Option K × Option V)
  | 0, _ => []
  | n + 1, a => ((h a).key, (h a).result) :: walk h n (h a).next

/-- One complete call, size-limited branch (`lru_cache.py:102-145`), without interleaving.  The outer `Option` is
`none` iff the wrapper itself crashes. -/
def call {E : Type} (maxsize : Nat) (f : K → Except E V) (m : Mem K V) (k : K) :
    Option (Except E (Option V) × Mem K V) :=
  match look m k with
  | (some r, m') => some (.ok r, m')
  | (none, m') =>
    match f k with
    | .error e => some (.error e, m')
    | .ok v => (store maxsize m' k v).map (fun m'' => (.ok (some v), m''))

/-- A sequence of calls. -/
def calls {E : Type} (maxsize : Nat) (f : K → Except E V) : Mem K V → List K → Option (List (Except E (Option V)) × Mem K V)
  | m, [] => some ([], m)
  | m, k :: ks => match call maxsize f m k with
    | none => none
    | some (r, m') => match calls maxsize f m' ks with
      | none => none
      | some (rs, m'') => some (r :: rs, m'')

/-- State of the unlimited branch and of the size-0 branch: dict and statistics. -/
structure Simple (K V : Type) where
  cache : List (K × V)
  hits : Nat
  misses : Nat

/-- `maxsize is None` (`lru_cache.py:86-96`). -/
def callUnlimited {E : Type} (f : K → Except E V) (m : Simple K V) (k : K) : Except E V × Simple K V :=
  match m.cache.lookup k with
  | some v => (.ok v, { m with hits := m.hits + 1 })
  | none => match f k with
    | .error e => (.error e, m)
    | .ok v => (.ok v, { cache := (k, v) :: m.cache, hits := m.hits, misses := m.misses + 1 })

/-- `maxsize == 0` (`lru_cache.py:78-84`). -/
def callZero {E : Type} (f : K → Except E V) (m : Simple K V) (k : K) : Except E V × Simple K V :=
  match f k with
  | .error e => (.error e, m)
  | .ok v => (.ok v, { m with misses := m.misses + 1 })

end Verif.Lru
