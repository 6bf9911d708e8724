/-
Specification of a least-recently-used cache: a list of (key, value) pairs ordered by last use, oldest first.
-/
namespace Verif.Lru
variable {K V : Type} [DecidableEq K]

/-- Using key `k` (holding `v`) makes it the most recently used. -/
def touch (l : List (K × V)) (k : K) (v : V) : List (K × V) := l.filter (fun e => decide (e.1 ≠ k)) ++ [(k, v)]

/-- Adding a new key evicts the oldest entry when the cache is full. -/
def insertNew (maxsize : Nat) (l : List (K × V)) (k : K) (v : V) : List (K × V) :=
  (if maxsize ≤ l.length then l.drop 1 else l) ++ [(k, v)]

/-- The distinct keys of a call history, most recently used first. -/
def recentKeys : List K → List K
  | [] => []
  | k :: older => k :: (recentKeys older).filter (fun x => decide (x ≠ k))

/-- Does the wrapped function return (rather than raise) on this key? -/
def isOk {E : Type} (f : K → Except E V) (k : K) : Bool := match f k with | .ok _ => true | .error _ => false

end Verif.Lru
