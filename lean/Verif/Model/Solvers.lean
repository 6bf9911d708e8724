/-
Model of the bookkeeping around the solvers: number of walkers and restarts (`pyRSD/rsdfit/solvers/emcee_solver.py`), rank splitting
(`pyRSD/rsdfit/util/mpi_manager.py`), names of result files (`pyRSD/rsdfit/util/rsd_io.py`) and the coordinated end of parallel chains
(`ChainManager`).
-/
import Mathlib.Data.List.Basic
import Mathlib.Data.Fintype.Basic
import Mathlib.Logic.Function.Basic

namespace Verif.Solvers

/-! ### Walkers -/

/-- The number of walkers used by `emcee_solver.run` (`emcee_solver.py:278-286`) for `walkers` requested and `ndim` free parameters. -/
def nWalkers (walkers ndim : ℤ) : ℤ :=
  let w := if 2 * ndim > walkers then 2 * ndim else walkers
  if w % 2 ≠ 0 then w + 1 else w

/-! ### Splitting ranks -/

/-- The loop of `split_ranks` (`mpi_manager.py:9-21`); `left` iterations remain, chunks are `(start, end)` (clipping of the slice at `N` not needed). -/
def splitLoop (avg : ℕ) : ℕ → ℕ → ℕ → ℕ → List (ℕ × ℕ)
  | 0, _, _, _ => []
  | left + 1, remainder, start, stop =>
    let stop' := if remainder ≠ 0 then stop + 1 else stop
    let remainder' := if remainder ≠ 0 then remainder - 1 else remainder
    (start, stop') :: splitLoop avg left remainder' stop' (stop' + avg)

/-- `split_ranks(N_ranks, N_chunks)` (`mpi_manager.py:5-21`): the chunks `seq[start:end]` as lists of ranks. -/
def splitRanks (nRanks nChunks : ℕ) : List (List ℕ) :=
  (splitLoop (nRanks / nChunks) nChunks (nRanks % nChunks) 0 (nRanks / nChunks)).map fun c => ((List.range nRanks).take c.2).drop c.1

/-- The masters and the colour of each rank found by `MPIManager.__enter__` (`mpi_manager.py:64-68`): `none` for the `IndexError` of
`ranks[0]` on an empty chunk. -/
def masters (nRanks nRuns : ℕ) : Option (List ℕ) := (splitRanks nRanks nRuns).mapM fun r => r.head?

/-! ### Output files -/

/-- `files.split('__')[-1]`: what follows the last separator found scanning from the left; `cur` is the current field. -/
def lastField (cur : List Char) : List Char → List Char
  | [] => cur
  | [c] => cur ++ [c]
  | a :: b :: t => if a = '_' ∧ b = '_' then lastField [] t else lastField (cur ++ [a]) (b :: t)

/-- `s.split('.')[0]` -/
def beforeDot (s : List Char) : List Char := s.takeWhile (· ≠ '.')

/-- `s.find(t) != -1` -/
def contains (t : List Char) : List Char → Bool
  | [] => t.isPrefixOf []
  | a :: s => t.isPrefixOf (a :: s) || contains t s

/-- The number of a file (`rsd_io.py:93`); `int` is Python's `int`, `none` for `ValueError`. -/
def fileNumber (int : List Char → Option ℤ) (file : List Char) : Option ℤ := int (beforeDot (lastField [] file))

/-- The largest number among the matching files, at least `suffix` (`rsd_io.py:90-94`); `none` for a `ValueError`. -/
def maxSuffix (int : List Char → Option ℤ) (base : List Char) : List (List Char) → ℤ → Option ℤ
  | [], suffix => some suffix
  | f :: t, suffix =>
    if contains base f then
      match fileNumber int f with
      | none => none
      | some m => maxSuffix int base t (if m > suffix then m else suffix)
    else maxSuffix int base t suffix

/-- `outname_base + str(suffix) + '.npz'` (`rsd_io.py:97`, `rsd_io.py:102`) -/
def fileName (base : List Char) (suffix : ℕ) : List Char := base ++ Nat.toDigits 10 suffix ++ ".npz".toList

/-- The `while True` loop (`rsd_io.py:96-101`) with `fuel` passes. -/
def firstFree (folder : List (List Char)) (base : List Char) : ℕ → ℕ → ℕ
  | 0, suffix => suffix
  | fuel + 1, suffix => if fileName base suffix ∈ folder then firstFree folder base fuel (suffix + 1) else suffix

/-- `create_output_file` (`rsd_io.py:65-107`) from the base name on: the number and the folder afterwards; `none` for a `ValueError`.
The suffix is at least 0 (it starts there), so it is a natural number. -/
def createFile (int : List Char → Option ℤ) (folder : List (List Char)) (base : List Char) : Option (ℕ × List (List Char)) :=
  match maxSuffix int base folder 0 with
  | none => none
  | some suffix =>
    let s := firstFree folder base (folder.length + 1) (suffix.toNat + 1)
    some (s, folder ++ [fileName base s])

/-! ### Parallel chains -/

/-- Why a chain leaves its loop (`emcee_solver.py:95-117`): Ctrl-C, convergence, a request to exit (a signal or a message), any other error. -/
inductive Exc where
  | keyboard
  | converged
  | exiting
  | error
  deriving DecidableEq

/-- `self.tags` (`emcee_solver.py:48`) -/
inductive Tag where
  | CONVERGED
  | EXIT
  | CTRL_C
  deriving DecidableEq

/-- The tag sent by `__exit__` (`emcee_solver.py:105-115`) -/
def tagOf : Exc → Tag
  | .keyboard => .CTRL_C
  | .converged => .CONVERGED
  | .exiting => .EXIT
  | .error => .EXIT

/-- `self.exception` after `__exit__` (`emcee_solver.py:117-120`): whether the exception is reported to the caller. -/
def reported : Exc → Bool
  | .converged => false
  | .exiting => false
  | _ => true

/-- Where a chain is: iterating, waiting at the barrier of `check_convergence` (line 84), or out of the loop (`none`: all iterations done). -/
inductive Where where
  | running
  | waiting
  | stopped (e : Option Exc)
  deriving DecidableEq

/-- All chains: where each is, messages sent and those that have arrived (each chain sends at most one message to each other). -/
structure World (N : ℕ) where
  at_ : Fin N → Where
  sent : Fin N → Fin N → Option Tag
  arrived : Fin N → Fin N → Option Tag

/-- The state in which all chains start. -/
def World.start (N : ℕ) : World N := ⟨fun _ => .running, fun _ _ => none, fun _ _ => none⟩

/-- Chain `r` leaves the loop with exception `e`: `__exit__` sends the tag to every other rank (`emcee_solver.py:123-127`). -/
def World.leave {N : ℕ} (w : World N) (r : Fin N) (e : Exc) : World N :=
  { w with at_ := Function.update w.at_ r (.stopped (some e)),
           sent := fun s d => if s = r ∧ d ≠ r then some (tagOf e) else w.sent s d }

/-- `check_status` (`emcee_solver.py:60-69`): the exception it raises. `Iprobe` does not remove the message. -/
def World.status {N : ℕ} (w : World N) (r : Fin N) : Option Exc :=
  if ∃ s, w.arrived s r = some .EXIT then some .exiting
  else if ∃ s, w.arrived s r = some .CONVERGED then some .converged
  else if ∃ s, w.arrived s r = some .CTRL_C then some .keyboard
  else none

/-- What may happen. `check r`: rank `r` calls `check_status`; `raise_ r e`: an exception (signal, error in the likelihood, Ctrl-C) occurs in `r`;
`finish r`: all iterations done; `deliver s d`: the message from `s` reaches `d`; `barrier r`: `r` waits in `check_convergence` (line 84);
`release c`: all ranks are waiting and go on, rank 0 with `ConvergenceException` if `c` (lines 84-88). -/
inductive Ev (N : ℕ) where
  | check (r : Fin N)
  | raise_ (r : Fin N) (e : Exc)
  | finish (r : Fin N)
  | deliver (s d : Fin N)
  | barrier (r : Fin N)
  | release (c : Bool)

/-- One event; an event that is not possible changes nothing. -/
def World.step {N : ℕ} (w : World N) : Ev N → World N
  | .check r => if w.at_ r = .running then (match w.status r with | some e => w.leave r e | none => w) else w
  | .raise_ r e => if w.at_ r = .running then w.leave r e else w
  | .finish r => if w.at_ r = .running then { w with at_ := Function.update w.at_ r (.stopped none) } else w
  | .deliver s d => { w with arrived := fun s' d' => if s' = s ∧ d' = d then w.sent s d else w.arrived s' d' }
  | .barrier r => if w.at_ r = .running then { w with at_ := Function.update w.at_ r .waiting } else w
  | .release c =>
    if ∀ r, w.at_ r = .waiting then
      let w' : World N := { w with at_ := fun _ => .running }
      if h : 0 < N then (if c then w'.leave ⟨0, h⟩ .converged else w') else w'
    else w

/-- An execution: any sequence of events. -/
def World.run {N : ℕ} (w : World N) (evs : List (Ev N)) : World N := evs.foldl World.step w

end Verif.Solvers
