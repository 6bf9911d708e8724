/-
Model of `pyRSD/rsd/transfers/wedges.py` (`WedgeTransfer`) and of the choice of the transfer without a grid file in
`pyRSD/rsdfit/data/power_measurement.py:799-816`.

The grid, the `power` setter, `mu_edges`, `np.digitize` and `np.bincount` are those of `Model/Transfers.lean` (`transfers/__init__.py`; the text of
`mu_bounds` and `mu_edges` in `wedges.py:42-66` is that of `grid.py:41-90`).  Numbers are exact reals: a sample `mu = j / Nmu` that equals an edge is
counted as not below it, as it is in exact arithmetic.
-/
import Verif.Model.Transfers

namespace Verif.SmoothWedge

open Verif.Transfers

noncomputable section

open Classical

/-- The exceptions of a call. -/
inductive SErr where
  | base (e : TErr)   -- those of the `power` setter and of `mu_edges`
  | index             -- `IndexError` of `wedges.py:114`
  deriving DecidableEq

/-- The object: `self.grid`, `self.mu_cen`, `self.mu_bounds`. -/
structure Smooth (nk N : ℕ) where
  grid : Grid nk (N + 1)
  muCen : List ℝ
  bounds : List (ℝ × ℝ)

/-- The grid of `wedges.py:35-38`: `np.linspace(0, 1, Nmu + 1)` for every `k`, with unit weights.  (`linspace` with one point gives 0.) -/
def unitGrid {nk : ℕ} (k : Fin nk → ℝ) (N : ℕ) : Grid nk (N + 1) where
  kcen := k
  mucen := fun j => j.val / N
  k := fun i _ => k i
  mu := fun _ j => j.val / N
  modes := fun _ _ => some 1

variable {nk : ℕ}

/-- `WedgeTransfer.__init__` (`wedges.py:24-39`).  The second component is the caller's argument afterwards: the setter writes into the caller's list
(line 54). -/
def Smooth.init (k : Fin nk → ℝ) (arg : BoundsArg) (N : ℕ := 40) : Smooth nk N × BoundsArg :=
  let l := match arg with
    | .list l => l
    | .tuple b => [b]
  ({ grid := unitGrid k N, muCen := l.map (fun b => 1 / 2 * (b.1 + b.2)), bounds := l.map adjust },
   match arg with
    | .list _ => .list (l.map adjust)
    | .tuple b => .tuple b)

/-- Assignment to `mu_bounds` of an existing object (`wedges.py:41-55`): the centres are not computed again. -/
def Smooth.setBounds {N : ℕ} (t : Smooth nk N) (l : List (ℝ × ℝ)) : Smooth nk N := { t with bounds := l.map adjust }

/-- `indices` (`wedges.py:88-91`): the row-major position in an array of shape `(Nk + 2, len(mu_edges) - 1 + 2)`. -/
def index {N : ℕ} (t : Smooth nk N) (edges : List ℝ) (c : Fin nk × Fin (N + 1)) : ℕ :=
  (c.1.val + 1) * (edges.length + 1) + digitize edges (t.grid.mu c.1 c.2)

/-- `toret` and `N` before the division (`wedges.py:93-104`): row `i`, column `b` of `[1:-1, 1:-1][..., ::2]`. -/
def total {N : ℕ} (t : Smooth nk N) (edges : List ℝ) (w : Fin nk × Fin (N + 1) → Val) (i : Fin nk) (b : ℕ) : Val :=
  bincount (t.grid.valid.map (index t edges)) (t.grid.valid.map w) ((i.val + 1) * (edges.length + 1) + (1 + 2 * b))

/-- `WedgeTransfer.__call__` (`wedges.py:68-116`): as many columns as `mu_cen` has entries are copied from the `len(mu_bounds)` columns that
`[1:-1, 1:-1][..., ::2]` leaves; a missing one is an `IndexError`.  A column is indexed by its place in `mu_cen`. -/
def Smooth.call {N : ℕ} (t : Smooth nk N) (power : PowerArg nk (N + 1)) : Except SErr (Fin nk → ℕ → Val) :=
  match setPower t.grid power with
  | .error e => .error (.base e)
  | .ok p =>
    match muEdges t.bounds with
    | .error e => .error (.base e)
    | .ok edges =>
      if t.bounds.length < t.muCen.length then .error .index
      else .ok (fun i b => divV (total t edges p i b) (total t edges (fun _ => some 1) i b))

/-! ### The choice of the class -/

/-- The names that `pyRSD/rsd/transfers/__init__.py` defines or imports (lines 5, 84, 149-153). -/
def exported : List String :=
  ["PkmuGrid", "TransferBase", "GriddedWedgeTransfer", "GriddedMultipoleTransfer", "MultipoleTransfer", "WindowFunctionTransfer", "gridded_transfers"]

/-- `power_measurement.py:799-816` (and 786-797 if there is a grid file), where no window function is used: the class, or the `AttributeError` for a name
that the package does not have. -/
def transferClass (pkmu gridFile : Bool) : Except String String :=
  let name := if gridFile then (if pkmu then "GriddedWedgeTransfer" else "GriddedMultipoleTransfer")
    else (if pkmu then "WedgeTransfer" else "MultipoleTransfer")
  if name ∈ exported then .ok name else .error s!"module 'pyRSD.rsd.transfers' has no attribute '{name}'"

end

end Verif.SmoothWedge
