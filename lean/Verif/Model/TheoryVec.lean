import Verif.Model.PowerData
/-
Model of how the theory vector of a fit is assembled: `PowerData.calculate_transfer`
(`pyRSD/rsdfit/data/power_measurement.py:723-819`), `apply_transfers` (`pyRSD/rsdfit/theory/base.py:723-806`), the limits
of the gridded transfers (`pyRSD/rsd/transfers/grid.py:58-80`, `128-136`) and the grouping of the statistics
(`pyRSD/rsdfit/driver.py:359-425`), with the exceptions they raise.  A prediction is represented by the identifier and the
wavenumber it is computed for.
-/
namespace Verif.TheoryVec
open Verif.Cov (Err joinK inside)

/-- `mode` of the data (`power_measurement.py:394-398`). -/
inductive Mode where
  | poles | pkmu
  deriving DecidableEq, Repr

/-- The identifier of a statistic: the multipole number, stored as a float (`power_measurement.py:633-634`), or the bounds
of the wedge. -/
inductive Ident where
  | ell (l : Nat)
  | wedge (lo hi : Rat)
  deriving DecidableEq, Repr

/-- The kind of transfer: a window file, a grid file with these bin centres in `k`, or neither
(`power_measurement.py:756-817`). -/
inductive Kind where
  | window
  | grid (kcen : List Rat)
  | smooth
  deriving DecidableEq, Repr

/-- What a data object holds once initialised: the names of the statistics of the data file (`statistics`, which the
selection `usedata` does not touch), and, per *selected* measurement, its identifier (`ells` or `mu_bounds`), its trimmed
wavenumbers and its limits. -/
structure FitData where
  mode : Mode
  kind : Kind
  maxEllPrime : Nat
  names : List Nat
  idents : List Ident
  ks : List (List Rat)
  lims : List (Option Rat × Option Rat)
  deriving Repr

/-- `slice_data` (`power_measurement.py:904-939`) on what matters here: the identifiers in the order of `usedata` (if there
is one per statistic), the measurements in the order of the file, and the names of the statistics untouched.  Simplification:
the limits are set afterwards, one pair per selected measurement, and are given as those of the file's statistics;
`usedata` holds valid non-negative positions. -/
def usedata (use : List Nat) (f : FitData) : FitData :=
  { f with
    idents := if f.idents.length = f.ks.length then use.filterMap (fun i => f.idents[i]?) else f.idents
    ks := (f.ks.zipIdx.filter fun e => decide (e.2 ∈ use)).map (·.1)
    lims := (f.lims.zipIdx.filter fun e => decide (e.2 ∈ use)).map (·.1) }

/-- A theory value: for which identifier and wavenumber it is computed, or `nan`. -/
abbrev Cell := Option (Ident × Rat)

/-- The identifiers that go with a group of names, `[xx for i, xx in enumerate(x) if self.statistics[i] in statistics]`
(`power_measurement.py:742-749`): position `i` of the *selected* identifiers is looked up in the *unselected* names. -/
def filterIdents (f : FitData) (group : List Nat) : Except Err (List Ident) :=
  if f.idents.length ≤ f.names.length then
    .ok ((f.idents.zip f.names).filterMap fun e => if e.2 ∈ group then some e.1 else none)
  else .error .indexError

/-- The largest multipole among the identifiers; wedge bounds never exceed one and never count
(`max(self.max_ellprime, max(flatten(x)))`, `power_measurement.py:772`). -/
def Ident.top : Ident → Nat
  | .ell l => l
  | .wedge _ _ => 0
def maxEll (x : List Ident) : Nat := (x.map Ident.top).foldr max 0

/-- The even multipoles the window transfer computes: `range(0, max_ell+1, 2)` (`power_measurement.py:773`).  Simplification:
`max_ell` is the integer `max_ellprime` here (see `checkTransfer`). -/
def windowElls (top : Nat) : List Nat := (List.range (top / 2 + 1)).map (2 * ·)

/-- The measurement of a name, `self.measurements[self.statistics.index(stat)]` (`power_measurement.py:814`,
`theory/base.py:766`): the position of the name among all the names of the file, looked up among the selected
measurements. -/
def measOf (f : FitData) (n : Nat) : Except Err (List Rat) :=
  match f.ks[f.names.idxOf n]? with
  | some k => .ok k
  | none => .error .indexError

/-- The construction of the transfers for a group (`power_measurement.py:738-817`): what can fail before the theory is ever
evaluated.  The window transfer needs an integer `max_ell`, and `max` returns the float `ell` if it exceeds
`max_ellprime`; the gridded transfer broadcasts the limits of *all* the selected statistics to those of the group
(`grid.py:58-80`).  Simplification: a single window file; the files can be read. -/
def checkTransfer (f : FitData) (group : List Nat) (x : List Ident) : Except Err Unit :=
  match f.kind with
  | .window =>
    if x = [] then .error .valueError
    else if maxEll x ≤ f.maxEllPrime then .ok () else .error .typeError
  | .grid _ =>
    if f.lims.length = x.length ∨ f.lims.length = 1 then .ok () else .error .valueError
  | .smooth =>
    if group.all (fun n => decide (f.names.idxOf n < f.ks.length)) = true ∧ group.length ≤ x.length then .ok ()
    else .error .indexError

/-- `calculate_transfer` (`power_measurement.py:723-819`): the identifiers of the transfers, and the pairing
`dict(zip(statistics, x))`.  Simplification: a group never repeats a name. -/
def calculateTransfer (f : FitData) (group : List Nat) : Except Err (List Ident × List (Nat × Ident)) :=
  if group.all (fun n => decide (n ∈ f.names)) = true then
    match filterIdents f group with
    | .error e => .error e
    | .ok x =>
      match checkTransfer f group x with
      | .error e => .error e
      | .ok () => .ok (x, group.zip x)
  else .error .assertionError

/-- The limits of column `j` of a gridded transfer. -/
def limOf (f : FitData) (j : Nat) : Option Rat × Option Rat :=
  if f.lims.length = 1 then f.lims.getD 0 (none, none) else f.lims.getD j (none, none)

/-- `result.sel(**{dim: bb})` followed by the binning of the transfer (`theory/base.py:774-790`) for the identifier `id` of
the statistic with measured wavenumbers `own`.  The results of the transfers carry the multipole numbers, or the *centres*
of the wedges, as coordinate: the bounds of a wedge, a tuple, are not a label of that index, and a window transfer has no
coordinate `mu` at all.  `grids` are the wavenumbers of the measurements of the group, in its order (smooth transfers).
Simplification: the identifiers are distinct; no bin of the grid within the limits is empty. -/
def selectBin (f : FitData) (x : List Ident) (grids : List (List Rat)) (id : Ident) (own : List Rat) :
    Except Err (List Cell) :=
  match id with
  | .wedge _ _ => if f.kind = .window then .error .valueError else .error .keyError
  | .ell l =>
    match f.kind with
    | .window => if l ∈ windowElls f.maxEllPrime then .ok (own.map fun k => some (.ell l, k)) else .error .keyError
    | .grid kcen =>
      if Ident.ell l ∈ x then
        .ok ((kcen.filter (fun k => inside (limOf f (x.idxOf (.ell l))).1 (limOf f (x.idxOf (.ell l))).2 k)).map
          fun k => some (.ell l, k))
      else .error .keyError
    | .smooth =>
      if Ident.ell l ∈ x then
        .ok ((joinK grids).map fun k => if k ∈ grids.getD (x.idxOf (.ell l)) [] then some (.ell l, k) else none)
      else .error .keyError

/-- The loop over `stat_ids` (`theory/base.py:760-804`). -/
def applyIds (f : FitData) (x : List Ident) (grids : List (List Rat)) : List (Nat × Ident) → Except Err (List Cell)
  | [] => .ok []
  | e :: l =>
    match measOf f e.1 with
    | .error err => .error err
    | .ok own =>
      match selectBin f x grids e.2 own with
      | .error err => .error err
      | .ok c =>
        match applyIds f x grids l with
        | .error err => .error err
        | .ok cs => .ok (c ++ cs)

/-- The wavenumbers of the measurements of a group. -/
def gridsOf (f : FitData) (group : List Nat) : List (List Rat) := group.map fun n => f.ks.getD (f.names.idxOf n) []

/-- The theory of one group: `calculate_transfer`, then `apply_transfers`; `np.concatenate` of nothing is a `ValueError`
(`theory/base.py:806`).  Simplification: theory decorators are not modelled. -/
def groupTheory (f : FitData) (group : List Nat) : Except Err (List Cell) :=
  match calculateTransfer f group with
  | .error e => .error e
  | .ok (x, ids) => if ids = [] then .error .valueError else applyIds f x (gridsOf f group) ids

/-- The theory of a list of groups, concatenated (`driver.py:417-418`). -/
def theoryOf (f : FitData) : List (List Nat) → Except Err (List Cell)
  | [] => .ok []
  | g :: gs =>
    match groupTheory f g with
    | .error e => .error e
    | .ok c =>
      match theoryOf f gs with
      | .error e => .error e
      | .ok cs => .ok (c ++ cs)

/-- The groups (`driver.py:368-377`): one per statistic with parameters of its own, in the order of that dictionary, then
the others in the order `rest` in which Python lists the set `set(self.data.statistics) - set(stat_specific_params)`. -/
def groups (specific rest : List Nat) : List (List Nat) :=
  specific.map (fun n => [n]) ++ (if rest = [] then [] else [rest])

/-- The theory vector of the fit (`driver.py:359-425`). -/
def theory (f : FitData) (specific rest : List Nat) : Except Err (List Cell) := theoryOf f (groups specific rest)

end Verif.TheoryVec
