import Verif.Model.Cov
/-
Model of `PowerMeasurement` and `PowerData` (`pyRSD/rsdfit/data/power_measurement.py`): masks, k-limits, covariance
trimming, selection of statistics, error bars, rescaling of the inverse covariance, and the alignment of the theory vector
(`pyRSD/rsdfit/driver.py:359-425`, `pyRSD/rsdfit/theory/base.py:723-806`).
-/
namespace Verif.Cov
open Verif.Cache (Val objEq closeTo)

/-- A measurement: the label by which the covariance coordinates identify it (`identifier`: `ell` or mean `mu`), the
untrimmed input columns, and the current limits (`none` = infinite) (`power_measurement.py:149-190`, `221-240`).
`mu` is `none` for a multipole. -/
structure Meas where
  stat : Rat
  kIn : List Rat
  muIn : Option (List Rat)
  powerIn : List Rat
  errorIn : List Rat
  kmin : Option Rat
  kmax : Option Rat
  deriving DecidableEq, Repr

/-- Boolean-mask indexing `column[mask]`. -/
def maskSel {β : Type} (mask : List Bool) (l : List β) : List β :=
  ((mask.zip l).filter (fun e => e.1)).map (fun e => e.2)

/-- `_trim_idx` (`power_measurement.py:264-269`). -/
def Meas.trimIdx (m : Meas) : List Bool := m.kIn.map (inside m.kmin m.kmax)
/-- `k`, `mu`, `power`, `error`, `size` (`power_measurement.py:271-311`). -/
def Meas.k (m : Meas) : List Rat := maskSel m.trimIdx m.kIn
def Meas.mu (m : Meas) : Option (List Rat) := m.muIn.map (maskSel m.trimIdx)
def Meas.power (m : Meas) : List Rat := maskSel m.trimIdx m.powerIn
def Meas.error (m : Meas) : List Rat := maskSel m.trimIdx m.errorIn
def Meas.size (m : Meas) : Nat := m.k.length

/-- `allclose` on limits; infinities of the same sign are close. -/
def limClose : Option Rat → Option Rat → Bool
  | none, none => true
  | some a, some b => closeTo a b
  | _, _ => false

/-- A data set: measurements, covariance, the stored `kmin`/`kmax` arrays (`none` = not yet set), and the cached
`combined_power` (`power_measurement.py:677-718`, `1102-1108`). -/
structure Data where
  meas : List Meas
  cov : Cov
  kmin : Option (List (Option Rat))
  kmax : Option (List (Option Rat))
  cachedPower : Option (List Rat)
  deriving DecidableEq, Repr

/-- Outcome of a method call: it may raise after having changed the object. -/
abbrev Res := Data × Option Err

/-- Is the newly computed limit array considered unchanged by the `parameter` descriptor (`_cache.py:211-231`)? -/
def limEq (old : Option (List (Option Rat))) (new : List (Option Rat)) : Bool :=
  match old with
  | none => false
  | some o => (new.zip o).all fun e => limClose e.1 e.2

/-- `data.kmin = val` (`power_measurement.py:690-703` and the descriptor): broadcast, push the limits into the
measurements, replace the covariance by its trimmed version, and only then store the array (unless `allclose` to the old
one), dropping the cached combined vectors. -/
def Data.setKmin (d : Data) (val : List (Option Rat)) : Res :=
  match broadcast d.meas.length val with
  | .error e => (d, some e)
  | .ok lims =>
    let meas := List.zipWith (fun m l => { m with kmin := l }) d.meas lims
    match d.cov.trimK lims [none] with
    | .error e => ({ d with meas := meas }, some e)
    | .ok cov =>
      if limEq d.kmin lims then ({ d with meas := meas, cov := cov }, none)
      else ({ d with meas := meas, cov := cov, kmin := some lims, cachedPower := none }, none)

/-- `data.kmax = val` (`power_measurement.py:705-718`). -/
def Data.setKmax (d : Data) (val : List (Option Rat)) : Res :=
  match broadcast d.meas.length val with
  | .error e => (d, some e)
  | .ok lims =>
    let meas := List.zipWith (fun m l => { m with kmax := l }) d.meas lims
    match d.cov.trimK [none] lims with
    | .error e => ({ d with meas := meas }, some e)
    | .ok cov =>
      if limEq d.kmax lims then ({ d with meas := meas, cov := cov }, none)
      else ({ d with meas := meas, cov := cov, kmax := some lims, cachedPower := none }, none)

/-- `combined_power` (`power_measurement.py:1102-1108`), a cached property; also returns the object. -/
def Data.combinedPower (d : Data) : List Rat × Data :=
  match d.cachedPower with
  | some p => (p, d)
  | none => (d.meas.flatMap Meas.power, { d with cachedPower := some (d.meas.flatMap Meas.power) })

/-- `m._error_input = new` through the descriptor. -/
def Meas.setError (m : Meas) (new : List Rat) : Meas :=
  if objEq (.array new) (.array m.errorIn) then m else { m with errorIn := new }

/-- `rescale_inverse_covar` (`power_measurement.py:966-985`) for `Ns` mocks; `invSqrt` is the float power `x**(-0.5)`.
`Ns = 1` is a division by zero (an exception for Python ints, here `typeError`). -/
def Data.rescale (invSqrt : Rat → Rat) (Ns : Int) (d : Data) : Res :=
  if 0 < Ns then
    if Ns = 1 then (d, some .typeError)
    else
      let nb := d.combinedPower.1.length
      let d := d.combinedPower.2
      let r : Rat := ((Ns - nb - 2 : Int) : Rat) / ((Ns - 1 : Int) : Rat)
      ({ d with cov := { d.cov with resc := r },
                meas := d.meas.map fun m => m.setError (m.errorIn.map fun e => e * invSqrt r) }, none)
  else (d, none)

/-- `set_k_limits` (`power_measurement.py:941-964`): first all the minima, then all the maxima of `fitting_range`, given as
one pair or as one pair per statistic. -/
def Data.setKLimits (d : Data) (range : List (Option Rat × Option Rat)) : Res :=
  match d.setKmin (range.map (·.1)) with
  | (d1, some e) => (d1, some e)
  | (d1, none) => d1.setKmax (range.map (·.2))

/-- The end of `initialize` (`power_measurement.py:643-681`) on the loaded and sliced data: set the limits, rescale the
inverse for `Ns` mocks, check that the sizes agree. -/
def Data.initialize (invSqrt : Rat → Rat) (range : List (Option Rat × Option Rat)) (Ns : Int) (d : Data) : Res :=
  match d.setKLimits range with
  | (d1, some e) => (d1, some e)
  | (d1, none) => match d1.rescale invSqrt Ns with
    | (d2, some e) => (d2, some e)
    | (d2, none) => if d2.combinedPower.1.length = d2.cov.N then (d2.combinedPower.2, none)
      else (d2.combinedPower.2, some .valueError)

/-- The inverse used by chi2: `np.linalg.inv(values) * inverse_rescaling` (`covariance_matrix.py:564-569`), with `inv` any
function standing for the numerical inversion. -/
def Cov.inverse (inv : Nat → (Nat → Nat → Rat) → Nat → Nat → Rat) (c : Cov) : Nat → Nat → Rat :=
  fun i j => inv c.N c.values i j * c.resc

/-- `set_errors_from_cov` (`power_measurement.py:894-902`): measurement `i` of size `s` gets the square roots of
`variances[s*i : s*(i+1)]`.  `sqrt` stands for `x**0.5`. -/
def setErrorsFromCov (sqrt : Rat → Rat) (d : Data) : Except Err Data :=
  match diag d.cov.N d.cov.data with
  | .error e => .error e
  | .ok var => .ok { d with
      meas := d.meas.mapIdx fun i m => m.setError (((var.drop (m.size * i)).take (m.size * (i + 1) - m.size * i)).map sqrt) }

/-- `slice_data` (`power_measurement.py:904-939`) with `usedata = use`: the covariance keeps the rows of the selected
labels, `ells`/`mu_bounds` are taken in the order of `usedata`, and the measurements in their original order.  The result
also returns the sliced `ells`.  Simplification: `usedata` holds non-negative valid indices. -/
def sliceData (d : Data) (ells : List Rat) (use : List Nat) : Except Err (Data × List Rat) :=
  let labels := use.map fun i => d.cov.stats.getD i 0
  let keep (cs : List Coord) := ((List.range cs.length).filter fun i =>
    decide ((cs.getD i (0, 0)).1 ∈ labels)).map Int.ofNat
  match d.cov.isel (some [keep d.cov.coords1]) (some [keep d.cov.coords2]) with
  | .error e => .error e
  | .ok (.array ..) => .error .typeError
  | .ok (.cov c) =>
    let ells' := if ells.length = d.meas.length then use.map fun i => ells.getD i 0 else ells
    let meas := (d.meas.zipIdx.filter fun e => decide (e.2 ∈ use)).map (·.1)
    .ok ({ d with meas := meas, cov := c, cachedPower := none }, ells')

/-- `flat_slices` (`power_measurement.py:1135-1143`): the pairs (start, stop) cut out by the cumulative sums. -/
def cumsums (l : List Nat) : List Nat := (List.range (l.length + 1)).map fun n => (l.take n).sum
def flatSlices (sizes : List Nat) : List (Nat × Nat) :=
  (List.range sizes.length).map fun i => ((cumsums sizes).getD i 0, (cumsums sizes).getD (i + 1) 0)

/-- One statistic of the data: its name, its identifier (`ell` or mu bounds) and its trimmed k grid. -/
structure StatInfo where
  name : Nat
  ident : Rat
  ks : List Rat
  deriving DecidableEq, Repr

/-- The `k` coordinate of `xr.concat(results)` (`theory/base.py:754-755`): xarray joins the indexes of the concatenated
arrays with `join="outer"`, i.e. equal indexes are kept and different ones replaced by their sorted union. -/
def insertK (a : Rat) : List Rat → List Rat
  | [] => [a]
  | b :: l => if a < b then a :: b :: l else if a = b then b :: l else b :: insertK a l
def joinK : List (List Rat) → List Rat
  | [] => []
  | g :: gs => if gs.all (fun h => decide (h = g)) then g else (g ++ gs.flatten).foldr insertK []

/-- How the theory is binned: through a window function (splined onto each measurement's k grid) or by the smooth
transfers, one per statistic (`power_measurement.py:756-816`). -/
inductive Transfer where
  | window | smooth
  deriving DecidableEq, Repr

/-- The k grid of the named measurement, `self.measurements[self.statistics.index(stat)].k`. -/
def gridOf (stats : List StatInfo) (n : Nat) : List Rat :=
  match stats.find? (fun s => s.name = n) with
  | some s => s.ks
  | none => []

/-- The theory values of one statistic of a group whose transfers live on the grids `gs`: the paired identifier on the named
measurement's grid; for smooth transfers on the joined grid, with `none` (nan) where the transfer has no value. -/
def piece (tr : Transfer) (gs : List (List Rat)) (ident : Rat) (own : List Rat) : List (Option (Rat × Rat)) :=
  match tr with
  | .window => own.map fun k => some (ident, k)
  | .smooth => (joinK gs).map fun k => if k ∈ own then some (ident, k) else none

/-- The theory pieces of one group of statistics: `calculate_transfer` filters the identifiers in *data* order
(`power_measurement.py:742-749`) and pairs them positionally with the names of the group, in *group* order
(`dict(zip(statistics, x))`, `power_measurement.py:819`; `cls(m.k, x[i])`, `811-816`); `apply_transfers`
(`theory/base.py:759-806`) then emits, per name in group order, the prediction for the paired identifier.  A prediction is
represented by the pair (identifier, k) it is computed for.  Gridded transfers and theory decorators are not modelled. -/
def groupPieces (tr : Transfer) (stats : List StatInfo) (group : List Nat) : List (Option (Rat × Rat)) :=
  let x := (stats.filter fun s => decide (s.name ∈ group)).map (·.ident)
  (group.zip x).flatMap fun e => piece tr (group.map (gridOf stats)) e.2 (gridOf stats e.1)

/-- `_get_theory_callables` (`driver.py:359-425`): one group per statistic with specific parameters, in the order of that
dictionary, then one group with all the others, in the arbitrary order `rest` in which Python lists a set. -/
def theoryVector (tr : Transfer) (stats : List StatInfo) (specific rest : List Nat) : List (Option (Rat × Rat)) :=
  (specific.flatMap fun n => groupPieces tr stats [n]) ++ (if rest = [] then [] else groupPieces tr stats rest)

/-- `combined_power`: the data vector, in the order of the measurements. -/
def dataVector (stats : List StatInfo) : List (Rat × Rat) := stats.flatMap fun s => s.ks.map fun k => (s.ident, k)

end Verif.Cov
