import Verif.Model.PowerData
/-
Model of how a data set gets its covariance matrix and error bars when it is loaded: `PowerData.set_all_measurements` and
`PowerData.set_covariance` (`pyRSD/rsdfit/data/power_measurement.py:823-892`), `PowerMeasurement.error` without an error
column (`292-301`), and the whole of `initialize` up to the size check (`628-681`) without selection.
-/
namespace Verif.LoadCov
open Verif.Cov (Err Cov Meas Data Coord construct npDiag setErrorsFromCov Res)

/-- The errors raised while loading: those of the covariance code, and the `RuntimeError` of line 862. -/
inductive LoadErr where
  | runtimeError
  | err (e : Err)
  deriving DecidableEq, Repr

/-- A statistic as it is read from the data file (`power_measurement.py:93-122`): its identifier (`ell`, or the rounded mean
`mu`) and its columns; the error column may be missing. -/
structure Raw where
  stat : Rat
  k : List Rat
  mu : Option (List Rat)
  power : List Rat
  error : Option (List Rat)
  deriving DecidableEq, Repr

/-- Stands for the `None` of a missing error column (`power_measurement.py:174-177`): like `None`, no array of `n` numbers is
considered equal to it (`absent_ne`). -/
def absent (n : Nat) : List Rat := 0 :: 1 :: List.replicate n 0

/-- The measurement made of it, without limits (`power_measurement.py:152-190`).  Simplification: see `absent`. -/
def Raw.meas (r : Raw) : Meas := ⟨r.stat, r.k, r.mu, r.power, r.error.getD (absent r.k.length), none, none⟩

/-- `np.concatenate` of the identifiers, repeated, and of the wavenumbers (`power_measurement.py:874-876`). -/
def coordsOf (rs : List Raw) : List Coord := rs.flatMap fun r => r.k.map fun k => (r.stat, k)

/-- The covariance made of the error columns (`power_measurement.py:868-882`).  `m.error` of a measurement without error
column is `None[mask]`, a `TypeError`, so that the check of line 869 never finds `None`. -/
def fromColumns (rs : List Raw) : Except LoadErr Cov :=
  if rs.any (fun r => r.error.isNone) then .error (.err .typeError)
  else
    .ok (construct (rs.flatMap fun r => r.error.getD []).length
      (npDiag ((rs.flatMap fun r => r.error.getD []).map fun e => e ^ 2)) (coordsOf rs) (coordsOf rs))

/-- `self.covariance_matrix *= rescaling` (`power_measurement.py:885-886`). -/
def rescaleBy (s : Rat) (c : Cov) : Except LoadErr Cov :=
  match c.mul (.scalar s) with
  | .error e => .error (.err e)
  | .ok c => .ok c

/-- The data set with its covariance, before the errors are set. -/
def mkData (rs : List Raw) (c : Cov) : Data := ⟨rs.map Raw.meas, c, none, none, none⟩

/-- `set_covariance` (`power_measurement.py:838-892`): `file` is what reading the covariance file gives (`none` = no file
named, `some none` = it cannot be read), `s` the rescaling.  Only the size of the matrix is compared with the data. -/
def setCovariance (sqrt : Rat → Rat) (s : Rat) (file : Option (Option Cov)) (rs : List Raw) : Except LoadErr Data :=
  match file with
  | some none => .error .runtimeError
  | some (some c) =>
    if c.N = (rs.map fun r => r.k.length).sum then
      match rescaleBy s c with
      | .error e => .error e
      | .ok c' =>
        match setErrorsFromCov sqrt (mkData rs c') with
        | .error e => .error (.err e)
        | .ok d => .ok d
    else .error (.err .valueError)
  | none =>
    match fromColumns rs with
    | .error e => .error e
    | .ok c =>
      match rescaleBy s c with
      | .error e => .error e
      | .ok c' => .ok (mkData rs c')

/-- `initialize` without selection (`power_measurement.py:628-681`): load, then the limits, the inverse for `Ns` mocks and
the size check. -/
def load (sqrt invSqrt : Rat → Rat) (s : Rat) (file : Option (Option Cov)) (range : List (Option Rat × Option Rat)) (Ns : Int)
    (rs : List Raw) : Except LoadErr Data :=
  match setCovariance sqrt s file rs with
  | .error e => .error e
  | .ok d =>
    match d.initialize invSqrt range Ns with
    | (d', none) => .ok d'
    | (_, some e) => .error (.err e)

end Verif.LoadCov
