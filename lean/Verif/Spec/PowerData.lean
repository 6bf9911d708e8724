import Verif.Model.PowerData
import Verif.Lemmas.Cov
/-
Specification vocabulary for data sets: histories of limit changes and what they should leave behind.
-/
namespace Verif.Cov


/-- All columns of the measurement have the length of the `k` column. -/
def Meas.Full (m : Meas) : Prop :=
  m.powerIn.length = m.kIn.length ∧ m.errorIn.length = m.kIn.length ∧ ∀ l, m.muIn = some l → l.length = m.kIn.length


/-- What a user does to the limits of a data set, or reads of it. -/
inductive LimOp where
  | kmin (val : List (Option Rat))
  | kmax (val : List (Option Rat))
  | readPower

def LimOp.step (d : Data) : LimOp → Res
  | .kmin v => d.setKmin v
  | .kmax v => d.setKmax v
  | .readPower => (d.combinedPower.2, none)

/-- The state after operations that all succeed; `none` as soon as one raises. -/
def runLims (d : Data) : List LimOp → Option Data
  | [] => some d
  | op :: ops => match op.step d with
    | (d', none) => runLims d' ops
    | (_, some _) => none

/-- The limit that a value given by the user (one number for all, or one per statistic) sets for statistic `i`. -/
def limAt (val : List (Option Rat)) (i : Nat) : Option Rat := match val with
  | [x] => x
  | _ => val.getD i none

/-- The lower and upper limit of statistic `i` in force after the operations `ops` (the last ones set). -/
def curLo (ops : List LimOp) (i : Nat) : Option Rat :=
  ops.foldl (fun cur op => match op with | .kmin v => limAt v i | _ => cur) none
def curHi (ops : List LimOp) (i : Nat) : Option Rat :=
  ops.foldl (fun cur op => match op with | .kmax v => limAt v i | _ => cur) none

/-- Does the operation allow wavenumber `k` for statistic `i`? -/
def LimOp.allows (op : LimOp) (i : Nat) (k : Rat) : Bool := match op with
  | .kmin v => match limAt v i with | none => true | some l => decide (l ≤ k)
  | .kmax v => match limAt v i with | none => true | some h => decide (k ≤ h)
  | .readPower => true

/-- The (statistic, k) bins of the input data that satisfy `p` (statistic number, k), in the order of the data. -/
def binsOf (ms : List Meas) (p : Nat → Rat → Bool) : List Coord :=
  ms.zipIdx.flatMap fun e => (e.1.kIn.filter (p e.2)).map fun k => (e.1.stat, k)

/-- A freshly loaded data set: no limits yet, statistics in increasing order of label with increasing `k` columns, and a
covariance whose rows and columns are the bins of the data, in order. -/
structure Fresh (d : Data) : Prop where
  some_meas : d.meas ≠ []
  no_limits : ∀ m ∈ d.meas, m.kmin = none ∧ m.kmax = none
  stats : (d.meas.map (·.stat)).Pairwise (· < ·)
  ks : ∀ m ∈ d.meas, m.kIn ≠ [] ∧ m.kIn.Pairwise (· ≤ ·)
  wf : d.cov.WF
  coords1 : d.cov.coords1 = binsOf d.meas fun _ _ => true
  coords2 : d.cov.coords2 = binsOf d.meas fun _ _ => true

/-- What is claimed of the state `d'` reached from `d` with the limits `lo`, `hi` in force and the bins `p` kept. -/
structure LimState (d d' : Data) (lo hi : Nat → Option Rat) (p : Nat → Rat → Bool) : Prop where
  meas : d'.meas = d.meas.mapIdx fun i m => { m with kmin := lo i, kmax := hi i }
  nonempty : ∀ m i, (m, i) ∈ d.meas.zipIdx → ∃ k ∈ m.kIn, p i k = true
  wf : d'.cov.WF
  coords1 : d'.cov.coords1 = binsOf d.meas p
  coords2 : d'.cov.coords2 = binsOf d.meas p
  elems : ∃ kept : List Nat, kept.Pairwise (· < ·) ∧ d'.cov.N = kept.length ∧ (∀ i ∈ kept, i < d.cov.N) ∧
    (∀ a : Nat, d'.cov.coords1[a]? = (kept[a]?).bind fun i => d.cov.coords1[i]?) ∧
    (∀ (a b : Nat) (ha : a < kept.length) (hb : b < kept.length),
      elem d'.cov.N d'.cov.data a b = elem d.cov.N d.cov.data (kept[a] : Nat) (kept[b] : Nat))

end Verif.Cov
