import Verif.Model.Interp
import Verif.Model.Broadcast
import Mathlib.Analysis.SpecialFunctions.Log.Base

/-!
# The extrapolated power spectrum

`ExtrapolatedPowerSpectrum` (`pyRSD/rsd/power_extrapolator.py`) and `SmoothedXiMultipoles` (`pyRSD/rsd/correlation.py`).

Simplifications: the numbers are real and the wavenumbers positive; `scipy`'s `curve_fit` and spline, and the transform to a correlation function, are parameters of the
model.  An exception leaves the object as it was (the code keeps the table of the power, which the next call would compute again).  Attributes of the model other than
`Pgal`, `kmin`, `kmax` are names only.
-/

namespace Verif.Extrapolate

noncomputable section

open Classical

/-- Exceptions -/
inductive Err where
  | value
  | attribute
  | type
  | index
  deriving DecidableEq

/-- A power spectrum model: its function `Pgal`, if it has one, the names of the other attributes, `kmin` and `kmax` -/
structure PModel where
  P : Option (ℝ → ℝ → ℝ)
  names : List String
  kmin : ℝ
  kmax : ℝ

/-- `hasattr(model, name)` -/
def PModel.has (m : PModel) (name : String) : Prop := name ∈ m.names ∨ (name = "Pgal" ∧ m.P.isSome)

/-- The functions of other packages: the least-squares fits of `amplitude * x^alpha` and `amplitude * x^(alpha + beta log10 x)` to values `y` at `x` (`curve_fit`), the spline
through knots, the transform of a multipole to separations (`pygcl.pk_to_xi`: order, wavenumbers, values, separation, smoothing) -/
structure Tools where
  fitLo : ℝ → List ℝ → List ℝ → ℝ
  fitHi : ℝ → List ℝ → List ℝ → ℝ × ℝ
  spline : List ℝ → List ℝ → ℝ → ℝ
  toXi : ℕ → List ℝ → List ℝ → ℝ → ℝ → ℝ

/-- `power_law_extrapolation` (`power_extrapolator.py:12-28`) -/
def powerLaw (x alpha beta : ℝ) : ℝ := x ^ (alpha + beta * Real.logb 10 x)

/-- The keywords of the constructor -/
structure Opts where
  func : String := "Pgal"
  kLo : Option ℝ := none
  kHi : Option ℝ := none
  cutLo : Option ℝ := none
  cutHi : Option ℝ := none

/-- The object: the model, the parameters, and the cached values (the table of the power, the slopes at low and high wavenumbers) -/
structure Ext where
  m : PModel
  func : String
  kmin : ℝ
  kmax : ℝ
  kLo : ℝ
  kHi : ℝ
  cutLo : ℝ
  cutHi : ℝ
  table : Option Interp.Interp
  low : Option (ℝ → ℝ)
  high : Option ((ℝ → ℝ) × (ℝ → ℝ))

/-- The constructor (`power_extrapolator.py:38-71`), with the checks of the parameters (`76-124`) -/
def init (m : PModel) (o : Opts) : Except Err Ext :=
  if ¬ m.has o.func then .error .value
  else if m.kmax * 0.95 < o.kHi.getD m.kmax then .error .value
  else if o.kLo.getD m.kmin < m.kmin * 1.05 then .error .value
  else if o.kHi.getD m.kmax ≤ o.cutHi.getD (0.5 * o.kHi.getD m.kmax) then .error .value
  else if o.cutLo.getD (5 * o.kLo.getD m.kmin) ≤ o.kLo.getD m.kmin then .error .value
  else .ok ⟨m, o.func, m.kmin, m.kmax, o.kLo.getD m.kmin, o.kHi.getD m.kmax, o.cutLo.getD (5 * o.kLo.getD m.kmin), o.cutHi.getD (0.5 * o.kHi.getD m.kmax), none, none, none⟩

/-- `np.logspace(np.log10(a), np.log10(b), n)` -/
def logspace (a b : ℝ) (n : ℕ) : List ℝ := (List.range n).map fun i : ℕ => (10 : ℝ) ^ (Real.logb 10 a + (i : ℝ) * ((Real.logb 10 b - Real.logb 10 a) / ((n - 1 : ℕ) : ℝ)))

/-- `_ks` (`power_extrapolator.py:145-150`) -/
def Ext.ks (e : Ext) : List ℝ := logspace (e.kmin * 1.05) (e.kmax * 0.95) 200

/-- `_mus` (`power_extrapolator.py:152-157`) -/
def mus : List ℝ := (List.range 100).map fun i : ℕ => (i : ℝ) / 99

/-- `_power_spline` (`power_extrapolator.py:168-175`), computed -/
def Ext.newTable (e : Ext) : Except Err Interp.Interp :=
  match e.m.P with
  | none => .error .attribute
  | some P =>
    match Interp.mkInterp [e.ks, mus] [200, 100] (fun ix => P (e.ks.getD (ix.getD 0 0).toNat 0) (mus.getD (ix.getD 1 0).toNat 0)) .linear true (some none) with
    | none => .error .value
    | some I => .ok I

/-- `_power_spline`: the cached value if there is one -/
def Ext.getTable (e : Ext) : Except Err Interp.Interp :=
  match e.table with
  | some I => .ok I
  | none => e.newTable

/-- `self._power_spline([k, mu])[0]` -/
def look (I : Interp.Interp) (k mu : ℝ) : Except Err ℝ :=
  match Interp.call I [[k, mu]] none with
  | .values [some v] => .ok v
  | _ => .error .value

/-- One slope of the low end (`power_extrapolator.py:210-221`) -/
def slopeLo (T : Tools) (e : Ext) (I : Interp.Interp) (mu : ℝ) : Except Err ℝ := do
  let a ← look I e.kLo mu
  let y ← (e.ks.filter fun k => decide (k ≤ e.cutLo)).mapM fun k => look I k mu
  .ok (T.fitLo a ((e.ks.filter fun k => decide (k ≤ e.cutLo)).map fun k => k / e.kLo) y)

/-- `_low_k_splines` (`power_extrapolator.py:204-224`), computed.  `curve_fit` refuses empty data. -/
def Ext.newLow (T : Tools) (e : Ext) (I : Interp.Interp) : Except Err (ℝ → ℝ) :=
  if (e.ks.filter fun k => decide (k ≤ e.cutLo)) = [] then .error .value
  else (mus.mapM (slopeLo T e I)).map fun a => T.spline mus a

/-- The slopes of the high end at one mu (`power_extrapolator.py:184-196`) -/
def slopeHi (T : Tools) (e : Ext) (I : Interp.Interp) (mu : ℝ) : Except Err (ℝ × ℝ) := do
  let a ← look I e.kHi mu
  let y ← (e.ks.filter fun k => decide (e.cutHi ≤ k)).mapM fun k => look I k mu
  .ok (T.fitHi a ((e.ks.filter fun k => decide (e.cutHi ≤ k)).map fun k => k / e.kHi) y)

/-- `_high_k_splines` (`power_extrapolator.py:177-202`), computed.  `curve_fit` refuses empty data, and fewer data than parameters with another exception. -/
def Ext.newHigh (T : Tools) (e : Ext) (I : Interp.Interp) : Except Err ((ℝ → ℝ) × (ℝ → ℝ)) :=
  if (e.ks.filter fun k => decide (e.cutHi ≤ k)) = [] then .error .value
  else if (e.ks.filter fun k => decide (e.cutHi ≤ k)).length < 2 then .error .type
  else (mus.mapM (slopeHi T e I)).map fun a => (T.spline mus (a.map (·.1)), T.spline mus (a.map (·.2)))

/-- `low_k_params` (`power_extrapolator.py:236-241`), and the object with what is now cached -/
def Ext.getLow (T : Tools) (e : Ext) : Except Err ((ℝ → ℝ) × Ext) :=
  match e.low with
  | some f => .ok (f, e)
  | none => do
    let I ← e.getTable
    let f ← e.newLow T I
    .ok (f, { e with table := some I, low := some f })

/-- `high_k_params` (`power_extrapolator.py:229-234`) -/
def Ext.getHigh (T : Tools) (e : Ext) : Except Err (((ℝ → ℝ) × (ℝ → ℝ)) × Ext) :=
  match e.high with
  | some f => .ok (f, e)
  | none => do
    let I ← e.getTable
    let f ← e.newHigh T I
    .ok (f, { e with table := some I, high := some f })

/-- One entry of the result (`power_extrapolator.py:264-285`) -/
def entry (P : ℝ → ℝ → ℝ) (kLo kHi : ℝ) (a : ℝ → ℝ) (b : (ℝ → ℝ) × (ℝ → ℝ)) (k mu : ℝ) : ℝ :=
  if k < kLo then P kLo mu * powerLaw (k / kLo) (a mu) 0
  else if k ≤ kHi then P k mu
  else P kHi mu * powerLaw (k / kHi) (b.1 mu) (b.2 mu)

/-- Lines 272-275: the slopes of the low end, if a wavenumber is below it -/
def Ext.lowFor (T : Tools) (e : Ext) (k : List ℝ) : Except Err ((ℝ → ℝ) × Ext) := if ∃ q ∈ k, q < e.kLo then e.getLow T else .ok (fun _ => 0, e)

/-- Lines 282-285: the slopes of the high end, if a wavenumber is above it -/
def Ext.highFor (T : Tools) (e : Ext) (k : List ℝ) : Except Err (((ℝ → ℝ) × (ℝ → ℝ)) × Ext) := if ∃ q ∈ k, e.kHi < q then e.getHigh T else .ok ((fun _ => 0, fun _ => 0), e)

/-- The function of `(k, mu)` with which the entries at the wavenumbers `k` are computed (`power_extrapolator.py:264-287`) -/
def Ext.curve (T : Tools) (e : Ext) (k : List ℝ) : Except Err ((ℝ → ℝ → ℝ) × Ext) := do
  let x ← e.lowFor T k
  let y ← x.2.highFor T k
  match e.m.P with
  | none => .error .attribute
  | some P => .ok (entry P e.kLo e.kHi x.1 y.1, y.2)

/-- `__call__` (`power_extrapolator.py:243-287`) for pairs of a wavenumber and a mu (the shapes: `Verif.Model.Broadcast`) -/
def Ext.call (T : Tools) (e : Ext) (pts : List (ℝ × ℝ)) : Except Err (List ℝ × Ext) :=
  if pts = [] then .ok ([], e)
  else (e.curve T (pts.map (·.1))).map fun g => (pts.map fun p => g.1 p.1 p.2, g.2)

/-- What a user does with the object: set a parameter, evaluate, change the model (or a parameter of it) -/
inductive Op where
  | kmin (v : ℝ)
  | kmax (v : ℝ)
  | kLo (v : ℝ)
  | kHi (v : ℝ)
  | cutLo (v : ℝ)
  | cutHi (v : ℝ)
  | call (pts : List (ℝ × ℝ))
  | model (P : Option (ℝ → ℝ → ℝ))

/-- The parameters (`power_extrapolator.py:76-140`): a refused value changes nothing; a new value empties the caches that depend on the parameter; the caches do not depend on the model -/
def Ext.step (T : Tools) (e : Ext) : Op → Ext
  | .kmin v => if v = e.kmin then { e with m := { e.m with kmin := v } } else { e with m := { e.m with kmin := v }, kmin := v, table := none, low := none, high := none }
  | .kmax v => if v = e.kmax then { e with m := { e.m with kmax := v } } else { e with m := { e.m with kmax := v }, kmax := v, table := none, low := none, high := none }
  | .kLo v => if v < e.kmin * 1.05 then e else if v = e.kLo then e else { e with kLo := v, low := none }
  | .kHi v => if e.kmax * 0.95 < v then e else if v = e.kHi then e else { e with kHi := v, high := none }
  | .cutLo v => if v ≤ e.kLo then e else if v = e.cutLo then e else { e with cutLo := v, low := none }
  | .cutHi v => if e.kHi ≤ v then e else if v = e.cutHi then e else { e with cutHi := v, high := none }
  | .call pts =>
    match e.call T pts with
    | .ok r => r.2
    | .error _ => e
  | .model P => { e with m := { e.m with P := P } }

/-- What `to_poles` returns: a table with a row per wavenumber and a column per order, or one number per wavenumber -/
inductive Poles where
  | table (rows : List (List ℝ))
  | flat (l : List ℝ)

/-- The Legendre polynomial times `2 ell + 1` (`power_extrapolator.py:307, 316`) -/
def kern (ell : ℕ) (mu : ℝ) : ℝ := (2 * ell + 1) * Verif.Legendre.leg ell mu

/-- The end of `to_poles` (`power_extrapolator.py:297-317`) for a list of orders and the function `g` of `(k, mu)`; `simps` is that of `Verif.Model.Quad`.  (Empty orders: `vstack` raises.) -/
def polesOf (g : ℝ → ℝ → ℝ) (k : List ℝ) (ells : List ℕ) (N : ℕ) : Except Err Poles :=
  match Bcast.power g (.arr ⟨[k.length], fun ix => k.getD ix.head! 0⟩) (.arr ⟨[N], fun ix => Quad.linspace01 N ix.head!⟩) false with
  | .error _ => .error .value
  | .ok D =>
    if ells.length ≠ k.length then
      if ells = [] then .error .value
      else
        match D.vals.shape with
        | [a, _] => .ok (.table ((List.range a).map fun i : ℕ => ells.map fun l => Quad.simps N (Quad.linspace01 N) fun j => kern l (Quad.linspace01 N j) * D.vals.at' [i, j]))
        | [a] => .ok (.table ((List.range a).map fun i : ℕ => ells.map fun l => Quad.simps N (Quad.linspace01 N) fun j => kern l (Quad.linspace01 N j) * D.vals.at' [i]))
        | _ => .error .type
    else
      match D.vals.shape with
      | [a, _] => .ok (.flat ((List.range a).map fun i : ℕ => Quad.simps N (Quad.linspace01 N) fun j => kern (ells.getD i 0) (Quad.linspace01 N j) * D.vals.at' [i, j]))
      | [a] => .ok (.flat ((List.range a).map fun i : ℕ => Quad.simps N (Quad.linspace01 N) fun j => kern (ells.getD i 0) (Quad.linspace01 N j) * D.vals.at' [j]))
      | _ => .error .type

/-- `to_poles` (`power_extrapolator.py:289-317`) -/
def Ext.toPoles (T : Tools) (e : Ext) (k : List ℝ) (ells : List ℕ) (N : ℕ) : Except Err (Poles × Ext) := do
  let g ← e.curve T k
  let p ← polesOf g.1 k ells N
  .ok (p, g.2)

/-- `SmoothedXiMultipoles` (`pyRSD/rsd/correlation.py:14-66`): a row per separation and a column per order (`np.squeeze` then drops the axes of length one) -/
def smoothedXi (T : Tools) (m : PModel) (o : Opts) (r : List ℝ) (ells : List ℕ) (R : ℝ) : Except Err (List (List ℝ)) := do
  let e ← init m o
  let p ← e.toPoles T (logspace ((10 : ℝ) ^ (-5 : ℝ)) 10 1000) ells 41
  match p.1 with
  | .table rows => .ok (r.map fun s => ells.zipIdx.map fun l => T.toXi l.1 (logspace ((10 : ℝ) ^ (-5 : ℝ)) 10 1000) (rows.map fun row => row.getD l.2 0) s R)
  | .flat _ => .error .index

end

end Verif.Extrapolate
