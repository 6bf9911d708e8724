/-
Vocabulary for C130: tables of simulated spectra and their interpolation.
-/
import Mathlib.Data.Real.Basic
import Mathlib.Analysis.SpecialFunctions.Pow.Real

namespace Verif.SimSpectra.Spec

noncomputable section

/-- strictly ascending, at least two -/
def Ascending (l : List ℝ) : Prop := l.Pairwise (· < ·) ∧ 2 ≤ l.length

/-- tables at the redshifts `zs`, all with the wavenumbers `ks` -/
structure GoodData (data : List (ℝ × List (ℝ × ℝ))) (zs ks : List ℝ) : Prop where
  redshifts : data.map Prod.fst = zs
  wavenumbers : ∀ s ∈ data, s.2.map Prod.fst = ks
  zs_ascending : Ascending zs
  ks_ascending : Ascending ks

/-- the simulated spectrum at the redshift number `i` and the wavenumber number `j` -/
def simulated (data : List (ℝ × List (ℝ × ℝ))) (i j : ℕ) : ℝ := ((data.getD i (0, [])).2.getD j (0, 0)).2

/-- the value at `(x, y)` of the bilinear function with the values `a`, `b`, `c`, `d` at `(x0, y0)`, `(x0, y1)`, `(x1, y0)`, `(x1, y1)` -/
def bilinear (x0 x1 y0 y1 a b c d x y : ℝ) : ℝ :=
  (a * ((x1 - x) * (y1 - y)) + b * ((x1 - x) * (y - y0)) + c * ((x - x0) * (y1 - y)) + d * ((x - x0) * (y - y0))) / ((x1 - x0) * (y1 - y0))

/-- the matter spectrum today `p` fitted to a velocity spectrum today -/
def today (a0 a1 a2 a3 p : ℝ) : ℝ := (a0 * Real.sqrt p + a1 * p ^ 2) / (a2 + a3 * p)

/-- the formula of Jennings: the difference today, scaled with the growth factor `D`, is added to the matter spectrum `q` at the redshift in question -/
def fit (a0 a1 a2 a3 D p q : ℝ) : ℝ := q + (today a0 a1 a2 a3 p - p) * ((D + D ^ 2 + D ^ 3) / 3) ^ 2

end

end Verif.SimSpectra.Spec
