/-
Specification for C135: where a spectrum can be evaluated, and what it is there.
-/
import Verif.Model.InterpDomain
import Mathlib.Algebra.BigOperators.Group.Finset.Basic
import Mathlib.Analysis.Calculus.Deriv.Basic

namespace Verif.InterpDomain

open Verif.AP

noncomputable section

/-- an array of (k, mu) of numbers -/
def arr (l : List (ℝ × ℝ)) : List (Num × ℝ) := l.map fun q => (some q.1, q.2)

/-- the wavenumber at which the spectrum is evaluated when observed at `q` -/
def trueK (m : Model) (q : ℝ × ℝ) : ℝ := kAP q.1 q.2 m.al.perp m.al.par

/-- the angle at which the spectrum is evaluated when observed at `q` -/
def trueMu (m : Model) (q : ℝ × ℝ) : ℝ := muAP q.2 m.al.perp m.al.par

/-- the interpolant of `P_mu{2i}` -/
def interpolant (m : Model) (i : ℕ) : ℝ → ℝ := (m.interp m.grid (m.grid.map (m.P i))).1

/-- what scipy calls its derivative -/
def interpolant' (m : Model) (i : ℕ) : ℝ → ℝ := (m.interp m.grid (m.grid.map (m.P i))).2

/-- The wavenumbers of the model run from `lo` to `hi`. -/
def Covers (m : Model) (lo hi : ℝ) : Prop := m.grid.head? = some lo ∧ m.grid.getLast? = some hi

/-- the spectrum in true coordinates, the sum of the powers of `mu` up to `max_mu` -/
def inner (m : Model) (k mu : ℝ) : ℝ := ∑ i ∈ Finset.range (m.maxMu / 2 + 1), mu ^ (2 * i) * interpolant m i k

/-- The spectrum observed at `q`: the true one at the true coordinates, in observed volumes. -/
def observed (m : Model) (q : ℝ × ℝ) : ℝ := m.al.drag ^ 3 / (m.al.perp ^ 2 * m.al.par) * inner m (trueK m q) (trueMu m q)

/-- the cached splines are those of the functions -/
def CacheOK (m : Model) (c : Caches) : Prop := ∀ i, c i = none ∨ c i = some ⟨m.grid, interpolant m i, interpolant' m i⟩

/-- An evaluation. -/
inductive Op where
  | power (l : List (Num × ℝ))
  | derivK (l : List (Num × ℝ))

/-- The caches after some evaluations, failed ones included. -/
def runOps (m : Model) : List Op → Caches → Caches
  | [], c => c
  | .power l :: ops, c => runOps m ops (m.power c l).2
  | .derivK l :: ops, c => runOps m ops (m.derivK c l).2

/-- Contract of scipy: on increasing abscissae the spline goes through its points, and `derivative()` is its derivative. -/
structure Interpolates (mk : Mk) : Prop where
  nodes : ∀ (x y : List ℝ), x.Pairwise (· < ·) → x.length = y.length → ∀ (i : ℕ) (a b : ℝ), x[i]? = some a → y[i]? = some b → (mk x y).1 a = b
  deriv : ∀ (x y : List ℝ), x.Pairwise (· < ·) → ∀ t, HasDerivAt (mk x y).1 ((mk x y).2 t) t

end

end Verif.InterpDomain
