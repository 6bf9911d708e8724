import Verif.Model.LoadCov
/-
Specification for C141: the data files for which it is claimed, and what a loaded data set must satisfy.
-/
namespace Verif.LoadCov
open Verif.Cov

/-- A data file: statistics in increasing order of identifier, each with at least one bin, increasing wavenumbers and
columns of the same length. -/
structure Clean (rs : List Raw) : Prop where
  nonempty : rs ≠ []
  stats : (rs.map (·.stat)).Pairwise (· < ·)
  ks : ∀ r ∈ rs, r.k ≠ [] ∧ r.k.Pairwise (· ≤ ·)
  power : ∀ r ∈ rs, r.power.length = r.k.length
  mu : ∀ r ∈ rs, ∀ l, r.mu = some l → l.length = r.k.length
  error : ∀ r ∈ rs, ∀ l, r.error = some l → l.length = r.k.length

/-- The error bars, wavenumbers and powers of a loaded data set, measurement after measurement. -/
def errors (d : Data) : List Rat := d.meas.flatMap Meas.error
def bins (d : Data) : List Coord := d.meas.flatMap fun m => m.k.map fun k => (m.stat, k)

/-- Row `a` and column `a` of the covariance, entry `a` of the data vector and error bar `a` are of the same bin. -/
structure SameBins (d : Data) : Prop where
  rows : d.cov.coords1 = bins d
  columns : d.cov.coords2 = bins d
  errors : (errors d).length = d.cov.N
  power : (d.meas.flatMap Meas.power).length = d.cov.N
  size : (bins d).length = d.cov.N

end Verif.LoadCov
