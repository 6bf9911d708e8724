import Verif.Model.TheoryVec
/-
Specification for C140: what a theory vector should be, and which data objects initialisation produces.
-/
namespace Verif.TheoryVec
open Verif.Cov (Err inside)

/-- The vector the data vector is compared with: measurement after measurement, the prediction for that measurement's own
identifier at each of its wavenumbers. -/
def expected : List Ident → List (List Rat) → List Cell
  | i :: is, k :: ks => k.map (fun q => some (i, q)) ++ expected is ks
  | _, _ => []

/-- A data object as `initialize` leaves it: one identifier, one measurement and one pair of limits per selected statistic,
at least one, and at most as many as the names in the file; names and identifiers are distinct, and the identifiers are
those of the mode. -/
structure Loaded (f : FitData) : Prop where
  nonempty : f.ks ≠ []
  idents : f.idents.length = f.ks.length
  lims : f.lims.length = f.ks.length
  names : f.ks.length ≤ f.names.length
  distinct : f.names.Nodup
  identsDistinct : f.idents.Nodup
  ofMode : ∀ i ∈ f.idents, match f.mode with
    | .poles => ∃ l, i = .ell l
    | .pkmu => ∃ lo hi, i = .wedge lo hi

/-- `specific` and `rest` divide the names of the file, as the driver's dictionary and set do. -/
structure Divides (f : FitData) (specific rest : List Nat) : Prop where
  cover : ∀ n, n ∈ specific ∨ n ∈ rest ↔ n ∈ f.names
  distinct : (specific ++ rest).Nodup

end Verif.TheoryVec
