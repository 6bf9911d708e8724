/-
What a user expects of tables of best-fit parameters: an info file that is read again is the table that was written, and a comparison table has, for each parameter and fit, that fit's number.
-/
import Verif.Model.BestFit

namespace Verif.BestFit.Spec

/-- the value of an attribute is a number, or a text of one word -/
def Plain : Meta → Prop
  | .int _ => True
  | .float _ => True
  | .str [_] => True
  | _ => False

/-- a table as a fit makes it: each row has a name and a value for each column, and a column is of numbers, of truth values, or of texts -/
structure Tidy (f : Frame) : Prop where
  some_row : f.rows ≠ []
  named : ∀ r ∈ f.rows, ∃ s, r.1 = .text s
  full : ∀ r ∈ f.rows, r.2.length = f.cols.length
  column : ∀ j < f.cols.length, (∀ r ∈ f.rows, ∃ x, r.2[j]? = some (.num x)) ∨ (∀ r ∈ f.rows, ∃ b, r.2[j]? = some (.bool b)) ∨ (∀ r ∈ f.rows, ∃ s, r.2[j]? = some (.text s))

/-- attributes with distinct names, and values as above -/
structure TidyInfo (info : List (String × Meta)) : Prop where
  distinct : (info.map Prod.fst).Nodup
  plain : ∀ kv ∈ info, Plain kv.2

/-- a row, under the name with which it appears in the table, is asked for -/
def Asked : Select → String → PRow → Prop
  | .all, _, _ => True
  | .free, _, r => r.free = true
  | .constrained, _, r => r.free = false
  | .these l, p, _ => p ∈ l

/-- the set has a row that is asked for, under the name `p` -/
def Has (N : Names) (sel : Select) (s : PSet) (p : String) (r : PRow) : Prop := ∃ q ∈ s.rows, N.format q.1 q.2.scale = p ∧ q.2 = r ∧ Asked sel p r

/-- there are medians in the set, among the rows that are asked for -/
def Medians (N : Names) (sel : Select) (s : PSet) : Prop := ∃ p r, Has N sel s p r ∧ r.median.isSome

/-- the right entry of the table for the parameter `p` and the set `s`: the median and its errors, or the best fit if there are no medians; empty if the set has no such parameter -/
def Right (N : Names) (sel : Select) (s : PSet) (p : String) : Option Entry → Prop
  | none => ∀ r, ¬ Has N sel s p r
  | some e => ∃ r, Has N sel s p r ∧ ((Medians N sel s ∧ e = .pm r.median r.upper (r.lower.map abs)) ∨ (¬ Medians N sel s ∧ e = .best r.best))

/-- the right entry for χ²: `2·(−ln L)` over the degrees of freedom -/
def RightChi (s : PSet) : Option Entry → Prop
  | none => s.chi2 = none
  | some e => ∃ l nb np, s.chi2 = some (l, nb, np) ∧ nb ≠ np ∧ e = .chi2 (2*l) nb np (2*l / ((nb : ℝ) - np))

end Verif.BestFit.Spec
