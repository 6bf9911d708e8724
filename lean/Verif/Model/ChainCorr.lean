/-
Model of the tables made from a chain: `EmceeResults.chains`, `corr` and `sorted_1d_corrs`
(`pyRSD/rsdfit/results/emcee_results.py:849-970`), with the names of `pyRSD/rsdfit/analysis/__init__.py:1-57`.

All flat traces have the same number `m` of samples (`emcee_results.py:75-81`); samples are finite reals.
-/
import Mathlib.Data.Real.Sqrt
import Mathlib.Algebra.BigOperators.Fin

namespace Verif.ChainCorr

/-- The argument `params`: the default `[]`, one of the strings 'free' and 'constrained', the name of a parameter, or a list of names. -/
inductive Sel where
  | free
  | constrained
  | one (p : String)
  | many (ps : List String)

/-- What `params` becomes (`emcee_results.py:871-876`). -/
def Sel.names (free con : List String) : Sel → List String
  | .free => free
  | .constrained => con
  | .one p => [p]
  | .many ps => ps

/-- `not (len(params) and p not in params)` (`emcee_results.py:882-883`, `893-894`) -/
def wanted (ps : List String) (p : String) : Bool := ps.isEmpty || ps.contains p

/-- The key a chain is stored under (`emcee_results.py:885-890`, `896-901`). -/
def label (labels tex : List (String × String)) (latex : Bool) (p : String) : String :=
  match labels.lookup p with
  | some l => l
  | none =>
    if latex then
      match tex.lookup p with
      | some l => l
      | none => p
    else p

/-- `d[k] = v` on a dictionary that keeps the order of insertion: a key that is there keeps its place. -/
def put {A : Type} (k : String) (v : A) : List (String × A) → List (String × A)
  | [] => [(k, v)]
  | (k', v') :: d => if k' = k then (k, v) :: d else (k', v') :: put k v d

/-- The loop over names that fills the dictionary (`emcee_results.py:881-890`, `892-901`). -/
def fill {A : Type} (trace : String → A) (labels tex : List (String × String)) (latex : Bool) (ps : List String) :
    List (String × A) → List String → List (String × A)
  | d, [] => d
  | d, p :: names =>
    fill trace labels tex latex ps (if wanted ps p then put (label labels tex latex p) (trace p) d else d) names

/-- `chains(params, labels, use_latex)` (`emcee_results.py:849-906`): the columns of the table, in order. `trace p` is
`self[p].flat_trace`. -/
def chains {A : Type} (free con : List String) (trace : String → A) (tex : List (String × String)) (sel : Sel)
    (labels : List (String × String)) (latex : Bool) : List (String × A) :=
  fill trace labels tex latex (sel.names free con) (fill trace labels tex latex (sel.names free con) [] free) con

/-- The mean of `m` samples. -/
noncomputable def mean {m : ℕ} (x : Fin m → ℝ) : ℝ := (∑ t, x t) / m

/-- One element of `DataFrame.corr()` (pandas, `method='pearson'`): sums of products of deviations from the means; `none` is
the nan given when the divisor vanishes. -/
noncomputable def pearson {m : ℕ} (x y : Fin m → ℝ) : Option ℝ :=
  if Real.sqrt ((∑ t, (x t - mean x) ^ 2) * ∑ t, (y t - mean y) ^ 2) = 0 then none
  else some ((∑ t, (x t - mean x) * (y t - mean y)) / Real.sqrt ((∑ t, (x t - mean x) ^ 2) * ∑ t, (y t - mean y) ^ 2))

/-- A row of a table of pairs: two labels and a correlation, `none` for nan. -/
abbrev Row := (String × String) × Option ℝ

/-- `corr(params)` (`emcee_results.py:909-928`), then `abs` if asked (line 950), the upper triangle and diagonal set to nan
(lines 953-957), and `unstack` (line 960): for each column `j`, for each row `i`, the labels (column, row) and the element. -/
noncomputable def unstacked {m : ℕ} (cols : List (String × (Fin m → ℝ))) (absval : Bool) : List Row :=
  cols.zipIdx.flatMap fun c =>
    cols.zipIdx.map fun r =>
      ((c.1.1, r.1.1),
        if r.2 ≤ c.2 then none
        else (pearson c.1.2 r.1.2).map fun v => if absval then |v| else v)

/-- `sorted_1d_corrs` (`emcee_results.py:930-970`); `sort` is `Series.sort_values(kind="quicksort", ascending=False)`, which may put
equal values in any order. -/
noncomputable def sorted1d {m : ℕ} (sort : List Row → List Row) (cols : List (String × (Fin m → ℝ))) (absval : Bool) :
    List ((String × String) × ℝ) :=
  (sort (unstacked cols absval)).filterMap fun row => row.2.map fun v => (row.1, v)

/-- The shipped latex names (`pyRSD/rsdfit/analysis/__init__.py:1-57`). -/
def texNames : List (String × String) :=
  [("Nsat_mult", "$N_{s,\\mathrm{mult}}$"),
   ("fsB", "$f_{s_B}$"),
   ("sigma8_z", "$\\sigma_8$"),
   ("sigma_s", "$\\sigma_s$"),
   ("f1h_sBsB", "$f_{1h, s_B s_B}$"),
   ("f1h_cBs", "$f_{1h, c_B s}$"),
   ("fs", "$f_s$"),
   ("f", "$f$"),
   ("gamma_b1sB", "$\\gamma_{b_{1,s_B}}$"),
   ("gamma_b1sA", "$\\gamma_{b_{1,s_A}}$"),
   ("sigma_c", "$\\sigma_c$"),
   ("alpha_par", "$\\alpha_\\parallel$"),
   ("alpha_perp", "$\\alpha_\\perp$"),
   ("b1_cA", "$b_{1,c_A}$"),
   ("sigma_sA", "$\\sigma_{s_A}$"),
   ("sigma_sB", "$\\sigma_{s_B}$"),
   ("b1_cB", "$b_{1,c_B}$"),
   ("fcB", "$f_{c_B}$"),
   ("b1_sB", "$b_{1,s_B}$"),
   ("b1_sA", "$b_{1,s_A}$"),
   ("NcBs", "$N_{c_B s}$"),
   ("NsBsB", "$N_{s_B s_B}$"),
   ("fsigma8", "$f \\sigma_8$"),
   ("b1_c", "$b_{1, c}$"),
   ("b1", "$b_1$"),
   ("b1_s", "$b_{1,s}$"),
   ("sigma_so", "$\\sigma_{so}$"),
   ("f_so", "$f_{so}$"),
   ("b1sigma8", "$b_1 \\sigma_8$"),
   ("F_AP", "$F_\\mathrm{AP}$"),
   ("alpha", "$\\alpha$"),
   ("epsilon", "$\\epsilon$"),
   ("f_nl", "$f_\\mathrm{NL}$"),
   ("sigma_fog", "$\\sigma_\\mathrm{FOG}$"),
   ("b2_00__0", "$b_{2}^{00}\\mathrm{[0]}$"),
   ("b2_00__2", "$b_{2}^{00}\\mathrm{[2]}$"),
   ("b2_00__4", "$b_{2}^{00}\\mathrm{[4]}$"),
   ("b2_00_a__0", "$b_{2, a}^{00}\\mathrm{[0]}$"),
   ("b2_00_a__2", "$b_{2, a}^{00}\\mathrm{[2]}$"),
   ("b2_00_a__4", "$b_{2, a}^{00}\\mathrm{[4]}$"),
   ("b2_00_b__0", "$b_{2, b}^{00}\\mathrm{[0]}$"),
   ("b2_00_b__2", "$b_{2, b}^{00}\\mathrm{[2]}$"),
   ("b2_00_b__4", "$b_{2, b}^{00}\\mathrm{[4]}$"),
   ("b2_00_c__0", "$b_{2, c}^{00}\\mathrm{[0]}$"),
   ("b2_00_c__2", "$b_{2, c}^{00}\\mathrm{[2]}$"),
   ("b2_00_c__4", "$b_{2, c}^{00}\\mathrm{[4]}$"),
   ("b2_00_d__0", "$b_{2, d}^{00}\\mathrm{[0]}$"),
   ("b2_00_d__2", "$b_{2, d}^{00}\\mathrm{[2]}$"),
   ("b2_00_d__4", "$b_{2, d}^{00}\\mathrm{[4]}$"),
   ("b2_01_a__0", "$b_{2, a}^{01}\\mathrm{[0]}$"),
   ("b2_01_a__1", "$b_{2, a}^{01}\\mathrm{[1]}$"),
   ("b2_01_a__2", "$b_{2, a}^{01}\\mathrm{[2]}$"),
   ("b2_01_b__0", "$b_{2, b}^{01}\\mathrm{[0]}$"),
   ("b2_01_b__1", "$b_{2, b}^{01}\\mathrm{[1]}$"),
   ("b2_01_b__2", "$b_{2, b}^{01}\\mathrm{[2]}$")]

end Verif.ChainCorr
