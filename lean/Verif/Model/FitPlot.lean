/-
Model of the plots of a fit: `pyRSD/rsdfit/util/plot.py:8-162` and `206-241`, `FittingDriver.data_model_pairs` and `plot_residuals`
(`pyRSD/rsdfit/driver.py:1257-1309`), and the interactive plot `pyRSD/rsdfit/plotly/fit.py:6-59`.
-/
import Mathlib.Data.Real.Basic
import Verif.Model.PowerData

namespace Verif.FitPlot

open Verif.Cov

/-- What the plots read of one statistic of the data: the columns of its trimmed bins (`mu` is constant for multipoles). -/
structure Stat where
  k : List ℝ
  mu : List ℝ
  power : List ℝ
  error : List ℝ

/-- `pkmu_normalization(driver)` (`util/plot.py:8-28`): `s8z` is the model's sigma8 at z, `s8` that of its cosmology, `pnw` the no-wiggle
linear power. `f/b1` raises for `b1 = 0`. -/
noncomputable def pkmuNorm (f b1 s8z s8 : ℝ) (pnw : ℝ → ℝ) (k mu : ℝ) : ℝ :=
  (1 + f / b1 * mu ^ 2) ^ 2 * b1 ^ 2 * (s8z / s8) ^ 2 * pnw k

/-- `poles_normalization(driver)` (`util/plot.py:30-50`) -/
noncomputable def polesNorm (f b1 s8z s8 : ℝ) (pnw : ℝ → ℝ) (k : ℝ) : ℝ :=
  (1 + 2 / 3 * (f / b1) + 1 / 5 * (f / b1) ^ 2) * b1 ^ 2 * (s8z / s8) ^ 2 * pnw k

/-- The normalisation a plot uses (`util/plot.py:82-86`, `137-141`), at the bins of one statistic (lines 91-94, 154-157). -/
noncomputable def normOf (wedges : Bool) (f b1 s8z s8 : ℝ) (pnw : ℝ → ℝ) (m : Stat) : List ℝ :=
  if wedges then List.zipWith (pkmuNorm f b1 s8z s8 pnw) m.k m.mu else m.k.map (polesNorm f b1 s8z s8 pnw)

/-- A plotted curve: abscissae, ordinates, error bars (none for the theory), and its colour. -/
structure Curve (Col : Type) where
  x : List ℝ
  y : List ℝ
  err : List ℝ
  color : Col

/-- `plot_normalized_data(driver, offset, color=colors)` (`util/plot.py:52-108`): statistic `i` is divided by its normalisation and moved by
`offset*i`; `none` is the ValueError of a list of colours that is too short (lines 76-78). -/
noncomputable def dataCurves {Col : Type} (norm : Stat → List ℝ) (offset : ℝ) (colors : List Col) (stats : List Stat) :
    Option (List (Curve Col)) :=
  if colors.length < stats.length then none
  else some ((stats.zip colors).mapIdx fun i s =>
    ⟨s.1.k, List.zipWith (fun p n => p / n + offset * i) s.1.power (norm s.1), List.zipWith (· / ·) s.1.error (norm s.1), s.2⟩)

/-- the part of the combined model of statistic `i`: `self.combined_model[flat_slices[i]]` (`driver.py:1273`, `util/plot.py:162`) -/
def part (theory : List ℝ) (stats : List Stat) (i : ℕ) : List ℝ :=
  (theory.drop ((flatSlices (stats.map fun s => s.k.length)).getD i (0, 0)).1).take
    (((flatSlices (stats.map fun s => s.k.length)).getD i (0, 0)).2 - ((flatSlices (stats.map fun s => s.k.length)).getD i (0, 0)).1)

/-- `plot_normalized_theory(driver, offset, color=colors)` (`util/plot.py:110-162`).
Simplification: numpy would refuse slices of other lengths than the normalisation; here they are cut to the shorter. -/
noncomputable def theoryCurves {Col : Type} (norm : Stat → List ℝ) (offset : ℝ) (colors : List Col) (theory : List ℝ) (stats : List Stat) :
    Option (List (Curve Col)) :=
  if colors.length < stats.length then none
  else some ((stats.zip colors).mapIdx fun i s =>
    ⟨s.1.k, List.zipWith (fun t n => t / n + offset * i) (part theory stats i) (norm s.1), [], s.2⟩)

/-- `colors[::2]` -/
def evens {A : Type} : List A → List A
  | [] => []
  | [a] => [a]
  | a :: _ :: l => a :: evens l

/-- `colors[1::2]` -/
def odds {A : Type} (l : List A) : List A := evens l.tail

/-- `plot_fit_comparison` (`util/plot.py:206-241`) without further keywords: the theory curves, then the data. -/
noncomputable def fitPlot {Col : Type} (wedges : Bool) (norm : Stat → List ℝ) (colors : List Col) (theory : List ℝ) (stats : List Stat) :
    Option (List (Curve Col) × List (Curve Col)) :=
  match theoryCurves norm (if wedges then -0.1 else 0) ((evens colors).take stats.length) theory stats with
  | none => none
  | some t =>
    match dataCurves norm (if wedges then -0.1 else 0) ((odds colors).take stats.length) stats with
    | none => none
    | some d => some (t, d)

/-- The interactive plot (`plotly/fit.py:6-59`): the data with the offset of the static plot (line 30), the theory with offset 0 (line 44),
everything rounded by `np.around(…, 5)`. The returned curves are those of the figure in its order before it is reversed (line 59), theory
and data apart. -/
noncomputable def plotlyPlot {Col : Type} (around : ℝ → ℝ) (wedges : Bool) (norm : Stat → List ℝ) (colors : List Col) (theory : List ℝ)
    (stats : List Stat) : Option (List (Curve Col) × List (Curve Col)) :=
  match dataCurves norm (if wedges then -0.1 else 0) ((odds colors).take stats.length) stats with
  | none => none
  | some d =>
    match theoryCurves norm 0 ((evens colors).take stats.length) theory stats with
    | none => none
    | some t => some
      (t.map fun c => ⟨c.x.map around, c.y.map around, [], c.color⟩,
        d.map fun c => ⟨c.x.map around, c.y.map around, c.err.map around, c.color⟩)

/-- `data_model_pairs` (`driver.py:1257-1276`) -/
def dataModelPairs (theory : List ℝ) (stats : List Stat) : List (List ℝ × List ℝ × List ℝ × List ℝ) :=
  stats.mapIdx fun i m => (m.k, m.power, m.error, part theory stats i)

/-- the curves of `plot_residuals` (`driver.py:1281-1302`): abscissae and `(data - model) / errs` -/
noncomputable def residuals (theory : List ℝ) (stats : List Stat) : List (List ℝ × List ℝ) :=
  (dataModelPairs theory stats).map fun r =>
    (r.1, List.zipWith (fun dm e => dm / e) (List.zipWith (· - ·) r.2.1 r.2.2.2) r.2.2.1)

end Verif.FitPlot
