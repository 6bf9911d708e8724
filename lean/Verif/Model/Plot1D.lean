import Mathlib.Analysis.SpecialFunctions.Exp
import Mathlib.Analysis.SpecialFunctions.Pow.NNReal
import Mathlib.Data.List.Basic

/-!
# The one-dimensional posteriors

`get_1d_histogram`, `get_mean_likelihood`, `cubic_interpolation` and the panels of `plot_1d_posteriors`
(`pyRSD/rsdfit/analysis/plot.py:28-36, 68-83, 104-118, 128-190`), and `define_ticks` (`pyRSD/rsdfit/analysis/driver.py:304-349`).

Simplifications: the numbers are real; `np.histogram` is by its contract (equal bins from the smallest to the largest sample, half a unit on both sides of one value, the last bin closed);
`scipy`'s cubic interpolation is a parameter (`f(x)` from knots and values; it raises an error with fewer than four knots); labels and colours are left out.
-/

namespace Verif.Plot1D

noncomputable section

open Classical

/-! ### The ticks and the range of an axis -/

/-- `trace.mean()` -/
def mean (t : List ℝ) : ℝ := t.sum / t.length

/-- `trace.std()` -/
def std (t : List ℝ) : ℝ := Real.sqrt ((t.map fun x => (x - mean t) ^ 2).sum / t.length)

/-- `np.linspace(a, b, n)` -/
def linspace (a b : ℝ) (n : ℕ) : List ℝ := (List.range n).map fun i : ℕ => if n = 1 then a else a + (i : ℝ) * ((b - a) / ((n - 1 : ℕ) : ℝ))

/-- The axis of a parameter -/
structure Axis where
  lo : ℝ
  hi : ℝ
  ticks : List ℝ

/-- What `define_ticks` is given about a parameter (`info.scales`, `info.boundaries`), and `info.ticknumber`, `info.bins` -/
structure Ask where
  scale : ℝ
  lower : Option ℝ
  upper : Option ℝ
  ticknumber : ℕ
  bins : ℕ

/-- Lines 311-331: the range, and the ticks ten per cent inside -/
def axis0 (t : List ℝ) (a : Ask) : Axis where
  lo := (mean t - 3.5 * std t) / a.scale
  hi := (mean t + 3.5 * std t) / a.scale
  ticks := linspace ((mean t - 3.5 * std t) / a.scale + ((mean t + 3.5 * std t) / a.scale - (mean t - 3.5 * std t) / a.scale) * 0.1)
    ((mean t + 3.5 * std t) / a.scale - ((mean t + 3.5 * std t) / a.scale - (mean t - 3.5 * std t) / a.scale) * 0.1) a.ticknumber

/-- Lines 337-342: the left boundary; `span` is that of before -/
def left (a : Ask) (span : ℝ) (x : Axis) : Axis :=
  match a.lower with
  | none => x
  | some b => if |x.lo - b| < span / a.bins then { x with lo := b, ticks := x.ticks.set 0 b } else x

/-- Lines 343-347: the right boundary -/
def right (a : Ask) (span : ℝ) (x : Axis) : Axis :=
  match a.upper with
  | none => x
  | some b => if |x.hi - b| < span / a.bins then { x with hi := b, ticks := x.ticks.set (x.ticks.length - 1) b } else x

/-- `define_ticks` (`driver.py:304-349`) for one parameter with the samples `t` -/
def axis (t : List ℝ) (a : Ask) : Axis :=
  right a ((axis0 t a).hi - (axis0 t a).lo) (left a ((axis0 t a).hi - (axis0 t a).lo) (axis0 t a))

/-! ### The histogram -/

/-- The smallest sample -/
def least : List ℝ → ℝ
  | [] => 0
  | [x] => x
  | x :: l => min x (least l)

/-- The largest sample -/
def most : List ℝ → ℝ
  | [] => 0
  | [x] => x
  | x :: l => max x (most l)

/-- The first edge: the smallest sample, or half a unit below if there is one value only -/
def first (t : List ℝ) : ℝ := if least t = most t then least t - 0.5 else least t

/-- The last edge -/
def last (t : List ℝ) : ℝ := if least t = most t then most t + 0.5 else most t

/-- `bin_edges[j]` of `np.histogram(trace, bins=n)` -/
def edge (t : List ℝ) (n j : ℕ) : ℝ := first t + j * ((last t - first t) / n)

/-- The bin `j` holds `x` -/
def holds (t : List ℝ) (n j : ℕ) (x : ℝ) : Prop := edge t n j ≤ x ∧ (x < edge t n (j + 1) ∨ (j + 1 = n ∧ x ≤ edge t n n))

/-- The histogram, with weights -/
def whist (t : List ℝ) (n : ℕ) (w : List ℝ) : List ℝ :=
  (List.range n).map fun j => ((t.zip w).map fun p => if holds t n j p.1 then p.2 else 0).sum

/-- `np.histogram(trace, bins=n)` -/
def hist (t : List ℝ) (n : ℕ) : List ℝ := whist t n (t.map fun _ => 1)

/-- `0.5*(bin_edges[1:]+bin_edges[:-1])` -/
def centers (t : List ℝ) (n : ℕ) : List ℝ := (List.range n).map fun j => 0.5 * (edge t n (j + 1) + edge t n j)

/-! ### The curves -/

/-- An interpolation: knots, values, argument -/
abbrev Interp := List ℝ → List ℝ → ℝ → ℝ

/-- `cubic_interpolation` (`plot.py:28-36`): the values and the grid; `none` for the error -/
def cubic (I : Interp) (h c : List ℝ) : Option (List ℝ × List ℝ) :=
  if c.length < 4 then none
  else some ((linspace (c.headD 0) (c.getLastD 0) (c.length * 10)).map (I c h), linspace (c.headD 0) (c.getLastD 0) (c.length * 10))

/-- A curve: abscissae and ordinates -/
abbrev Curve := List ℝ × List ℝ

/-- What `get_1d_histogram` computes (`plot.py:76-82`) -/
def posterior (I : Interp) (t : List ℝ) (n : ℕ) : Option Curve :=
  match cubic I (hist t n) (centers t n) with
  | none => none
  | some (v, g) => some (g, v.map (· / most v))

/-- `lkl_mean` (`plot.py:111-114`), `m` the smallest `-log L` -/
def lklMean (t lnprob : List ℝ) (n : ℕ) (m : ℝ) : List ℝ :=
  (whist t n (lnprob.map fun l => Real.exp (m + l))).map (· / most (whist t n (lnprob.map fun l => Real.exp (m + l))))

/-- What `get_mean_likelihood` computes (`plot.py:111-117`) -/
def meanLikelihood (I : Interp) (t lnprob : List ℝ) (n : ℕ) (m : ℝ) : Option Curve :=
  match cubic I (lklMean t lnprob n m) (centers t n) with
  | none => none
  | some (v, g) => some (g, v)

/-- The dictionaries `_1d_posteriors` and `_mean_likelihoods` -/
abbrev Cache := List (String × Curve)

/-- `get_1d_histogram(info, trace, name)` and `get_mean_likelihood` (`plot.py:68-83, 104-118`): kept by name; `make` is what is computed -/
def cached (make : Option Curve) (c : Cache) (name : String) : Option Curve × Cache :=
  match c.lookup name with
  | some v => (some v, c)
  | none =>
    match make with
    | none => (none, c)
    | some v => (some v, (name, v) :: c)

/-- What a panel shows -/
structure Panel where
  name : String
  axis : Axis
  curve : Curve
  /-- the curve of the likelihood -/
  likelihood : Option Curve
  /-- the abscissa of the line at the fiducial -/
  fiducial : Option ℝ
  /-- what is written to the `.hist` file -/
  file : Curve

/-- What is known: for every name the samples, the fiducial, what is asked; the log-probabilities; `min_minus_lkl`; and the options `mean_likelihood`, `show_fiducial` -/
structure Info where
  trace : String → List ℝ
  fid : String → Option ℝ
  ask : String → Ask
  bins : ℕ
  lnprobs : List ℝ
  minus : ℝ
  meanLik : Bool
  showFid : Bool

/-- The samples in the units of the axis (line 150) -/
def Info.scaled (i : Info) (name : String) : List ℝ := (i.trace name).map (· / (i.ask name).scale)

/-- One panel (`plot.py:147-190`): the trace is divided by the scale; the dictionaries; the error of an interpolation stops the figure, that of the likelihood does not. -/
def panel (I : Interp) (i : Info) (c : Cache × Cache) (name : String) : Option (Panel × (Cache × Cache)) :=
  match cached (posterior I (i.scaled name) i.bins) c.1 name with
  | (none, _) => none
  | (some p, c1) =>
    some ({ name := name, axis := axis (i.trace name) (i.ask name), curve := p,
            likelihood := if i.meanLik then (cached (meanLikelihood I (i.scaled name) i.lnprobs i.bins i.minus) c.2 name).1 else none,
            fiducial := if i.showFid then i.fid name else none,
            file := if i.meanLik then ((cached (meanLikelihood I (i.scaled name) i.lnprobs i.bins i.minus) c.2 name).1).getD p else p },
          (c1, if i.meanLik then (cached (meanLikelihood I (i.scaled name) i.lnprobs i.bins i.minus) c.2 name).2 else c.2))

/-- The panels of a figure, one after the other; no parameters is an error (lines 136-138) -/
def panels (I : Interp) (i : Info) : Cache × Cache → List String → Option (List Panel × (Cache × Cache))
  | c, [] => some ([], c)
  | c, n :: l =>
    match panel I i c n with
    | none => none
    | some (p, c1) =>
      match panels I i c1 l with
      | none => none
      | some (ps, c2) => some (p :: ps, c2)

/-- All figures (`plot.py:56-61`): the dictionaries are kept -/
def figures (I : Interp) (i : Info) : Cache × Cache → List (List String) → Option (List (List Panel))
  | _, [] => some []
  | c, ns :: rest =>
    if ns = [] then none
    else
      match panels I i c ns with
      | none => none
      | some (ps, c1) =>
        match figures I i c1 rest with
        | none => none
        | some r => some (ps :: r)

end

end Verif.Plot1D
