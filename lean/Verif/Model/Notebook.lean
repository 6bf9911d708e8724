/-
The interactive plots of chains, `pyRSD/rsdfit/plotly/mcmc.py` and `kde_scipy` of `plotly/tools.py:5-17`.

Simplifications.  Exact reals.  Colours, widths, opacities, hover text, range slider and height of a figure are left out.  `burnin` is not negative and `thin` not zero.
A chain is a rectangular array.  `np.around(., 5)` is a function `rnd`; `np.histogram(trace, bins='auto')`, `scipy.stats.gaussian_kde` and the normal density
`mlab.normpdf` are functions too; the KDE does not fail (it does for two proportional traces).  A `ValueError` is `none`.
-/
import Mathlib.Data.Real.Basic

namespace Verif.Nb

noncomputable section

/-- The parts of an `EmceeResults` that the plots use: names, chains (`trace()`: walkers × iterations), `iterations`, `burnin`, and the statistics of a parameter
(`emcee_results.py:81-186`). -/
structure Res where
  free : List String
  constrained : List String
  chain : String → List (List ℝ)
  iterations : ℕ
  burnin : ℕ
  median : String → ℝ
  oneSigma : String → ℝ × ℝ
  threeSigma : String → ℝ × ℝ

/-- `valid = r.free_names + r.constrained_names` (`mcmc.py:18`, `68`, `133`) -/
def Res.valid (r : Res) : List String := r.free ++ r.constrained

/-- `tex_names`, and the dictionary `rename`: name ↦ label -/
abbrev Labels := List (String × String)

/-- `if name in tex_names: name = tex_names[name]` (`mcmc.py:45-46`, `173-174`), `tex_names.get(name, name)` (`73-74`) -/
def texOf (tex : Labels) (name : String) : String := (tex.lookup name).getD name

/-- `d.setdefault(key, v)` (`mcmc.py:73-74`) -/
def setdefault (d : Labels) (key v : String) : Labels := if (d.lookup key).isSome then d else d ++ [(key, v)]

/-! ### `plot_traces` -/

/-- The panel of a parameter: the lines of single walkers, the line of the mean (iteration numbers and values), the label of the y axis -/
structure Row where
  lines : List (List ℕ × List ℝ)
  mean : List ℕ × List ℝ
  title : String

/-- `for itrace, t in enumerate(trace): if itrace > max_walkers: break; ...` (`mcmc.py:34-38`) -/
def walkerLines (xs : List ℕ) (maxW : ℕ) : ℕ → List (List ℝ) → List (List ℕ × List ℝ)
  | _, [] => []
  | i, t :: ts => if i > maxW then [] else (xs, t) :: walkerLines xs maxW (i + 1) ts

/-- `trace.mean(axis=0)` (`mcmc.py:41`) of `len` columns -/
def colMean (trace : List (List ℝ)) (len : ℕ) : List ℝ :=
  (List.range len).map fun j => (trace.map fun t => t.getD j 0).sum / trace.length

/-- The panel of one parameter (`mcmc.py:27-48`) -/
def tracesRow (rnd : ℝ → ℝ) (tex : Labels) (r : Res) (burnin maxW : ℕ) (name : String) : Row :=
  let iters := (List.range r.iterations).drop burnin                            -- line 30
  let trace := (r.chain name).map fun t => (t.drop burnin).map rnd              -- line 31
  { lines := walkerLines iters maxW 0 trace
    mean := (iters, colMean trace iters.length)
    title := texOf tex name }

/-- `plot_traces` (`mcmc.py:7-55`) -/
def plotTraces (rnd : ℝ → ℝ) (tex : Labels) (r : Res) (names : List String) (burnin : Option ℕ) (maxW : ℕ) : Option (List Row) :=
  if names.length < 1 then none
  else if !names.all (fun n => r.valid.contains n) then none
  else some (names.map (tracesRow rnd tex r (burnin.getD r.burnin) maxW))

/-! ### The samples of a parameter -/

/-- `t[::thin]` of a list -/
def strided (thin : ℕ) : List ℝ → List ℝ
  | [] => []
  | x :: xs => x :: strided thin (xs.drop (thin - 1))
termination_by l => l.length
decreasing_by simp only [List.length_drop, List.length_cons]; omega

/-- `r[param].trace()[:, r.burnin::thin].flatten()` (`mcmc.py:77-78`, `138`) -/
def samples (r : Res) (thin : ℕ) (name : String) : List ℝ := (r.chain name).flatMap fun t => strided thin (t.drop r.burnin)

/-- `[r[name].median + x for x in r[name].three_sigma]` (`mcmc.py:81-82`, `146`) -/
def limits (r : Res) (name : String) : ℝ × ℝ := (r.median name + (r.threeSigma name).1, r.median name + (r.threeSigma name).2)

/-- `np.linspace(a, b, n)` -/
def linspace (a b : ℝ) (n : ℕ) : List ℝ := (List.range n).map fun (i : ℕ) => a + (i : ℝ) * ((b - a) / ((n - 1 : ℕ) : ℝ))

/-! ### `jointplot_2d` -/

/-- `kde_scipy` (`tools.py:5-17`): the density of the pairs `(trace2, trace1)` at the points `(Y, X)` in row-major order, reshaped to one row for each y -/
def kdeScipy (kde : List (ℝ × ℝ) → ℝ × ℝ → ℝ) (trace1 trace2 : List ℝ) (xl yl : ℝ × ℝ) (N : ℕ) : List ℝ × List ℝ × List (List ℝ) :=
  let x := linspace xl.1 xl.2 N
  let y := linspace yl.1 yl.2 N
  let positions := y.flatMap fun b => x.map fun a => (b, a)
  let flat := positions.map (kde (trace2.zip trace1))
  (x, y, (List.range N).map fun i => (flat.drop (i * N)).take N)

/-- The contour plot of two parameters: grid, heights, ranges and labels of the axes -/
structure Joint where
  x : List ℝ
  y : List ℝ
  z : List (List ℝ)
  xrange : ℝ × ℝ
  yrange : ℝ × ℝ
  xtitle : String
  ytitle : String

/-- `jointplot_2d` (`mcmc.py:57-123`); `rename` is a dictionary of the caller, or the one dictionary of the default, shared by all calls: it is returned as the call
leaves it -/
def joint (rnd : ℝ → ℝ) (kde : List (ℝ × ℝ) → ℝ × ℝ → ℝ) (tex : Labels) (r : Res) (p1 p2 : String) (thin : ℕ) (rename : Labels) : Option Joint × Labels :=
  if !([p1, p2].all fun n => r.valid.contains n) then (none, rename)
  else
    let rename := setdefault rename p1 (texOf tex p1)
    let rename := setdefault rename p2 (texOf tex p2)
    let g := kdeScipy kde (samples r thin p1) (samples r thin p2) (limits r p1) (limits r p2) 200
    (some { x := g.1.map rnd, y := g.2.1.map rnd, z := g.2.2.map (List.map rnd), xrange := limits r p1, yrange := limits r p2,
            xtitle := (rename.lookup p1).getD "", ytitle := (rename.lookup p2).getD "" }, rename)

/-! ### `hist_1d` -/

/-- The heights: `counts.astype(float) / (dx*counts).sum()` with `dx = np.diff(bins)` (`mcmc.py:142-143`) -/
def widths (edges : List ℝ) : List ℝ := edges.zipWith (fun a b => b - a) edges.tail
@[inherit_doc widths] def heights (counts : List ℕ) (edges : List ℝ) : List ℝ :=
  let total := (List.zipWith (fun (d : ℝ) (c : ℕ) => d * (c : ℝ)) (widths edges) counts).sum
  counts.map fun (c : ℕ) => (c : ℝ) / total

/-- `0.5*(bins[1:] + bins[:-1])` (`mcmc.py:144`) -/
def centers (edges : List ℝ) : List ℝ := edges.zipWith (fun a b => 1 / 2 * (b + a)) edges.tail

/-- A bar: centre, height, width -/
structure Bar where
  x : ℝ
  y : ℝ
  width : ℝ

/-- The histogram of a parameter: bars, the curve of the normal distribution (its x's and the mean whose density it shows), positions of vertical lines, where the
annotation is, label and range of the x axis -/
structure Hist where
  bars : List Bar
  curve : List ℝ
  mu : ℝ
  shapes : List ℝ
  annotation : ℝ
  title : String
  xrange : ℝ × ℝ

/-- `hist_1d` (`mcmc.py:125-197`) -/
def hist (rnd : ℝ → ℝ) (histogram : List ℝ → List ℕ × List ℝ) (lo hi : List ℝ → ℝ) (tex : Labels) (r : Res) (name : String) (thin : ℕ)
    (rename : Option String) (hide : Bool) : Option Hist :=
  if !r.valid.contains name then none
  else
    let trace := samples r thin name
    let h := histogram trace
    let xlims := limits r name
    some { bars := List.zipWith (fun (p : ℝ × ℝ) w => ⟨rnd p.1, rnd p.2, w⟩) ((centers h.2).zip (heights h.1 h.2)) (widths h.2)
           curve := linspace (9/10 * lo trace) (11/10 * hi trace) 500           -- line 151, before rounding
           mu := trace.sum / trace.length
           shapes := if hide then [] else
             [r.median name, r.median name + (r.oneSigma name).1, r.median name + (r.oneSigma name).2]
           annotation := 1/2 * (xlims.2 + xlims.1)
           title := match rename with
             | some n => n
             | none => texOf tex name
           xrange := xlims }

/-! ### `plot_triangle` -/

/-- One axes of the grid of subplots: hidden, a contour plot of two parameters, or a histogram, with the thinning used and which of the titles are kept -/
inductive Cell where
  | hidden
  | contour (xpar ypar : String) (thin : ℕ) (xtitle ytitle : Bool)
  | histogram (par : String) (thin : ℕ) (xtitle ytitle : Bool)
  deriving DecidableEq

/-- The body of the loops of `plot_triangle` for `(i, j)` (`mcmc.py:211-250`): the histogram is called without `thin` (line 222), whose default is 1 -/
def cell (params : List String) (thin N i j : ℕ) : Cell :=
  if i < j then .hidden
  else
    let xt := !(i != N)                                      -- line 240
    let yt := !(j != 1 || j == 1 && i == 1)                  -- line 241
    if i ≠ j then .contour (params.getD (j - 1) "") (params.getD (i - 1) "") thin xt yt
    else .histogram (params.getD (j - 1) "") 1 xt yt

/-- The loop over `j` with the counter `cnt` (`mcmc.py:211-250`) -/
def loopJ (f : ℕ → Cell) : List ℕ → ℕ → List (ℕ × Cell) × ℕ
  | [], cnt => ([], cnt)
  | j :: js, cnt =>
    let rest := loopJ f js (cnt + 1)
    ((cnt, f j) :: rest.1, rest.2)

/-- The loop over `i` (`mcmc.py:210`) -/
def loopI (f : ℕ → ℕ → Cell) (js : List ℕ) : List ℕ → ℕ → List (ℕ × Cell)
  | [], _ => []
  | i :: is, cnt =>
    let row := loopJ (f i) js cnt
    row.1 ++ loopI f js is row.2

/-- `plot_triangle` (`mcmc.py:199-258`): the number of each axes and its content; an unknown name is a `ValueError` of the panels, and there is no grid of no rows.
A name given twice is not modelled (the KDE of a chain with itself fails). -/
def triangle (r : Res) (params : Option (List String)) (thin : ℕ) : Option (List (ℕ × Cell)) :=
  let ps := params.getD r.valid                              -- line 201-202
  let N := ps.length
  if ps.isEmpty || !ps.all (fun n => r.valid.contains n) then none
  else some <| loopI (cell ps thin N) (List.range' 1 N) (List.range' 1 N) 1

end

end Verif.Nb
