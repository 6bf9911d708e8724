import Verif.Model.Plot1D
import Mathlib.Algebra.Order.Floor.Defs

/-!
# The distribution of a chain

`Trace` and `histogram_bins` (`pyRSD/rsdfit/parameters/distributions.py:13-21, 527-710`).

Simplifications: the numbers are real and exact (the standard deviation of equal numbers is exactly zero); a sample that is NaN or infinite is `none`; `np.histogram` is by its contract
(`Verif.Plot1D`), `scipy`'s spline and its root finder are parameters (the spline raises an error with fewer than four points), the random numbers are arguments; sizes are natural numbers;
printing and plotting are left out.
-/

namespace Verif.Trace

open Plot1D

noncomputable section

open Classical

/-- What is raised -/
inductive Err where
  | type
  | value
  | index
  | fitpack

/-- The object (`distributions.py:543-552`): an array, or another sequence (`array_like`), of the samples; `none` is NaN or infinite -/
structure Trace where
  isArray : Bool
  data : List (Option ℝ)

/-- `DistributionBase.__init__` (`distributions.py:89-92`): `None` is refused -/
def construct : Option Trace → Except Err Trace
  | none => .error .value
  | some t => .ok t

/-- `trace[keep]` (e.g. lines 633-634): the index is a boolean array, which only an array takes -/
def Trace.keep (t : Trace) : Except Err (List ℝ) := if t.isArray then .ok (t.data.filterMap id) else .error .type

/-- `np.sort` -/
def sorted (t : List ℝ) : List ℝ := t.mergeSort fun a b => decide (a ≤ b)

/-- `np.median` of a list that is not empty -/
def median (t : List ℝ) : ℝ :=
  if t.length % 2 = 1 then (sorted t).getD (t.length / 2) 0
  else ((sorted t).getD (t.length / 2 - 1) 0 + (sorted t).getD (t.length / 2) 0) / 2

/-- `limits` (lines 555-566): of all samples; `none`: one of the limits is not a finite number; the error is that of `np.min` of nothing -/
def Trace.limits (t : Trace) (factor : ℝ) : Except Err (Option (ℝ × ℝ)) :=
  if t.data = [] then .error .value
  else if none ∈ t.data then .ok none
  else .ok (some (median (t.data.filterMap id) - factor * (median (t.data.filterMap id) - least (t.data.filterMap id)),
    median (t.data.filterMap id) + factor * (most (t.data.filterMap id) - median (t.data.filterMap id))))

/-- `h` of line 18 -/
def width (t : List ℝ) : ℝ := 3.5 * std t / (t.length : ℝ) ^ (1 / 3 : ℝ)

/-- `histogram_bins` (lines 13-21): `max([])`, and `int(nan)` if there is one value only, are errors -/
def nBins (t : List ℝ) : Except Err ℕ :=
  if t = [] then .error .value
  else if std t = 0 then .error .value
  else .ok (⌈(most t - least t) / width t⌉₊ * 2)

/-- `np.histogram(t, bins=n, density=True)[0]` -/
def density (t : List ℝ) (n : ℕ) : List ℝ :=
  (List.range n).map fun j => (hist t n).getD j 0 / (edge t n (j + 1) - edge t n j) / (hist t n).sum

/-- `np.cumsum(np.diff(domain_) * counts)` (line 660) -/
def cumulative (t : List ℝ) (n : ℕ) : List ℝ :=
  (List.range n).map fun j => ((List.range (j + 1)).map fun i => (edge t n (i + 1) - edge t n i) * (density t n).getD i 0).sum

/-- `np.interp(x, xs, ys)` for increasing `xs`: linear between the points, constant outside -/
def interp (x : ℝ) : List (ℝ × ℝ) → ℝ
  | [] => 0
  | [p] => p.2
  | p :: q :: l => if x ≤ p.1 then p.2 else if x < q.1 then p.2 + (q.2 - p.2) / (q.1 - p.1) * (x - p.1) else interp x (q :: l)

/-- What `pdf` and `cdf` return for the domain: the values at the centres, or interpolated (lines 638-642, 662-666) -/
def table (xs ys : List ℝ) : Option (List ℝ) → List ℝ × List ℝ
  | none => (xs, ys)
  | some dom => (dom, dom.map fun x => interp x (xs.zip ys))

/-- `pdf` (lines 621-642); `factor` is not used -/
def Trace.pdf (t : Trace) (domain : Option (List ℝ)) (_factor : ℝ) : Except Err (List ℝ × List ℝ) :=
  match t.keep with
  | .error e => .error e
  | .ok l =>
    match nBins l with
    | .error e => .error e
    | .ok n => .ok (table (centers l n) (density l n) domain)

/-- `cdf` (lines 645-666); `factor` is not used -/
def Trace.cdf (t : Trace) (domain : Option (List ℝ)) (_factor : ℝ) : Except Err (List ℝ × List ℝ) :=
  match t.keep with
  | .error e => .error e
  | .ok l =>
    match nBins l with
    | .error e => .error e
    | .ok n => .ok (table (centers l n) (cumulative l n) domain)

/-- `scipy.optimize.bisect(f, a, b)` -/
abbrev Solver := (ℝ → ℝ) → ℝ → ℝ → Except Err ℝ

/-- A number or an array -/
inductive Drawn where
  | one (x : ℝ)
  | many (l : List ℝ)

/-- The list of line 616 -/
def roots (B : Solver) (f : ℝ → ℝ) (a b : ℝ) : List ℝ → Except Err (List ℝ)
  | [] => .ok []
  | r :: l =>
    match B (fun x => f x - r) a b with
    | .error e => .error e
    | .ok x =>
      match roots B f a b l with
      | .error e => .error e
      | .ok xs => .ok (x :: xs)

/-- Line 618: one number if `size` is at most one -/
def shaped (size : ℕ) (l : List ℝ) : Except Err Drawn :=
  if 1 < size then .ok (.many l)
  else match l with
    | [] => .error .index
    | x :: _ => .ok (.one x)

/-- `_draw_from_discrete` (lines 590-618): `rs` are the random numbers, or `cum_sampling` -/
def Trace.fromDiscrete (S : Interp) (B : Solver) (t : Trace) (size : ℕ) (rs : List ℝ) : Except Err Drawn :=
  match t.cdf none 1 with
  | .error e => .error e
  | .ok (xs, ys) =>
    if xs.length < 4 then .error .fitpack
    else
      match roots B (S xs (ys.map (· / most ys))) (least xs) (most xs) rs with
      | .error e => .error e
      | .ok l => shaped size l

/-- `draw` (lines 569-578): as many random numbers as asked for -/
def Trace.draw (S : Interp) (B : Solver) (t : Trace) (us : List ℝ) : Except Err Drawn := t.fromDiscrete S B us.length us

/-- `np.linspace(0., 1., sampling+2)[1:-1]` (line 586) -/
def levels (sampling : ℕ) : List ℝ := ((linspace 0 1 (sampling + 2)).drop 1).dropLast

/-- `grid` (lines 581-587) -/
def Trace.grid (S : Interp) (B : Solver) (t : Trace) (sampling : ℕ) : Except Err Drawn := t.fromDiscrete S B sampling (levels sampling)

/-- `loc` (lines 670-676); `none` is NaN -/
def Trace.loc (t : Trace) : Except Err (Option ℝ) :=
  match t.keep with
  | .error e => .error e
  | .ok l => .ok (if l = [] then none else some (median l))

/-- `scale` (lines 680-686); `none` is NaN -/
def Trace.scale (t : Trace) : Except Err (Option ℝ) :=
  match t.keep with
  | .error e => .error e
  | .ok l => .ok (if l = [] then none else some (std l))

end

end Verif.Trace
