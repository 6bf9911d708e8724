/-
The splines of `pyRSD/_gcl/cpp/Spline.cpp`.

An array of length `N` is a function `ℕ → ℝ`, of which the first `N` values matter.  Real numbers in place of `double`.  An index that the code would make negative is zero here; that does not
happen under the preconditions written in the code (`Spline.cpp:9-10`).  Reference counting (`Spline.cpp:306-358`) is left out.
-/
import Mathlib.Data.Real.Archimedean
import Mathlib.Algebra.Order.Floor.Semiring
import Mathlib.Data.List.Range

namespace Verif.Spline

noncomputable section

open Classical in
/-- the loop of `BinaryLookup` (`Spline.cpp:27-39`), at most `fuel` times around; `none` is not done by then -/
def search (X : ℕ → ℝ) (x : ℝ) : ℕ → ℕ → ℕ → ℕ → Option ℕ
  | 0, _, _, _ => none
  | fuel+1, lo, hi, i =>
    if x < X i then search X x fuel lo (i-1) ((lo + (i-1))/2)
    else if x > X (i+1) then search X x fuel (i+1) hi ((i+1 + hi)/2)
    else some i

open Classical in
/-- `BinaryLookup` (`Spline.cpp:9-41`); `none` if the assertion fails, or if the loop goes around more than `N` times -/
def lookup (N : ℕ) (X : ℕ → ℝ) (x : ℝ) : Option ℕ :=
  if ¬ (2 ≤ N ∧ X 0 ≤ x ∧ x ≤ X (N-1)) then none
  else if x = X (N-1) then some (N-2)
  else search X x N 0 (N-2) ⌊((N:ℝ) - 1)*(x - X 0)/(X (N-1) - X 0)⌋₊

/-- a spline: the domain, and the value and the derivative on each interval -/
structure Impl where
  N : ℕ
  X : ℕ → ℝ
  xmin : ℝ
  xmax : ℝ
  piece : ℕ → ℝ → ℝ
  slope : ℕ → ℝ → ℝ

open Classical in
/-- `Spline::Evaluate` (`Spline.cpp:360-365`) -/
def evaluate (s : Impl) (x : ℝ) : Option ℝ := if x < s.xmin ∨ x > s.xmax then some 0 else (lookup s.N s.X x).map fun i => s.piece i x

open Classical in
/-- `Spline::EvaluateDerivative` (`Spline.cpp:376-381`) -/
def derivative (s : Impl) (x : ℝ) : Option ℝ := if x < s.xmin ∨ x > s.xmax then some 0 else (lookup s.N s.X x).map fun i => s.slope i x

/-- `LinearSplineImpl` (`Spline.cpp:57-98`) -/
def linear (N : ℕ) (X Y : ℕ → ℝ) : Impl where
  N := N
  X := X
  xmin := X 0
  xmax := X (N-1)
  piece := fun i x => Y i + (Y (i+1) - Y i)*(x - X i)/(X (i+1) - X i)
  slope := fun i _ => (Y (i+1) - Y i)/(X (i+1) - X i)

/-- the ordinates of `ShiftedLinearSplineImpl` (`Spline.cpp:156-162`) -/
def shiftedY (tau : ℝ) (yy : ℕ → ℝ) : ℕ → ℝ
  | 0 => yy 0
  | i+1 => -tau/(1 - tau)*shiftedY tau yy i + 1/(1 - tau)*yy i

/-- the abscissae of `ShiftedLinearSplineImpl` (`Spline.cpp:146,156,159`) -/
def shiftedX (tau : ℝ) (xx : ℕ → ℝ) : ℕ → ℝ
  | 0 => xx 0 - (1 - tau)*(xx 1 - xx 0)
  | i+1 => xx i + tau*(xx 1 - xx 0)

/-- `ShiftedLinearSplineImpl` (`Spline.cpp:140-163`) -/
def shifted (n : ℕ) (xx yy : ℕ → ℝ) (tau : ℝ) : Impl := { linear (n+1) (shiftedX tau xx) (shiftedY tau yy) with xmin := xx 0, xmax := xx (n-1) }

/-- the arrays `b`, `c`, `d` of `CubicSplineImpl` -/
structure Arr where
  b : ℕ → ℝ
  c : ℕ → ℝ
  d : ℕ → ℝ

/-- one round of the loop that sets up the system (`Spline.cpp:213-218`) -/
def setupStep (X Y : ℕ → ℝ) (s : Arr) (i : ℕ) : Arr :=
  let d := Function.update s.d i (X (i+1) - X i)
  let b := Function.update s.b i (2*(d (i-1) + d i))
  let c := Function.update s.c (i+1) ((Y (i+1) - Y i)/d i)
  let c := Function.update c i (c (i+1) - c i)
  { b := b, c := c, d := d }

/-- the system (`Spline.cpp:210-218`) -/
def setup (N : ℕ) (X Y : ℕ → ℝ) (s : Arr) : Arr :=
  let d := Function.update s.d 0 (X 1 - X 0)
  let c := Function.update s.c 1 ((Y 1 - Y 0)/d 0)
  (List.range' 1 (N-2)).foldl (setupStep X Y) { b := s.b, c := c, d := d }

/-- the end conditions (`Spline.cpp:221-230`) -/
def ends (N : ℕ) (X : ℕ → ℝ) (s : Arr) : Arr :=
  let b := Function.update s.b 0 (-s.d 0)
  let b := Function.update b (N-1) (-s.d (N-2))
  let c := Function.update s.c 0 0
  let c := Function.update c (N-1) 0
  let c := if N > 3 then
      let c := Function.update c 0 (c 2/(X 3 - X 1) - c 1/(X 2 - X 0))
      let c := Function.update c (N-1) (c (N-2)/(X (N-1) - X (N-3)) - c (N-3)/(X (N-2) - X (N-4)))
      let c := Function.update c 0 (c 0*s.d 0*s.d 0/(X 3 - X 0))
      Function.update c (N-1) (-c (N-1)*s.d (N-2)*s.d (N-2)/(X (N-1) - X (N-4)))
    else c
  { b := b, c := c, d := s.d }

/-- forward elimination (`Spline.cpp:233-237`) -/
def forwardStep (s : Arr) (i : ℕ) : Arr :=
  let t := s.d (i-1)/s.b (i-1)
  { b := Function.update s.b i (s.b i - t*s.d (i-1)), c := Function.update s.c i (s.c i - t*s.c (i-1)), d := s.d }

def forward (N : ℕ) (s : Arr) : Arr := (List.range' 1 (N-1)).foldl forwardStep s

/-- back substitution (`Spline.cpp:240-244`) -/
def backStep (N : ℕ) (s : Arr) (ib : ℕ) : Arr :=
  let i := N - ib - 2
  { s with c := Function.update s.c i ((s.c i - s.d i*s.c (i+1))/s.b i) }

def back (N : ℕ) (s : Arr) : Arr := (List.range (N-1)).foldl (backStep N) { s with c := Function.update s.c (N-1) (s.c (N-1)/s.b (N-1)) }

/-- the coefficients (`Spline.cpp:247-254`) -/
def coefStep (Y : ℕ → ℝ) (s : Arr) (i : ℕ) : Arr :=
  { b := Function.update s.b i ((Y (i+1) - Y i)/s.d i - s.d i*(s.c (i+1) + 2*s.c i)),
    c := Function.update s.c i (3*s.c i),
    d := Function.update s.d i ((s.c (i+1) - s.c i)/s.d i) }

def coefs (N : ℕ) (Y : ℕ → ℝ) (s : Arr) : Arr :=
  let s := { s with b := Function.update s.b (N-1) ((Y (N-1) - Y (N-2))/s.d (N-2) + s.d (N-2)*(s.c (N-2) + 2*s.c (N-1))) }
  let s := (List.range (N-1)).foldl (coefStep Y) s
  let s := { s with c := Function.update s.c (N-1) (3*s.c (N-1)) }
  { s with d := Function.update s.d (N-1) (s.d (N-2)) }

/-- the constructor of `CubicSplineImpl` (`Spline.cpp:191-256`); `s` is what is in the memory it gets -/
def fit (N : ℕ) (X Y : ℕ → ℝ) (s : Arr) : Arr :=
  if N = 2 then
    let m := (Y 1 - Y 0)/(X 1 - X 0)
    { b := Function.update (Function.update s.b 1 m) 0 m, c := Function.update (Function.update s.c 1 0) 0 0, d := Function.update (Function.update s.d 1 0) 0 0 }
  else coefs N Y (back N (forward N (ends N X (setup N X Y s))))

/-- `CubicSplineImpl` (`Spline.cpp:180-281`) -/
def cubic (N : ℕ) (X Y : ℕ → ℝ) (s : Arr) : Impl where
  N := N
  X := X
  xmin := X 0
  xmax := X (N-1)
  piece := fun i x => let a := fit N X Y s; let u := x - X i; Y i + a.b i*u + a.c i*u*u + a.d i*u*u*u
  slope := fun i x => let a := fit N X Y s; let u := x - X i; a.b i + 2*a.c i*u + 3*a.d i*u*u

end
end Verif.Spline
