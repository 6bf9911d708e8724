/-
Model of the survey-window convolution: `pyRSD/rsd/window.py`.

Numbers are exact reals (`Fraction(np.prod(...))` at lines 68-71 is the quotient of two products; rounding is not modelled).
The splines of `_setup_kernels` are an abstract interpolation operator `spl`, see `Verif/Props/Window.lean` for its contract.
Not modelled: `as_string`, `order`, `convolve_multipoles`.
-/
import Mathlib.Data.Real.Basic
import Mathlib.Data.Nat.Factorial.Basic
import Mathlib.Algebra.BigOperators.Group.List.Basic

namespace Verif.Window

noncomputable section

/-- `G(p)` (`window.py:11-28`): numerator and denominator.  The loop variable shadows the argument; it ends with the value of the
argument. -/
def G (p : ℕ) : ℝ × ℝ :=
  let toret := (List.range (p + 1)).foldl (fun (t : ℝ) (q : ℕ) => if q = 0 then t * 1 else t * (1 / 2 + (q : ℝ) - 1)) 1
  (2 ^ p * toret, (Nat.factorial p : ℝ))

/-- One pass of the loop of `get_coefficients` (`window.py:46-72`): the pair `(q, coefficient)`. -/
def coeff (ell ellprime p : ℕ) : ℕ × ℝ :=
  let q := ell + ellprime - 2 * p
  let numer := [(G (ell - p)).1, (G p).1, (G (ellprime - p)).1, (G (ell + ellprime - p)).2,
    (2 * (ell + ellprime : ℕ) - 4 * p + 1 : ℝ), (2 * ell + 1 : ℝ)]
  let denom := [(G (ell - p)).2, (G p).2, (G (ellprime - p)).2, (G (ell + ellprime - p)).1,
    (2 * (ell + ellprime : ℕ) - 2 * p + 1 : ℝ), (2 * q + 1 : ℝ)]
  (q, numer.prod / denom.prod)

/-- `get_coefficients(ell, ellprime)` (`window.py:30-77`), as a list of pairs instead of a pair of lists. -/
def getCoefficients (ell ellprime : ℕ) : List (ℕ × ℝ) :=
  ((List.range (min ell ellprime + 1)).map (coeff ell ellprime)).reverse

/-- The ways the convolution fails. -/
inductive WErr where
  | index       -- `IndexError` of line 145
  | key         -- `KeyError` of line 154
  | shape       -- `ValueError` of line 207
  deriving DecidableEq

/-- The window: `n` separations, the columns of `W` (`window.py:107-119`). -/
structure Win (n : ℕ) where
  s : Fin n → ℝ
  smin : ℝ
  smax : ℝ
  cols : List (Fin n → ℝ)
  maxEllprime : ℕ
  maxEll : ℕ

variable {n : ℕ}

/-- `W[:,qinds]` times the coefficients, summed (`window.py:141-145`). -/
def kernSum (cols : List (Fin n → ℝ)) : List (ℕ × ℝ) → Except WErr (Fin n → ℝ)
  | [] => .ok 0
  | (q, c) :: rest =>
    match cols[q / 2]? with
    | none => .error .index
    | some w =>
      match kernSum cols rest with
      | .error e => .error e
      | .ok acc => .ok (fun i => w i * c + acc i)

/-- `range(0, m+1, 2)` -/
def evens (m : ℕ) : List ℕ := (List.range (m / 2 + 1)).map (2 * ·)

/-- The inner loop of `_setup_kernels` (`window.py:138-145`): the columns of `kern`. -/
def kernRow (cols : List (Fin n → ℝ)) (ell : ℕ) : List ℕ → Except WErr (List (Fin n → ℝ))
  | [] => .ok []
  | ellprime :: rest =>
    match kernSum cols (getCoefficients ell ellprime) with
    | .error e => .error e
    | .ok k =>
      match kernRow cols ell rest with
      | .error e => .error e
      | .ok ks => .ok (k :: ks)

/-- The outer loop (`window.py:135-148`): the dictionary of kernels, here of the tabulated values from which the splines are made.
`kern` is reused for every `ell`, but every column is overwritten and the splines copy. -/
def setupLoop (w : Win n) : List ℕ → Except WErr (List (ℕ × List (Fin n → ℝ)))
  | [] => .ok []
  | ell :: rest =>
    match kernRow w.cols ell (evens w.maxEllprime) with
    | .error e => .error e
    | .ok row =>
      match setupLoop w rest with
      | .error e => .error e
      | .ok d => .ok ((ell, row) :: d)

/-- `_setup_kernels` (`window.py:124-148`). -/
def setup (w : Win n) : Except WErr (List (ℕ × List (Fin n → ℝ))) := setupLoop w (evens w.maxEll)

/-- `_get_kernel(ell, r)` at one separation `r` (`window.py:150-165`). -/
def getKernel (w : Win n) (spl : (Fin n → ℝ) → ℝ → ℝ) (splines : List (ℕ × List (Fin n → ℝ))) (ell : ℕ) (r : ℝ) :
    Except WErr (List ℝ) :=
  match splines.lookup ell with
  | none => .error .key
  | some row =>
    open Classical in
    if w.smin ≤ r ∧ r ≤ w.smax then .ok (row.map (fun k => spl k r))
    else .ok (row.zipIdx.map (fun ki => if ki.2 = ell / 2 then 1 else 0))

/-- `np.einsum('ij,ij->i', xi, kern)` at one separation. -/
def dot (xi kern : List ℝ) : ℝ := (List.zipWith (· * ·) xi kern).sum

/-- The loop over `ells` of `__call__` (`window.py:194-210`) at one separation: `xi` is the row of multipoles there.  (All rows have the
same number of columns and the kernel has the same number of columns at every separation, so the shape test can be made row by row.) -/
def callLoop (w : Win n) (spl : (Fin n → ℝ) → ℝ → ℝ) (splines : List (ℕ × List (Fin n → ℝ))) (r : ℝ) :
    List ℕ → List ℝ → Except WErr (List ℝ)
  | [], _ => .ok []
  | ell :: rest, xi =>
    match getKernel w spl splines ell r with
    | .error e => .error e
    | .ok kern =>
      let go (xi : List ℝ) : Except WErr (List ℝ) :=
        match callLoop w spl splines r rest xi with
        | .error e => .error e
        | .ok out => .ok (dot xi kern :: out)
      if kern.length ≠ xi.length then
        let npoles := w.maxEllprime / 2 + 1
        if xi.length > npoles then go (xi.take npoles) else .error .shape
      else go xi

/-- `WindowConvolution(s, W, max_ellprime, max_ell)(ells, r, xi)` (`window.py:107-122, 167-212`), one row. -/
def convolve (w : Win n) (spl : (Fin n → ℝ) → ℝ → ℝ) (ells : List ℕ) (r : ℝ) (xi : List ℝ) : Except WErr (List ℝ) :=
  match setup w with
  | .error e => .error e
  | .ok splines => callLoop w spl splines r ells xi

end

end Verif.Window
