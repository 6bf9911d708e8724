/-
`WindowFunctionTransfer.__call__` (`pyRSD/rsd/transfers/window.py:52-128`).

The unconvolved multipoles `Pell0` (`Poles.call` of `Model/Transfers.lean`) enter as a function of the column and the row; they are not nan.  The keywords of `mcfit` are the tilt `q`, the length `N` and `lowring`; the interpolation to `k_out` is not modelled.
-/
import Verif.Model.FFTLog
import Verif.Model.Window

namespace Verif.WinTransfer

open Verif.FFTLog

noncomputable section

/-- `dk` (`window.py:81`) -/
def dk (oldk : ℕ → ℝ) : ℝ := log10 (oldk 1) - log10 (oldk 0)

/-- the length of `np.arange(np.log10(oldk.max()) + dk, 2 + 0.5*dk, dk)` (`window.py:82`): `ceil((stop - start)/step)` -/
def extra (Nk : ℕ) (oldk : ℕ → ℝ) : ℕ := ⌈((2 + 1/2*dk oldk) - (log10 (amax Nk oldk) + dk oldk))/dk oldk⌉₊

/-- `newk` (`window.py:80-83`) -/
def newk (Nk : ℕ) (oldk : ℕ → ℝ) (j : ℕ) : ℝ := if j < Nk then oldk j else (10:ℝ)^(log10 (amax Nk oldk) + dk oldk + ((j-Nk:ℕ):ℝ)*dk oldk)

/-- a column of `Pell` (`window.py:86-88`) -/
def zeroPad (Nk : ℕ) (P : ℕ → ℝ) (j : ℕ) : ℝ := if j < Nk then P j else 0

/-- what is done between the transforms -/
inductive Mode (n : ℕ) where
  | noConvolution
  | dryRun
  | window (w : Window.Win n) (spl : (Fin n → ℝ) → ℝ → ℝ)

/-- the ways it fails -/
inductive Err where
  | window (e : Window.WErr)
  | unbound   -- no multipoles: `rr` has no value

/-- the transform of each multipole (`window.py:94-97`) at row `n` -/
def xiRow (L : ℂ → ℂ) (q : ℝ) (lowring left right : Bool) (N Nx : ℕ) (k : ℕ → ℝ) (P : ℕ → ℕ → ℝ) (ells : List ℕ) (n : ℕ) : List ℝ :=
  ells.zipIdx.map fun li => P2xi L li.1 q lowring N Nx k left right (P li.2) n

/-- `xi_conv` (`window.py:101-104`), the rows -/
def conv {m : ℕ} (mode : Mode m) (ells : List ℕ) (rr : ℕ → ℝ) (Nx : ℕ) (row : ℕ → List ℝ) : Except Err (List (List ℝ)) :=
  match mode with
  | .window w spl => (List.range Nx).mapM fun n => match Window.convolve w spl ells (rr n) (row n) with | .ok o => .ok o | .error e => .error (.window e)
  | _ => .ok ((List.range Nx).map row)

/-- `__call__` without `k_out` (`window.py:79-113,124-125`): the column and the row to the value; the wavenumbers beside it are `newk` in every case -/
def call {m : ℕ} (L : ℂ → ℂ) (q : ℝ) (lowring left right : Bool) (N Nk : ℕ) (oldk : ℕ → ℝ) (Pell0 : ℕ → ℕ → ℝ) (ells : List ℕ) (mode : Mode m) : Except Err (ℕ → ℕ → ℝ) :=
  let Nx := Nk + extra Nk oldk
  let k := newk Nk oldk
  let P := fun i => zeroPad Nk (Pell0 i)
  match mode with
  | .noConvolution => .ok P
  | mode =>
    -- `rr` is what the last round of the loop leaves
    match ells.getLast? with
    | none => .error .unbound
    | some last =>
      let rr := outputY (UKsph L last) q lowring N Nx k
      match conv mode ells rr Nx (xiRow L q lowring left right N Nx k P ells) with
      | .error e => .error e
      | .ok rows => .ok fun i => xi2P L (ells.getD i 0) q lowring N Nx rr left right fun n => (rows.getD n []).getD i 0

end
end Verif.WinTransfer
