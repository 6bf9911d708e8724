/-
`convolve_multipoles` (`pyRSD/rsd/window.py:214-302`), the branch `legacy=True`, which is the default.

The wavenumbers `k` are a one-dimensional array of `Nk` numbers (the two-dimensional `k` that line 271 lets pass is not modelled: `splrep` and `pk_to_xi` take no such array), `Pell` is the function of the row and the column with `cols` columns.
`splrep`/`splev` and the splines of the window are abstract operators, `cs` and `spl`; their contracts are in `Spec/ConvPoles.lean`.  Not modelled: the branch `legacy=False`, see C112 and `Model/FFTLog.lean` for the transforms it calls; rounding.
-/
import Verif.Model.Window
import Verif.Model.Xi
import Verif.Model.FFTLog

namespace Verif.ConvPoles

open Verif.Window Verif.Xi Verif.FFTLog

noncomputable section

/-- the ways it fails -/
inductive CErr where
  | columns     -- `ValueError` of line 261
  | order       -- `ValueError` of line 264
  | few         -- line 278 (no wavenumber), line 281 (`splrep` wants more than 3 points)
  | bessel      -- `ComputeXiLM` knows no such order
  | window (e : WErr)

/-- `k_hires` (`window.py:278`) -/
def hires (Nk : ℕ) (k : ℕ → ℝ) (j : ℕ) : ℝ :=
  (10:ℝ)^(log10 (amin Nk k) + (j:ℝ)*((log10 (amax Nk k) - log10 (amin Nk k))/499))

/-- the number of wavenumbers of the transform (`window.py:277-284`) -/
def fineN (Nk : ℕ) : ℕ := if Nk < 500 then 500 else Nk

/-- the wavenumbers of the transform (`window.py:277-284`) -/
def fineK (Nk : ℕ) (k : ℕ → ℝ) (j : ℕ) : ℝ := if Nk < 500 then hires Nk k j else k j

/-- column `i` of the multipoles at these wavenumbers (`window.py:279-283`) -/
def fineP (cs : (m : ℕ) → (ℕ → ℝ) → (ℕ → ℝ) → ℝ → ℝ) (Nk : ℕ) (k : ℕ → ℝ) (P : ℕ → ℕ → ℝ) (i j : ℕ) : ℝ :=
  if Nk < 500 then cs Nk k (fun a => P a i) (hires Nk k j) else P j i

variable {n : ℕ}

/-- an array of `n` numbers as a function on `ℕ` -/
def arr (f : Fin n → ℝ) (a : ℕ) : ℝ := if h : a < n then f ⟨a, h⟩ else 0

/-- one row of `xi` (`window.py:287-289`) -/
def xiRow (cs : (m : ℕ) → (ℕ → ℝ) → (ℕ → ℝ) → ℝ → ℝ) (Nk : ℕ) (k : ℕ → ℝ) (P : ℕ → ℕ → ℝ) (s : ℝ) : List (ℕ × ℕ) → Except CErr (List ℝ)
  | [] => .ok []
  | (ell, i) :: rest =>
    match pkToXi .trapz ell (fineN Nk) (fineK Nk k) (fineP cs Nk k P i) s 0 with
    | none => .error .bessel
    | some x =>
      match xiRow cs Nk k P s rest with
      | .error e => .error e
      | .ok xs => .ok (x :: xs)

/-- one row of `xi_conv` (`window.py:287-295`) -/
def convRow (cs : (m : ℕ) → (ℕ → ℝ) → (ℕ → ℝ) → ℝ → ℝ) (Nk : ℕ) (k : ℕ → ℝ) (P : ℕ → ℕ → ℝ) (ells : List ℕ) (w : Win n) (spl : (Fin n → ℝ) → ℝ → ℝ) (dry : Bool) (s : ℝ) :
    Except CErr (List ℝ) :=
  match xiRow cs Nk k P s ells.zipIdx with
  | .error e => .error e
  | .ok xi =>
    if dry then .ok xi
    else match convolve w spl ells s xi with
      | .error e => .error (.window e)
      | .ok out => .ok out

/-- the rows of `xi_conv` -/
def convRows (row : Fin n → Except CErr (List ℝ)) : List (Fin n) → Except CErr (List (List ℝ))
  | [] => .ok []
  | a :: rest =>
    match row a with
    | .error e => .error e
    | .ok r =>
      match convRows row rest with
      | .error e => .error e
      | .ok rs => .ok (r :: rs)

/-- one row of the result (`window.py:298-300`): `kout` is the wavenumber of the row -/
def outRow (w : Win n) (rows : List (List ℝ)) (kout : ℝ) : List (ℕ × ℕ) → Except CErr (List ℝ)
  | [] => .ok []
  | (ell, i) :: rest =>
    match xiToPk .trapz ell n (arr w.s) (fun a => (rows.getD a []).getD i 0) kout 0 with
    | none => .error .bessel
    | some x =>
      match outRow w rows kout rest with
      | .error e => .error e
      | .ok xs => .ok (x :: xs)

/-- the rows of the result -/
def outRows (w : Win n) (rows : List (List ℝ)) (k : ℕ → ℝ) (ells : List ℕ) : List ℕ → Except CErr (List (List ℝ))
  | [] => .ok []
  | j :: rest =>
    match outRow w rows (k j) ells.zipIdx with
    | .error e => .error e
    | .ok r =>
      match outRows w rows k ells rest with
      | .error e => .error e
      | .ok rs => .ok (r :: rs)

/-- `convolve_multipoles(k, Pell, ells, convolver, dry_run=dry)` (`window.py:256-302`): the wavenumbers and the table, row by row -/
def convolveMultipoles (cs : (m : ℕ) → (ℕ → ℝ) → (ℕ → ℝ) → ℝ → ℝ) (Nk cols : ℕ) (k : ℕ → ℝ) (P : ℕ → ℕ → ℝ) (ells : List ℕ) (w : Win n) (spl : (Fin n → ℝ) → ℝ → ℝ) (dry : Bool) :
    Except CErr (List ℝ × List (List ℝ)) :=
  if ells.length ≠ cols then .error .columns
  else if ¬ ∀ ell ∈ ells, ell ∈ [0, 2, 4, 6] then .error .order
  else if Nk = 0 ∨ (ells ≠ [] ∧ Nk < 4) then .error .few
  else
    match convRows (fun a => convRow cs Nk k P ells w spl dry (w.s a)) (List.finRange n) with
    | .error e => .error e
    | .ok rows =>
      match outRows w rows k ells (List.range Nk) with
      | .error e => .error e
      | .ok table => .ok ((List.range Nk).map k, table)

end

end Verif.ConvPoles
