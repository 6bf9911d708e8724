/-
Model of the discrete quadrature `pyRSD/_gcl/cpp/DiscreteQuad.cpp` and of `MultipoleTransfer` (`pyRSD/rsd/transfers/poles.py`), and of the
theory decorator `pyRSD/rsdfit/theory/decorators.py`.

Arrays of length `N` are functions on `ℕ` read below `N` only (proved for `N ≥ 3`; shorter arrays read out of bounds in C++ and are not modelled).
-/
import Verif.Model.Transfers
import Mathlib.Algebra.BigOperators.Group.Finset.Basic

namespace Verif.Quad

open Verif.Legendre Verif.Transfers

noncomputable section

/-- One element of `result` in `basic_simps` (`DiscreteQuad.cpp:13-22`): nodes `i, i+1, i+2`. -/
def panel (x y : ℕ → ℝ) (i : ℕ) : ℝ :=
  let h0 := x (i + 1) - x i
  let h1 := x (i + 2) - x (i + 1)
  let hsum := h0 + h1
  let hprod := h0 * h1
  let h0divh1 := h0 / h1
  1 / 6 * hsum * (y i * (2 - 1 / h0divh1) + y (i + 1) * hsum * hsum / hprod + y (i + 2) * (2 - h0divh1))

/-- `basic_simps(y, start, stop, x)` (`DiscreteQuad.cpp:3-29`); a slice has `1 + (stop-start-1)/2` elements (`parray.cpp:171-186`). -/
def basicSimps (x y : ℕ → ℝ) (start stop : ℕ) : ℝ :=
  ∑ m ∈ Finset.range (1 + (stop - start - 1) / 2), panel x y (start + 2 * m)

/-- `TrapzIntegrate(x, y)` (`DiscreteQuad.cpp:31-39`) -/
def trapz (N : ℕ) (x y : ℕ → ℝ) : ℝ := ∑ i ∈ Finset.range (N - 1), (x (i + 1) - x i) * (1 / 2) * (y (i + 1) + y i)

/-- `SimpsIntegrate(x, y)` (`DiscreteQuad.cpp:40-66`) for arrays of length `N ≥ 3`; negative indices count from the end
(`parray.h:80`). -/
def simps (N : ℕ) (x y : ℕ → ℝ) : ℝ :=
  if N % 2 = 0 then
    let extra := 1 / 2 * (x (N - 1) - x (N - 2)) * (y (N - 1) + y (N - 2)) + 1 / 2 * (x 1 - x 0) * (y 1 + y 0)
    let toret := basicSimps x y 0 (N - 3) + basicSimps x y 1 (N - 2)
    1 / 2 * toret + 1 / 2 * extra
  else basicSimps x y 0 (N - 2)

/-! ### `MultipoleTransfer` -/

/-- The number of `mu` points (`poles.py:29`). -/
def oddNmu (Nmu : ℕ) : ℕ := if Nmu % 2 = 0 then Nmu + 1 else Nmu

/-- `np.linspace(0., 1., Nmu, endpoint=True)` (`poles.py:33`), `Nmu > 1` -/
def linspace01 (Nmu : ℕ) (j : ℕ) : ℝ := j / ((Nmu : ℝ) - 1)

/-- The grid of `MultipoleTransfer.__init__` (`poles.py:23-36`) -/
def polesGrid {nk : ℕ} (k : Fin nk → ℝ) (Nmu : ℕ) : Grid nk (oddNmu Nmu) :=
  { kcen := k, mucen := fun j => linspace01 (oddNmu Nmu) j, k := fun i _ => k i, mu := fun _ j => linspace01 (oddNmu Nmu) j,
    modes := fun _ _ => some 1 }

/-- `MultipoleTransfer.__call__` (`poles.py:38-69`): row `i`, multipole `ell`, for powers without nan (a nan is read as 0 here; see the
hypotheses of the theorems). -/
def polesCall {nk : ℕ} (k : Fin nk → ℝ) (Nmu : ℕ) (arg : PowerArg nk (oddNmu Nmu)) : Except TErr (Fin nk → ℕ → ℝ) :=
  match setPower (polesGrid k Nmu) arg with
  | .error e => .error e
  | .ok p => .ok (fun i ell =>
      simps (oddNmu Nmu) (linspace01 (oddNmu Nmu)) (fun j =>
        (2 * ell + 1) * leg ell (linspace01 (oddNmu Nmu) j) * (if h : j < oddNmu Nmu then (p (i, ⟨j, h⟩)).getD 0 else 0)))

/-! ### `systematic_free_P0` -/

/-- `systematic_free_P0(*poles)` (`decorators.py:3-12`) on arrays of equal length; `none` for the `ValueError`. -/
def systematicFreeP0 : List (List ℝ) → Option (List ℝ)
  | [p0, p2] => some (List.zipWith (fun a b => a + 2 / 5 * b) p0 p2)
  | _ => none

end

end Verif.Quad
