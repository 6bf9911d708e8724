/-
The shipped constraint system of the galaxy model: `pyRSD/rsdfit/theory/gal_defaults.py`.
-/
import Verif.Model.Params

namespace Verif.Params

/-- The parameters of `DefaultGalaxyPowerTheory` (`gal_defaults.py:62-324`; the two deprecated ones are not parameters,
`theory/base.py:43-58`). -/
inductive Gal where
  | F_AP | N | NcBs | NsBsB | Nsat_mult | alpha | alpha_drag | alpha_par | alpha_perp | b1 | b1_c | b1_cA | b1_cB | b1_s | b1_sA
  | b1_sB | b1sigma8 | epsilon | f | f1h_cBs | f1h_sBsB | f_so | fcB | fs | fsB | fsigma8 | gamma_b1cB | gamma_b1sA
  | gamma_b1sB | nbar | sigma8_z | sigma_c | sigma_sA | sigma_sB | sigma_so
  deriving DecidableEq, Repr

open Gal

/-- Dictionary order: sorted names (`gal_defaults.py:49-52`, `theory/base.py:170`). -/
def galNames : List Gal :=
  [F_AP, N, NcBs, NsBsB, Nsat_mult, alpha, alpha_drag, alpha_par, alpha_perp, b1, b1_c, b1_cA, b1_cB, b1_s, b1_sA,
   b1_sB, b1sigma8, epsilon, f, f1h_cBs, f1h_sBsB, f_so, fcB, fs, fsB, fsigma8, gamma_b1cB, gamma_b1sA,
   gamma_b1sB, nbar, sigma8_z, sigma_c, sigma_sA, sigma_sB, sigma_so]

/-- `valid_model_params` (`gal_defaults.py:31-33`, `model_param=True`). -/
def galModelParams : List Gal :=
  [N, NcBs, NsBsB, alpha_drag, alpha_par, alpha_perp, b1_cA, b1_cB, b1_sA, b1_sB, f, f_so, fcB, fs, fsB, sigma8_z, sigma_c,
   sigma_sA, sigma_sB, sigma_so]

/-- The constraint expressions (`gal_defaults.py:104-324`).  `cbrt` stands for `x**(1./3)`.
Simplification: rational arithmetic; division by zero gives 0 instead of raising. -/
def galExpr (cbrt : Rat → Rat) : Gal → Option (Expr Gal Rat)
  | b1_cB => some ⟨[fsB, Nsat_mult, b1_sA, b1_sB], fun
      | [x_fsB, nm, sA, sB] => (1 - x_fsB) / (1 + x_fsB * (1 / nm - 1)) * sA + (1 - (1 - x_fsB) / (1 + x_fsB * (1 / nm - 1))) * sB
      | _ => 0⟩                                                                     -- line 109
  | b1_sA => some ⟨[gamma_b1sA, b1_cA], fun | [g, b] => g * b | _ => 0⟩           -- line 117
  | b1_sB => some ⟨[gamma_b1sB, b1_cA], fun | [g, b] => g * b | _ => 0⟩           -- line 124
  | fcB => some ⟨[fs, fsB, Nsat_mult], fun
      | [x_fs, x_fsB, nm] => x_fs / (1 - x_fs) * (1 + x_fsB * (1 / nm - 1))
      | _ => 0⟩                                                                     -- line 138
  | NcBs => some ⟨[f1h_cBs, fcB, fs, nbar], fun
      | [a, x_fcB, x_fs, x_nbar] => a / (x_fcB * (1 - x_fs) * x_nbar)
      | _ => 0⟩                                                                     -- line 182
  | NsBsB => some ⟨[f1h_sBsB, fsB, fs, nbar, fcB], fun
      | [a, x_fsB, x_fs, x_nbar, x_fcB] => a / (x_fsB ^ 2 * x_fs ^ 2 * x_nbar) * (x_fcB * (1 - x_fs) - x_fs * (1 - x_fsB))
      | _ => 0⟩                                                                     -- line 190
  | b1_c => some ⟨[fcB, b1_cA, b1_cB], fun | [x_fcB, cA, cB] => (1 - x_fcB) * cA + x_fcB * cB | _ => 0⟩  -- line 275
  | b1_s => some ⟨[fsB, b1_sA, b1_sB], fun | [x_fsB, sA, sB] => (1 - x_fsB) * sA + x_fsB * sB | _ => 0⟩  -- line 282
  | b1 => some ⟨[fs, b1_c, b1_s], fun | [x_fs, c, s] => (1 - x_fs) * c + x_fs * s | _ => 0⟩              -- line 289
  | fsigma8 => some ⟨[f, sigma8_z], fun | [x_f, s] => x_f * s | _ => 0⟩                                -- line 296
  | b1sigma8 => some ⟨[b1, sigma8_z], fun | [b, s] => b * s | _ => 0⟩                              -- line 303
  | F_AP => some ⟨[alpha_par, alpha_perp], fun | [a, b] => a / b | _ => 0⟩                         -- line 310
  | alpha => some ⟨[alpha_perp, alpha_par], fun | [p, q] => cbrt (p ^ 2 * q) | _ => 0⟩             -- line 317
  | epsilon => some ⟨[alpha_perp, alpha_par], fun | [p, q] => cbrt (q / p) - 1 | _ => 0⟩           -- line 324
  | _ => none

/-- `vary` and `min`/`max` may be changed by a parameter file, so they are arbitrary. -/
def galSys (cbrt : Rat → Rat) (vary : Gal → Bool) (clamp : Gal → Rat → Rat) : Sys Gal Rat :=
  { names := galNames, expr := galExpr cbrt, vary := vary, clamp := clamp }

end Verif.Params
