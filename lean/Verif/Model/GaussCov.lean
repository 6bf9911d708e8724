/-
Model of `PoleCovarianceMatrix.periodic_gaussian_covariance` and `PoleCovarianceMatrix.cutsky_gaussian_covariance` (`pyRSD/rsdfit/data/covariance_matrix.py:1157-1395`).

Floats are exact reals, infinities or `nan` (`Verif.Priors.Flt`); zeros are positive.  The spectrum is a function of wavenumber and angle; `model.power(k, mus)` follows the
rule of `broadcast_kmu` for two arrays (`pyRSD/rsd/tools.py:244-260`): a grid, or point by point if they have the same length.  It is an array of numbers (an `xarray`
object is converted to one in line 1330; in the function for boxes this is not done and not modelled).  There are at least two wavenumbers and `Nmu` is at least 1;
otherwise axes of length one are squeezed away, which is not modelled.  Multipoles are a list.
-/
import Verif.Model.Prior
import Verif.Props.Legendre

namespace Verif.GaussCov

open Verif.Priors Verif.Priors.Flt Verif.Legendre

noncomputable section

/-- infinity with the sign of `a`; `nan` for 0 -/
def infinity (a : ℝ) : Flt := if 0 < a then pinf else if a < 0 then ninf else nan

/-- IEEE multiplication -/
def mul : Flt → Flt → Flt
  | nan, _ => nan
  | _, nan => nan
  | fin a, fin b => fin (a * b)
  | fin a, pinf => infinity a
  | fin a, ninf => infinity (-a)
  | pinf, fin b => infinity b
  | ninf, fin b => infinity (-b)
  | pinf, pinf => pinf
  | ninf, ninf => pinf
  | pinf, ninf => ninf
  | ninf, pinf => ninf

/-- numpy division -/
def div : Flt → Flt → Flt
  | nan, _ => nan
  | _, nan => nan
  | fin a, fin b => if b = 0 then infinity a else fin (a / b)
  | fin _, pinf => fin 0
  | fin _, ninf => fin 0
  | pinf, fin b => if b < 0 then ninf else pinf
  | ninf, fin b => if b < 0 then pinf else ninf
  | _, _ => nan

/-- `.sum()` -/
def total (l : List Flt) : Flt := l.foldl add (fin 0)

/-- `x**2` -/
def sq (x : Flt) : Flt := mul x x

/-- `np.isnan` -/
def isNan : Flt → Bool
  | nan => true
  | _ => false

/-- `np.nanmean`: `nan` if there is nothing but `nan` -/
def nanmean (l : List Flt) : Flt :=
  let v := l.filter fun x => !isNan x
  if v.isEmpty then nan else div (total v) (fin v.length)

/-- `np.nan_to_num`; `big` is the largest float -/
def nanToNum (big : ℝ) : Flt → ℝ
  | nan => 0
  | pinf => big
  | ninf => -big
  | fin a => a

/-- `np.linspace(a, b, n + 1)[i]` -/
def linspace (a b : ℝ) (n i : ℕ) : ℝ := a + i * ((b - a) / n)

/-- `np.diff(k).mean()` (`covariance_matrix.py:1216`, `1358`) -/
def meanStep (ks : List ℝ) : ℝ := (List.zipWith (fun b a => b - a) ks.tail ks).sum / (ks.length - 1 : ℕ)

/-- the volume of a shell (`covariance_matrix.py:1217`, `1359`) -/
def shell (ks : List ℝ) (a : ℕ) : ℝ := 4 * Real.pi * ks.getD a 0 ^ 2 * meanStep ks

/-- number of modes (`covariance_matrix.py:1218`, `1360`) -/
def modes (ks : List ℝ) (volume : Flt) (a : ℕ) : Flt := div (mul (fin (shell ks a)) volume) (fin ((2 * Real.pi) ^ 3))

/-- the spectrum at the position `[a, m]` of the arrays with which it is multiplied: `broadcast_kmu` gives a line if both arrays have one length, and the line is then
broadcast along the last axis (`covariance_matrix.py:1209`, `1230`, `1328`, `1371-1372`) -/
def usedPower (P : ℝ → ℝ → ℝ) (ks : List ℝ) (Nmu a m : ℕ) : ℝ :=
  if ks.length = Nmu + 1 then P (ks.getD m 0) (linspace 0 1 Nmu m) else P (ks.getD a 0) (linspace 0 1 Nmu m)

/-- the weight of a multipole (`covariance_matrix.py:1225`, `1367`) -/
def legWeight (ell : ℕ) (mu : ℝ) : ℝ := (2 * ell + 1) * leg ell mu

/-- the product of the weights and the squared power (`covariance_matrix.py:1228-1230`, `1370-1372`), for one density -/
def toBin (P : ℝ → ℝ → ℝ) (ks : List ℝ) (ells : List ℕ) (Nmu : ℕ) (nbar : ℝ) (i j a m : ℕ) : Flt :=
  mul (fin (legWeight (ells.getD i 0) (linspace 0 1 Nmu m) * legWeight (ells.getD j 0) (linspace 0 1 Nmu m)))
    (sq (add (fin (usedPower P ks Nmu a m)) (div (fin 1) (fin nbar))))

/-- the returned matrix with its coordinates -/
structure Cov where
  size : ℕ
  entry : ℕ → ℕ → ℝ
  k : List ℝ
  ell : List ℕ

/-- the end of both functions (`covariance_matrix.py:1232-1251`, `1374-1395`): `x i j a m` is averaged over `m`, put on the diagonals of the blocks `(i, j)` and `(j, i)`
with `i ≤ j`, divided by the number of modes of the column and flattened -/
def assemble (big : ℝ) (ks : List ℝ) (ells : List ℕ) (Nmu : ℕ) (N : ℕ → Flt) (x : ℕ → ℕ → ℕ → ℕ → Flt) : Cov where
  size := ks.length * ells.length
  entry p q :=
    let i := p / ks.length
    let a := p % ks.length
    let j := q / ks.length
    let b := q % ks.length
    let s := if a = b then nanmean ((List.range (Nmu + 1)).map (x (min i j) (max i j) a)) else fin 0
    nanToNum big (div (mul (fin 2) s) (N b))
  k := (List.replicate ells.length ks).flatten
  ell := ells.flatMap fun l => List.replicate ks.length l

/-- `periodic_gaussian_covariance` (`covariance_matrix.py:1157-1251`) -/
def periodic (big : ℝ) (P : ℝ → ℝ → ℝ) (ks : List ℝ) (ells : List ℕ) (nbar volume : ℝ) (Nmu : ℕ) : Cov :=
  assemble big ks ells Nmu (modes ks (fin volume)) (toBin P ks ells Nmu nbar)

/-- a survey: the number density, the sky fraction, the redshift range and the comoving distance (in Mpc/h) -/
structure Survey where
  nbar : ℝ → ℝ
  fsky : ℝ
  zmin : ℝ
  zmax : ℝ
  R : ℝ → ℝ

/-- the volume of a redshift shell (`covariance_matrix.py:1337-1340`, `1350`) -/
def Survey.dV (S : Survey) (Nz s : ℕ) : ℝ := (4 / 3) * Real.pi * (S.R (linspace S.zmin S.zmax Nz (s + 1)) ^ 3 - S.R (linspace S.zmin S.zmax Nz s) ^ 3) * S.fsky

/-- the density in a redshift shell (`covariance_matrix.py:1343-1344`) -/
def Survey.n (S : Survey) (Nz s : ℕ) : ℝ := S.nbar (0.5 * (linspace S.zmin S.zmax Nz s + linspace S.zmin S.zmax Nz (s + 1)))

/-- density times FKP weight (`covariance_matrix.py:1347`) -/
def Survey.nw (S : Survey) (P0 : ℝ) (Nz s : ℕ) : Flt := mul (fin (S.n Nz s)) (div (fin 1) (fin (1 + S.n Nz s * P0)))

/-- `W2` (`covariance_matrix.py:1353`) -/
def Survey.W2 (S : Survey) (P0 : ℝ) (Nz : ℕ) : Flt := total ((List.range Nz).map fun s => mul (sq (S.nw P0 Nz s)) (fin (S.dV Nz s)))

/-- `(nbar_*w)**4 * dV` (`covariance_matrix.py:1354`, `1379`) -/
def Survey.u4 (S : Survey) (P0 : ℝ) (Nz s : ℕ) : Flt := mul (sq (sq (S.nw P0 Nz s))) (fin (S.dV Nz s))

/-- `W4` (`covariance_matrix.py:1354`) -/
def Survey.W4 (S : Survey) (P0 : ℝ) (Nz : ℕ) : Flt := total ((List.range Nz).map (S.u4 P0 Nz))

/-- the effective volume (`covariance_matrix.py:1355`) -/
def Survey.Veff (S : Survey) (P0 : ℝ) (Nz : ℕ) : Flt := div (sq (S.W2 P0 Nz)) (S.W4 P0 Nz)

/-- the sum over redshift (`covariance_matrix.py:1379`) -/
def overShells (P : ℝ → ℝ → ℝ) (ks : List ℝ) (ells : List ℕ) (S : Survey) (P0 : ℝ) (Nmu Nz i j a m : ℕ) : Flt :=
  div (total ((List.range Nz).map fun s => mul (S.u4 P0 Nz s) (toBin P ks ells Nmu (S.n Nz s) i j a m))) (S.W4 P0 Nz)

/-- `cutsky_gaussian_covariance` (`covariance_matrix.py:1254-1395`) -/
def cutsky (big : ℝ) (P : ℝ → ℝ → ℝ) (ks : List ℝ) (ells : List ℕ) (S : Survey) (P0 : ℝ) (Nmu Nz : ℕ) : Cov :=
  assemble big ks ells Nmu (modes ks (S.Veff P0 Nz)) (overShells P ks ells S P0 Nmu Nz)

end

end Verif.GaussCov
