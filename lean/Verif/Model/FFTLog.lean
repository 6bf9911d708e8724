/-
FFTLog: `pyRSD/extern/mcfit/{mcfit,kernels,cosmology}.py`, and the Fortran of `pyRSD/_gcl/extern/fftlog/fftlog.f` with its callers `FortranFFTLog.cpp` and `CorrelationFunction.cpp:23-54`.

Real and complex numbers in place of doubles; an array is a function `ℕ → ℝ` with its length beside it.  `loggamma` and `cdgamma(z,1)` enter as a function `L` of which the theorems assume only `exp (L z) = Γ(z)` for `Re z > 0`.
-/
import Mathlib.Analysis.SpecialFunctions.Complex.Arg
import Mathlib.Analysis.SpecialFunctions.Log.Base
import Mathlib.Analysis.SpecialFunctions.Pow.Real
import Mathlib.Data.Nat.Log
import Mathlib.Algebra.Order.Round
import Verif.Model.Spline

namespace Verif.FFTLog

open Complex

noncomputable section

/-- `numpy.fft.rfft(f)` for `f` of length `N` (used at `mcfit.py:185`); also `drfftf`, whose packed output is read as complex numbers (`fftlog.f:688-692`) -/
def rfft (N : ℕ) (f : ℕ → ℝ) (m : ℕ) : ℂ := ∑ j ∈ Finset.range N, (f j:ℂ)*cexp (-(2*Real.pi*I*m*j/N))

/-- how often a frequency occurs in the full spectrum -/
def mult (N m : ℕ) : ℝ := if m = 0 ∨ 2*m = N then 1 else 2

/-- `numpy.fft.hfft(a, N)` (used at `mcfit.py:187`): the real spectrum of a signal with Hermitian symmetry, of which `a` is one half; the imaginary parts of `a[0]` and of `a[N/2]` are ignored -/
def hfft (N : ℕ) (a : ℕ → ℂ) (n : ℕ) : ℝ := ∑ m ∈ Finset.range (N/2+1), mult N m*(a m*cexp (-(2*Real.pi*I*m*n/N))).re

/-! ### mcfit -/

/-- `Mellin_SphericalBesselJ(nu)` (`kernels.py:14-17`) -/
def UKsph (L : ℂ → ℂ) (nu : ℕ) (z : ℂ) : ℂ := cexp (Real.log 2*(z - 3/2) + L (1/2*(nu + z)) - L (1/2*(3 + nu - z)))

/-- `Delta` of `mcfit._setup` (`mcfit.py:111`) -/
def delta (Nx : ℕ) (x : ℕ → ℝ) : ℝ := Real.log (x (Nx-1)/x 0)/((Nx:ℝ) - 1)

/-- the default length of the transform (`mcfit.py:116-117`) -/
def defaultN (Nx : ℕ) : ℕ := 2^(Nat.clog 2 Nx + 1)

/-- the checks of `mcfit._setup` (`mcfit.py:109-121`): `numpy.allclose` has the absolute tolerance `1e-8` -/
def setupOk (Nx N : ℕ) (x : ℕ → ℝ) : Prop :=
  2 ≤ Nx ∧ (∀ j, j + 1 < Nx → |x (j+1)/x j - Real.exp (delta Nx x)| ≤ 1/10^8 + 1/10^3*|Real.exp (delta Nx x)|) ∧ Nx ≤ N

/-- `lnxy` of `mcfit._setup` (`mcfit.py:123-125`) -/
def lnxy (UK : ℂ → ℂ) (q : ℝ) (lowring : Bool) (N : ℕ) (Δ : ℝ) : ℝ :=
  if lowring = true ∧ N % 2 = 0 then Δ/Real.pi*(UK (q + I*Real.pi/Δ)).arg else 0

/-- `self.y` of `mcfit._setup` (`mcfit.py:126`) -/
def outputY (UK : ℂ → ℂ) (q : ℝ) (lowring : Bool) (N Nx : ℕ) (x : ℕ → ℝ) (n : ℕ) : ℝ :=
  Real.exp (lnxy UK q lowring N (delta Nx x) - delta Nx x)/x (Nx-1-n)

/-- `self._u` of `mcfit._setup` (`mcfit.py:128-130`) -/
def coeffs (UK : ℂ → ℂ) (q : ℝ) (lowring : Bool) (N : ℕ) (Δ : ℝ) (m : ℕ) : ℂ :=
  UK (q + 2*I*Real.pi/N/Δ*m)*cexp (-(2*I*Real.pi*lnxy UK q lowring N Δ/N/Δ*m))

/-- the padding of `mcfit.__call__` (`mcfit.py:170-182`): `Npad//2` elements on the left and the others on the right, power laws or zeros -/
def pad (N Nx : ℕ) (left right : Bool) (f : ℕ → ℝ) (j : ℕ) : ℝ :=
  let l := (N-Nx)/2
  if j < l then (if left then f 0*(f 1/f 0)^((j:ℤ) - l) else 0)
  else if j < l + Nx then f (j-l)
  else if right then f (Nx-1)*(f (Nx-1)/f (Nx-2))^(j - (l+Nx) + 1) else 0

/-- the second element of the result of `mcfit.__call__` (`mcfit.py:161-194`); the first is `outputY`.  `prefac` and `postfac` are arrays or constants in the code. -/
def call (UK : ℂ → ℂ) (q : ℝ) (lowring : Bool) (N Nx : ℕ) (x prefac postfac : ℕ → ℝ) (left right : Bool) (F : ℕ → ℝ) (n : ℕ) : ℝ :=
  let f := pad N Nx left right fun j => prefac j*x j^(-q)*F j
  let g := fun i => hfft N (fun m => rfft N f m*coeffs UK q lowring N (delta Nx x) m) i/N
  let Npad := N - Nx
  postfac n*outputY UK q lowring N Nx x n^(-q)*g (Npad - Npad/2 + n)

/-- `numpy.real_if_close(1j**l)` (`cosmology.py:22,34`) for even `l`; for odd `l` the code keeps a complex number, which is not modelled -/
def ipow (l : ℕ) : ℝ := (I^l).re

/-- `P2xi(k, l, q, N, lowring)(P, extrap)`, the correlation function (`cosmology.py:15-22`) -/
def P2xi (L : ℂ → ℂ) (l : ℕ) (q : ℝ) (lowring : Bool) (N Nx : ℕ) (k : ℕ → ℝ) (left right : Bool) (P : ℕ → ℝ) : ℕ → ℝ :=
  call (UKsph L l) q lowring N Nx k (fun j => ipow l/(2*Real.pi)^(3/2:ℝ)*k j^3) (fun _ => 1) left right P

/-- `xi2P(r, l, q, N, lowring)(xi, extrap)`, the power spectrum (`cosmology.py:25-34`) -/
def xi2P (L : ℂ → ℂ) (l : ℕ) (q : ℝ) (lowring : Bool) (N Nx : ℕ) (r : ℕ → ℝ) (left right : Bool) (xi : ℕ → ℝ) : ℕ → ℝ :=
  call (UKsph L l) q lowring N Nx r (fun j => r j^3) (fun _ => (2*Real.pi)^(3/2:ℝ)/ipow l) left right xi

/-! ### the Fortran FFTLog -/

/-- `krgood` (`fftlog.f:787-834`); `anint` is rounding to the nearest integer -/
def krgood (L : ℂ → ℂ) (mu q dlnr kr : ℝ) : ℝ :=
  if dlnr = 0 then kr
  else
    let xp := (mu + 1 + q)/2
    let xm := (mu + 1 - q)/2
    let y := Real.pi/(2*dlnr)
    let arg := Real.log (2/kr)/dlnr + ((L (xp + y*I)).im + (L (xm + y*I)).im)/Real.pi
    if arg ≠ round arg then kr*Real.exp ((arg - round arg)*dlnr) else kr

/-- the factors `fhti` leaves in `wsave` for a given `kr` (`fftlog.f:357-460`), read as complex numbers, that of `m = 0` included (1 when `q = 0`).
The branches for `(mu+1±q)/2` a negative integer or zero are not modelled. -/
def factors (L : ℂ → ℂ) (n : ℕ) (mu q dlnr kr : ℝ) (m : ℕ) : ℂ :=
  let ln2kr := Real.log (2/kr)
  let y := m*(Real.pi/(n*dlnr))
  let xp := (mu + 1 + q)/2
  let xm := (mu + 1 - q)/2
  if q = 0 then
    if m = 0 then 1
    else
      let arg := 2*(ln2kr*y + (L (xp + y*I)).im)
      Real.cos arg + Real.sin arg*I
  else
    let amp := Real.exp (Real.log 2*q + (L (xp + y*I)).re - (L (xm + y*I)).re)
    if m = 0 then amp*Real.cos ((L (xp + y*I)).im + (L (xm + y*I)).im)
    else
      let arg := 2*ln2kr*y + (L (xp + y*I)).im + (L (xm + y*I)).im
      amp*(Real.cos arg + Real.sin arg*I)

/-- `drfftb` on the packed half spectrum `c` (`fftlog.f:769`) -/
def drfftb (n : ℕ) (c : ℕ → ℂ) (j : ℕ) : ℝ := ∑ m ∈ Finset.range (n/2+1), mult n m*(c m*cexp (2*Real.pi*I*m*j/n)).re

/-- `fhtq` with `dir = 1` (`fftlog.f:644-784`): the factor of the highest frequency counts with its real part -/
def fhtq (n : ℕ) (w : ℕ → ℂ) (a : ℕ → ℝ) (i : ℕ) : ℝ :=
  drfftb n (fun m => rfft n a m*(if 2*m = n then ((w m).re:ℂ) else w m)) (n-1-i)/n

/-- `fht` with `dir = 1` (`fftlog.f:565-641`); index `i` is `j-1` -/
def fht (n : ℕ) (w : ℕ → ℂ) (q dlnr kr : ℝ) (a : ℕ → ℝ) (i : ℕ) : ℝ :=
  let jc := ((n:ℝ)+1)/2
  if q = 0 then fhtq n w a i
  else fhtq n w (fun j => a j*Real.exp (-q*((j+1) - jc)*dlnr)) i*Real.exp (-q*(((i+1) - jc)*dlnr + Real.log kr))

/-- `log10` -/
def log10 (x : ℝ) : ℝ := Real.logb 10 x

/-- `dlogr` and `logrc` of `ComputeXiLM_fftlog` (`CorrelationFunction.cpp:30-34`) -/
def dlogr (N : ℕ) (k : ℕ → ℝ) : ℝ := (log10 (k (N-1)) - log10 (k 0))/((N:ℝ)-1)
@[inherit_doc dlogr] def logrc (N : ℕ) (k : ℕ → ℝ) : ℝ := 1/2*(log10 (k 0) + log10 (k (N-1)))

/-- the `kr` of the transform (`CorrelationFunction.cpp:36,46`, `fftlog.f:303-305`) -/
def xiKr (L : ℂ → ℂ) (l N : ℕ) (q : ℝ) (k : ℕ → ℝ) : ℝ := krgood L (l + 1/2) q (dlogr N k*Real.log 10) 1

/-- `r[i]` of `ComputeXiLM_fftlog` (`CorrelationFunction.cpp:46-50`) -/
def xiR (L : ℂ → ℂ) (l N : ℕ) (q : ℝ) (k : ℕ → ℝ) (i : ℕ) : ℝ :=
  (10:ℝ)^(log10 (xiKr L l N q k) - logrc N k + ((i+1) - 1/2*((N:ℝ)+1))*dlogr N k)

/-- `xi[i]` of `ComputeXiLM_fftlog` (`CorrelationFunction.cpp:23-54`) -/
def xiFFTLog (L : ℂ → ℂ) (l m N : ℕ) (q smoothing : ℝ) (k pk : ℕ → ℝ) (i : ℕ) : ℝ :=
  let dlnr := dlogr N k*Real.log 10
  let kr := xiKr L l N q k
  (2*Real.pi*xiR L l N q k i)^(-(3/2):ℝ)
    * fht N (factors L N (l + 1/2) q dlnr kr) q dlnr kr (fun j => k j^((m:ℝ) - 1/2)*pk j*Real.exp (-(k j*smoothing)^2)) i

/-- the smallest and the largest of an array (`parray.cpp:194-212`) -/
def amin (N : ℕ) (k : ℕ → ℝ) : ℝ := (List.range N).foldl (fun a i => min a (k i)) (k 0)
@[inherit_doc amin] def amax (N : ℕ) (k : ℕ → ℝ) : ℝ := (List.range N).foldl (fun a i => max a (k i)) (k 0)

/-- the log-spaced wavenumbers of the FFTLog branch of `ComputeXiLM` (`CorrelationFunction.cpp:66-74`) -/
def regrid (N : ℕ) (k : ℕ → ℝ) (i : ℕ) : ℝ :=
  let logkmin := log10 (amin N k)
  let logkmax := log10 (amax N k)
  (10:ℝ)^(1/2*(logkmin + logkmax) + ((i+1) - 1/2*((N:ℝ)+1))*((logkmax - logkmin)/((N:ℝ)-1)))

/-- the FFTLog branch of `ComputeXiLM` (`CorrelationFunction.cpp:60-86`) at one separation; `s`, `t` are what is in the memory the two splines get, `none` is an assertion that fails in one of them -/
def xiLM (L : ℂ → ℂ) (l m N : ℕ) (smoothing : ℝ) (k pk : ℕ → ℝ) (s t : Spline.Arr) (r : ℝ) : Option ℝ :=
  let p := fun i => Spline.evaluate (Spline.cubic N k pk s) (regrid N k i)
  if (List.range N).all fun i => (p i).isSome then
    Spline.evaluate (Spline.cubic N (xiR L l N 0 (regrid N k)) (xiFFTLog L l m N 0 smoothing (regrid N k) fun i => (p i).getD 0) t) r
  else none

end
end Verif.FFTLog
