/-
Model of the adaptive one-dimensional quadrature of the C++ library: `Integrate`, `Integrate<Sub>`, `GKWorkspace` and the part of `WorkspaceManager` that hands out workspaces
(`pyRSD/_gcl/include/Quadrature.h`, `pyRSD/_gcl/include/Quadrature.inl:1-242`, `pyRSD/_gcl/cpp/Quadrature.cpp`).  It is what `sigma`, `VelocityDispersion`, `X_Zel`, `Y_Zel`, `Q3`, the normalisation
of the linear power spectrum and the direct correlation function are computed with.

Simplifications.  Real arithmetic (so the running sums and the re-summed results agree exactly); the integrand is a total real function.  The arrays are memories of `limit` cells in which a cell
that was never written reads as `none`; a read of such a cell and a write outside of the `limit` cells make the program `none` (undefined behaviour in C++).
-/
import Mathlib.Analysis.SpecialFunctions.Pow.Real
import Mathlib.Analysis.SpecialFunctions.Log.Basic
import Mathlib.Logic.Function.Basic

namespace Verif.GK

noncomputable section

/-- `DBL_EPSILON` -/
def dblEps : ℝ := 2⁻¹ ^ 52

/-- `DBL_MIN` -/
def dblMin : ℝ := 2⁻¹ ^ 1022

/-- `GK_LIMIT` (`Quadrature.inl:8`) -/
def gkLimit : ℕ := 8192

/-- `wg15` (`Quadrature.cpp:142-147`) -/
def wg15 : ℕ → ℝ
  | 0 => 0.1294849661688697
  | 1 => 0.2797053914892767
  | 2 => 0.3818300505051189
  | _ => 0.4179591836734694

/-- `wgk15` (`Quadrature.cpp:148-157`) -/
def wgk15 : ℕ → ℝ
  | 0 => 0.02293532201052922
  | 1 => 0.06309209262997855
  | 2 => 0.1047900103222502
  | 3 => 0.1406532597155259
  | 4 => 0.1690047266392679
  | 5 => 0.1903505780647854
  | 6 => 0.2044329400752989
  | _ => 0.2094821410847278

/-- `xgk15` (`Quadrature.cpp:158-167`) -/
def xgk15 : ℕ → ℝ
  | 0 => 0.9914553711208126
  | 1 => 0.9491079123427585
  | 2 => 0.8648644233597691
  | 3 => 0.7415311855993944
  | 4 => 0.5860872354676911
  | 5 => 0.4058451513773972
  | 6 => 0.2077849550078985
  | _ => 0

/-- `GaussKronrod` with `n = 8` (`Quadrature.cpp:170-223`): the value and the error estimate.  (The loops over `j < (n-1)/2` and `j < n/2` are the sums over `range 3` and `range 4`; `resabs` and
`resasc` are not used by the caller.) -/
def gaussKronrod (fc : ℝ) (fv1 fv2 : ℕ → ℝ) (half : ℝ) : ℝ × ℝ :=
  let gauss := fc * wg15 3 + ∑ j ∈ Finset.range 3, wg15 j * (fv1 (2 * j + 1) + fv2 (2 * j + 1))
  let kronrod := fc * wgk15 7 + ∑ j ∈ Finset.range 3, wgk15 (2 * j + 1) * (fv1 (2 * j + 1) + fv2 (2 * j + 1)) + ∑ j ∈ Finset.range 4, wgk15 (2 * j) * (fv1 (2 * j) + fv2 (2 * j))
  let abs := |fc * wgk15 7| + ∑ j ∈ Finset.range 3, wgk15 (2 * j + 1) * (|fv1 (2 * j + 1)| + |fv2 (2 * j + 1)|) + ∑ j ∈ Finset.range 4, wgk15 (2 * j) * (|fv1 (2 * j)| + |fv2 (2 * j)|)
  let mean := 0.5 * kronrod
  let asc := wgk15 7 * |fc - mean| + ∑ j ∈ Finset.range 7, wgk15 j * (|fv1 j - mean| + |fv2 j - mean|)
  let err := |kronrod - gauss| * half
  let resabs := abs * |half|
  let resasc := asc * |half|
  let err := if resasc ≠ 0 ∧ err ≠ 0 then (if (200 * err / resasc) ^ (1.5 : ℝ) < 1 then resasc * (200 * err / resasc) ^ (1.5 : ℝ) else resasc) else err
  let err := if resabs > dblMin / (50 * dblEps) then max err (50 * dblEps * resabs) else err
  (kronrod * half, err)

/-- `GaussKronrod15` (`Quadrature.inl:58-79`) -/
def gk15 (f : ℝ → ℝ) (a b : ℝ) : ℝ × ℝ :=
  let c := 0.5 * (a + b)
  let half := 0.5 * (b - a)
  gaussKronrod (f c) (fun j => f (c - half * xgk15 j)) (fun j => f (c + half * xgk15 j)) half

/-- An array of `malloc`ed cells: `none` where nothing was written -/
abbrev Mem (α : Type) := ℕ → Option α

/-- Write into an array of `limit` cells; outside of it the behaviour is undefined -/
def wr {α : Type} (limit : ℕ) (m : Mem α) (i : ℕ) (v : α) : Option (Mem α) :=
  if i < limit then some (Function.update m i (some v)) else none

/-- `GKWorkspace` (`Quadrature.inl:15-23`) -/
structure WS where
  limit : ℕ
  size : ℕ
  alist : Mem ℝ
  blist : Mem ℝ
  rlist : Mem ℝ
  elist : Mem ℝ
  order : Mem ℕ

/-- One subinterval with its result and its error estimate -/
structure Iv where
  a : ℝ
  b : ℝ
  r : ℝ
  e : ℝ

/-- `GetMaxInterval` (`Quadrature.cpp:35-41`) -/
def WS.maxInterval (w : WS) : Option Iv :=
  (w.order 0).bind fun i => (w.alist i).bind fun a => (w.blist i).bind fun b => (w.rlist i).bind fun r => (w.elist i).bind fun e => some ⟨a, b, r, e⟩

/-- The loop of `Sort` that inserts the largest error top-down (`Quadrature.cpp:97-101`): the value of `j` and the array at its end.  (`fuel` is at least `top - j`, so it never runs out.) -/
def sortDown (limit : ℕ) (elist : Mem ℝ) (errmax : ℝ) (top : ℕ) : ℕ → ℕ → Mem ℕ → Option (ℕ × Mem ℕ)
  | 0, j, o => some (j, o)
  | fuel + 1, j, o =>
    if j < top then
      (o j).bind fun oj => (elist oj).bind fun e =>
        if errmax < e then (wr limit o (j - 1) oj).bind fun o' => sortDown limit elist errmax top fuel (j + 1) o'
        else some (j, o)
    else some (j, o)

/-- The loop of `Sort` that inserts the smallest error bottom-up (`Quadrature.cpp:106-110`), with `K = k + 1`: the value of `K` and the array at its end.  (`fuel` is at least `K`.) -/
def sortUp (limit : ℕ) (elist : Mem ℝ) (errmin : ℝ) (j : ℕ) : ℕ → ℕ → Mem ℕ → Option (ℕ × Mem ℕ)
  | 0, K, o => some (K, o)
  | fuel + 1, K, o =>
    if j - 1 < K then
      (o (K - 1)).bind fun ok => (elist ok).bind fun e =>
        if e ≤ errmin then (wr limit o K ok).bind fun o' => sortUp limit elist errmin j fuel (K - 1) o'
        else some (K, o)
    else some (K, o)

/-- `Sort` (`Quadrature.cpp:79-112`) -/
def WS.sort (w : WS) : Option WS :=
  let last := w.size - 1
  if last < 2 then
    (wr w.limit w.order 0 0).bind fun o => (wr w.limit o 1 1).bind fun o => some { w with order := o }
  else
    (w.order 0).bind fun imax => (w.elist imax).bind fun errmax =>
      let top := if last < w.limit / 2 + 2 then last else w.limit - last + 1
      (sortDown w.limit w.elist errmax top top 1 w.order).bind fun (j, o) =>
        (wr w.limit o (j - 1) imax).bind fun o =>
          (w.elist last).bind fun errmin =>
            (sortUp w.limit w.elist errmin j top top o).bind fun (K, o) =>
              (wr w.limit o K last).bind fun o => some { w with order := o }

/-- `Update` (`Quadrature.cpp:43-77`) -/
def WS.update (w : WS) (a1 b1 area1 error1 a2 b2 area2 error2 : ℝ) : Option WS :=
  (w.order 0).bind fun imax =>
    let inew := w.size
    if error2 > error1 then
      (wr w.limit w.alist imax a2).bind fun al => (wr w.limit w.rlist imax area2).bind fun rl => (wr w.limit w.elist imax error2).bind fun el =>
        (wr w.limit al inew a1).bind fun al => (wr w.limit w.blist inew b1).bind fun bl => (wr w.limit rl inew area1).bind fun rl => (wr w.limit el inew error1).bind fun el =>
          WS.sort { w with alist := al, blist := bl, rlist := rl, elist := el, size := w.size + 1 }
    else
      (wr w.limit w.blist imax b1).bind fun bl => (wr w.limit w.rlist imax area1).bind fun rl => (wr w.limit w.elist imax error1).bind fun el =>
        (wr w.limit w.alist inew a2).bind fun al => (wr w.limit bl inew b2).bind fun bl => (wr w.limit rl inew area2).bind fun rl => (wr w.limit el inew error2).bind fun el =>
          WS.sort { w with alist := al, blist := bl, rlist := rl, elist := el, size := w.size + 1 }

/-- `SumResults` (`Quadrature.cpp:114-120`), the sum of one of the arrays over `i < size` -/
def sumMem (m : Mem ℝ) : ℕ → Option ℝ
  | 0 => some 0
  | n + 1 => (sumMem m n).bind fun s => (m n).bind fun x => some (s + x)

/-- What `Integrate` returns and does: the value, what it writes through the pointers `pabserr` and `pneval` (`none`: nothing) and the message it prints (`ReportError`; `none`: nothing) -/
structure Out where
  value : ℝ
  abserr : Option ℝ
  neval : Option ℕ
  warned : Option ℕ

/-- The local variables that the loop of `Integrate` carries -/
structure Loop where
  ws : WS
  area : ℝ
  errsum : ℝ
  iteration : ℕ
  neval : ℕ
  code : ℕ
  tolerance : ℝ

/-- The body of the loop of `Integrate` (`Quadrature.inl:126-160`), for the rule `gk` -/
def body (gk : ℝ → ℝ → ℝ × ℝ) (epsrel epsabs : ℝ) (s : Loop) : Option Loop :=
  s.ws.maxInterval.bind fun I =>
    let a1 := I.a
    let b1 := 0.5 * (I.a + I.b)
    let a2 := b1
    let b2 := I.b
    let p1 := gk a1 b1
    let p2 := gk a2 b2
    let errsum := s.errsum + (p1.2 + p2.2 - I.e)
    let area := s.area + (p1.1 + p2.1 - I.r)
    let tolerance := max epsabs (epsrel * |area|)
    let tmp := (1 + 100 * dblEps) * (|a2| + 1000 * dblMin)
    let code := if errsum > tolerance then
        (let code := if |a1| ≤ tmp ∧ |b2| ≤ tmp then 3 else s.code
         if s.iteration = s.ws.limit then 4 else code)
      else s.code
    (s.ws.update a1 b1 p1.1 p1.2 a2 b2 p2.1 p2.2).bind fun ws =>
      some ⟨ws, area, errsum, s.iteration + 1, s.neval + 30, code, tolerance⟩

/-- The loop `do ... while(iteration < limit && error_code == 0 && errsum > tolerance)` (`Quadrature.inl:125-161`).  (`fuel` is `limit`, so it never runs out.) -/
def doWhile (gk : ℝ → ℝ → ℝ × ℝ) (epsrel epsabs : ℝ) : ℕ → Loop → Option Loop
  | 0, s => body gk epsrel epsabs s
  | fuel + 1, s => (body gk epsrel epsabs s).bind fun s' =>
      if s'.iteration < s'.ws.limit ∧ s'.code = 0 ∧ s'.errsum > s'.tolerance then doWhile gk epsrel epsabs fuel s' else some s'

/-- `GKWorkspace::Integrate` (`Quadrature.inl:82-174`) in a workspace whose arrays hold anything.  `ReportError(0)` prints nothing (`Quadrature.cpp:123-125`). -/
def WS.integrate (w : WS) (gk : ℝ → ℝ → ℝ × ℝ) (a b epsrel epsabs : ℝ) : Option (Out × WS) :=
  if epsabs ≤ 0 ∧ (epsrel < 50 * dblEps ∨ epsrel < 0.5e-28) then some (⟨0, none, none, some 1⟩, w)
  else
    let sign : ℝ := if a > b then -1 else 1
    let a' := if a > b then b else a
    let b' := if a > b then a else b
    let p := gk a' b'
    (wr w.limit w.alist 0 a').bind fun al => (wr w.limit w.blist 0 b').bind fun bl => (wr w.limit w.rlist 0 p.1).bind fun rl => (wr w.limit w.elist 0 p.2).bind fun el =>
      (wr w.limit w.order 0 0).bind fun o =>
        (doWhile gk epsrel epsabs w.limit ⟨⟨w.limit, 1, al, bl, rl, el, o⟩, p.1, p.2, 1, 15, 0, 0⟩).bind fun s =>
          (sumMem s.ws.rlist s.ws.size).bind fun result => (sumMem s.ws.elist s.ws.size).bind fun abserr =>
            some (⟨sign * result, some abserr, some s.neval, if abserr > s.tolerance then (if s.code = 0 then none else some s.code) else none⟩, s.ws)

/-- A fresh `GKWorkspace` (`Quadrature.cpp:17-25`): nothing is written -/
def WS.new (limit : ℕ) : WS := ⟨limit, 0, fun _ => none, fun _ => none, fun _ => none, fun _ => none, fun _ => none⟩

/-- `Integrate(f, a, b, epsrel, epsabs, &abserr, &neval)` (`Quadrature.inl:226-232`) with the workspace that it is given -/
def integrate (w : WS) (f : ℝ → ℝ) (a b epsrel epsabs : ℝ) : Option (Out × WS) := w.integrate (gk15 f) a b epsrel epsabs

/-- A substitution (`Quadrature.h:47-63`) -/
structure Sub where
  x : ℝ → ℝ
  u : ℝ → ℝ
  dxdu : ℝ → ℝ

/-- `NoSub` (`Quadrature.h:47-51`) -/
def noSub : Sub := ⟨fun u => u, fun x => x, fun _ => 1⟩

/-- `ExpSub` (`Quadrature.h:53-57`) -/
def expSub : Sub := ⟨Real.exp, Real.log, Real.exp⟩

/-- `InverseSub` (`Quadrature.h:59-63`) -/
def inverseSub : Sub := ⟨fun u => 1 / u, fun x => 1 / x, fun u => -1 / (u * u)⟩

/-- `SubFunc` (`Quadrature.inl:237-243`) -/
def subFunc (s : Sub) (f : ℝ → ℝ) (u : ℝ) : ℝ := f (s.x u) * s.dxdu u

/-- `Integrate<Sub>` (`Quadrature.inl:245-252`) -/
def integrateSub (s : Sub) (w : WS) (f : ℝ → ℝ) (a b epsrel epsabs : ℝ) : Option (Out × WS) := integrate w (subFunc s f) (s.u a) (s.u b) epsrel epsabs

end

end Verif.GK
