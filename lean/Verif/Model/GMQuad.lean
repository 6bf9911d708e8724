/-
Model of the adaptive n-dimensional quadrature of the C++ library, `Integrate<n>` (`pyRSD/_gcl/include/Quadrature.inl:254-537`), the algorithm of Genz and Malik: what the one-loop integrals `Imn`,
`Jmn`, `Kmn` and `ImnOneLoop` are computed with.

Simplifications.  Real arithmetic; the integrand is a total function of the `n` coordinates.  The storage is a memory of as many regions as the allocated bytes hold; a read of a cell that was never
written and a write outside make the program `none` (undefined behaviour in C++).  The flag `divflg` is unrolled: the loop starts with one application of the rule (`divflg == 1`), and each round
consists of the checks, the application to the first half (`divflg == 0`) and the application to the second half (`divflg == 1`).
-/
import Verif.Model.GKQuad

namespace Verif.GM

open Verif.GK (Mem wr)

noncomputable section

/-- `GM_MINPTS`, `GM_MAXPTS` (`Quadrature.inl:10-11`) -/
def minPts : ℕ := 1000
def maxPts : ℕ := 10000000

/-- `rulcls` (`Quadrature.inl:314`): the number of evaluations of one application of the rule -/
def rulcls (n : ℕ) : ℕ := 2 ^ n + 2 * n * n + 2 * n + 1

/-- `maxrgns` (`Quadrature.inl:325`) -/
def maxRgns (n : ℕ) : ℕ := 1 + (1 + maxPts / rulcls n) / 2

/-- How many `region<n>` (`2n + 2` doubles and one `int`, padded to a multiple of 8 bytes) the `GM_MAXPTS*((2*n+2)*sizeof(double) + sizeof(int))` bytes hold (`Quadrature.cpp:232-234`,
`Quadrature.inl:258-265`) -/
def capacity (n : ℕ) : ℕ := maxPts * ((2 * n + 2) * 8 + 4) / ((2 * n + 2) * 8 + 8)

/-- `lambda2`, `lambda4`, `lambda5`, `ratio` (`Quadrature.inl:334-336, 346`) -/
def lambda2 : ℝ := Real.sqrt (9 / 70)
def lambda4 : ℝ := Real.sqrt (9 / 10)
def lambda5 : ℝ := Real.sqrt (9 / 19)
def ratio : ℝ := (lambda2 / lambda4) ^ 2

/-- `wt1` to `wt5` and `wtp1` to `wtp4` (`Quadrature.inl:337-345`) -/
def wt1 (n : ℕ) : ℝ := (12824 - 9120 * n + 400 * n * n) / 19683
def wt2 : ℝ := 980 / 6561
def wt3 (n : ℕ) : ℝ := (1820 - 400 * n) / 19683
def wt4 : ℝ := 200 / 19683
def wt5 (n : ℕ) : ℝ := 6859 / 19683 / 2 ^ n
def wtp1 (n : ℕ) : ℝ := (729 - 950 * n + 50 * n * n) / 729
def wtp2 : ℝ := 245 / 486
def wtp3 (n : ℕ) : ℝ := (265 - 100 * n) / 1458
def wtp4 : ℝ := 25 / 729

variable {n : ℕ}

/-- The point that differs from the centre by `d` in the coordinate `j` -/
def shift (c : Fin n → ℝ) (j : Fin n) (d : ℝ) : Fin n → ℝ := Function.update c j (c j + d)

/-- `sum2`, `sum3` (`Quadrature.inl:367-388`) with `lambda` one of `lambda2`, `lambda4` -/
def sumAxes (f : (Fin n → ℝ) → ℝ) (c w : Fin n → ℝ) (lambda : ℝ) : ℝ := ∑ j : Fin n, (f (shift c j (-(lambda * w j))) + f (shift c j (lambda * w j)))

/-- `dif`, the fourth difference along an axis (`Quadrature.inl:380-382`) -/
def dif (f : (Fin n → ℝ) → ℝ) (c w : Fin n → ℝ) (j : Fin n) : ℝ :=
  |(f (shift c j (-(lambda2 * w j))) + f (shift c j (lambda2 * w j)) - 2 * f c) - ratio * (f (shift c j (-(lambda4 * w j))) + f (shift c j (lambda4 * w j)) - 2 * f c)|

/-- `divaxn` (`Quadrature.inl:383-386`): the loop over the axes with `difmax` and the axis so far -/
def axisLoop (f : (Fin n → ℝ) → ℝ) (c w : Fin n → ℝ) : List (Fin n) → ℝ → Option (Fin n) → Option (Fin n)
  | [], _, a => a
  | j :: js, m, a => if dif f c w j ≥ m then axisLoop f c w js (dif f c w j) (some j) else axisLoop f c w js m a

/-- `sum4` (`Quadrature.inl:390-406`): for each pair of axes the two signs of `widthl` are gone through for both -/
def sumPairs (f : (Fin n → ℝ) → ℝ) (c w : Fin n → ℝ) (lambda : ℝ) : ℝ :=
  ∑ i : Fin n, ∑ k ∈ Finset.univ.filter fun k : Fin n => i < k,
    (f (shift (shift c i (-(lambda * w i))) k (-(lambda * w k))) + f (shift (shift c i (-(lambda * w i))) k (lambda * w k))
      + (f (shift (shift c i (lambda * w i)) k (-(lambda * w k))) + f (shift (shift c i (lambda * w i)) k (lambda * w k))))

/-- The inner loop of `sum5` (`Quadrature.inl:416-421`): the signs of `widthl` are changed one after the other until one becomes positive; `none` if none does, which ends the outer loop -/
def flip : List ℝ → Option (List ℝ)
  | [] => none
  | x :: xs => if -x > 0 then some (-x :: xs) else (flip xs).map fun ys => -x :: ys

/-- The outer loop of `sum5` (`Quadrature.inl:414-422`), for a function of the list `widthl`.  (`fuel` is the number of combinations of signs.) -/
def cornerLoop (g : List ℝ → ℝ) : ℕ → List ℝ → ℝ
  | 0, _ => 0
  | fuel + 1, wl => g wl + match flip wl with
    | some wl' => cornerLoop g fuel wl'
    | none => 0

/-- `sum5` (`Quadrature.inl:408-422`) -/
def sumCorners (f : (Fin n → ℝ) → ℝ) (c w : Fin n → ℝ) : ℝ :=
  cornerLoop (fun wl => f fun j => c j + wl.getD j 0) (2 ^ n) ((List.finRange n).map fun j => -lambda5 * w j)

/-- The basic rule (`Quadrature.inl:352-429`): the value, the error estimate and the axis to divide.  (The axis is carried over from the previous application if there is none: `n ≥ 1` excludes that.) -/
def rule (f : (Fin n → ℝ) → ℝ) (c w : Fin n → ℝ) : ℝ × ℝ × Option (Fin n) :=
  let rgnvol := 2 ^ n * ∏ j, w j
  let sum1 := f c
  let sum2 := sumAxes f c w lambda2
  let sum3 := sumAxes f c w lambda4
  let sum4 := sumPairs f c w lambda4
  let sum5 := sumCorners f c w
  let rgncmp := rgnvol * (wtp1 n * sum1 + wtp2 * sum2 + wtp3 n * sum3 + wtp4 * sum4)
  let rgnval := rgnvol * (wt1 n * sum1 + wt2 * sum2 + wt3 n * sum3 + wt4 * sum4 + wt5 n * sum5)
  (rgnval, |rgnval - rgncmp|, axisLoop f c w (List.finRange n) 0 none)

/-- `region<n>` (`Quadrature.inl:258-265`) -/
structure Region (n : ℕ) where
  center : Fin n → ℝ
  width : Fin n → ℝ
  val : ℝ
  err : ℝ
  axis : Option (Fin n)

/-- The rule applied to a region -/
def region (f : (Fin n → ℝ) → ℝ) (c w : Fin n → ℝ) : Region n := ⟨c, w, (rule f c w).1, (rule f c w).2.1, (rule f c w).2.2⟩

/-- The loop that moves down the list tree from `pos` (`Quadrature.inl:443-455`): the position and the storage at its end.  (`fuel` is `sbrgns`.) -/
def siftDown (cap sb : ℕ) (err : ℝ) : ℕ → ℕ → Mem (Region n) → Option (ℕ × Mem (Region n))
  | 0, pos, h => some (pos, h)
  | fuel + 1, pos, h =>
    if 2 * pos > sb then some (pos, h)
    else
      (if 2 * pos < sb then (h (2 * pos)).bind fun r => (h (2 * pos + 1)).bind fun r' => some (if r.err < r'.err then 2 * pos + 1 else 2 * pos) else some (2 * pos)).bind fun t =>
        (h t).bind fun r => if err ≥ r.err then some (pos, h) else (wr cap h pos r).bind fun h' => siftDown cap sb err fuel t h'

/-- The loop that moves up the list tree from `pos` (`Quadrature.inl:461-467`).  (`fuel` is `sbrgns`.) -/
def siftUp (cap : ℕ) (err : ℝ) : ℕ → ℕ → Mem (Region n) → Option (ℕ × Mem (Region n))
  | 0, pos, h => some (pos, h)
  | fuel + 1, pos, h =>
    if pos / 2 = 0 then some (pos, h)
    else (h (pos / 2)).bind fun r => if err < r.err then some (pos, h) else (wr cap h pos r).bind fun h' => siftUp cap err fuel (pos / 2) h'

/-- The variables of `Integrate<n>` between two rounds -/
structure St (n : ℕ) where
  heap : Mem (Region n)
  sbrgns : ℕ
  finest : ℝ
  abserr : ℝ
  funcls : ℕ

/-- The first application of the rule (`Quadrature.inl:317-331, 352-477` with `divflg == 1`, `subrgn == sbrgns == 1`): the whole region is stored at position 1.  (`cap` regions fit into the storage.) -/
def first (cap : ℕ) (f : (Fin n → ℝ) → ℝ) (a b : Fin n → ℝ) (h : Mem (Region n)) : Option (St n) :=
  let c := fun j => 0.5 * (a j + b j)
  let w := fun j => 0.5 * (b j - a j)
  let r := region f c w
  (siftUp cap r.err 1 1 h).bind fun p => (wr cap p.2 p.1 r).bind fun h => some ⟨h, 1, r.val, r.err, rulcls n⟩

/-- `ifail` (`Quadrature.inl:489-496`); the comparison with the relative tolerance fails if the value is 0 (the quotient is infinite or not a number) -/
def ifail (n : ℕ) (epsrel epsabs : ℝ) (s : St n) : ℕ :=
  let x := 3
  let x := if s.sbrgns + 1 > maxRgns n then 2 else x
  let x := if s.funcls + 2 * rulcls n > maxPts then 1 else x
  if ((s.finest ≠ 0 ∧ s.abserr / |s.finest| < epsrel) ∨ s.abserr < epsabs) ∧ s.funcls ≥ minPts then 0 else x

/-- One round (`Quadrature.inl:500-512`, then twice `352-486`): the region at the top of the list is divided along its axis, and the rule is applied to both halves -/
def round (cap : ℕ) (f : (Fin n → ℝ) → ℝ) (s : St n) : Option (St n) :=
  (s.heap 1).bind fun top => top.axis.bind fun ax =>
    let abserr := s.abserr - top.err
    let finest := s.finest - top.val
    let w := Function.update top.width ax (top.width ax * 0.5)
    let c1 := Function.update top.center ax (top.center ax - w ax)
    let r1 := region f c1 w
    (siftDown cap s.sbrgns r1.err s.sbrgns 1 s.heap).bind fun p => (wr cap p.2 p.1 r1).bind fun h =>
      let c2 := Function.update c1 ax (c1 ax + 2 * w ax)
      let r2 := region f c2 w
      (siftUp cap r2.err (s.sbrgns + 1) (s.sbrgns + 1) h).bind fun p => (wr cap p.2 p.1 r2).bind fun h =>
        some ⟨h, s.sbrgns + 1, finest + r1.val + r2.val, abserr + r1.err + r2.err, s.funcls + rulcls n + rulcls n⟩

/-- The loop `while(true)` (`Quadrature.inl:350-513`): the state and `ifail` at its end.  (`fuel` is `GM_MAXPTS`, so it never runs out.) -/
def loop (cap : ℕ) (f : (Fin n → ℝ) → ℝ) (epsrel epsabs : ℝ) : ℕ → St n → Option (St n × ℕ)
  | 0, s => some (s, 3)
  | fuel + 1, s => if ifail n epsrel epsabs s < 3 then some (s, ifail n epsrel epsabs s) else (round cap f s).bind fun s' => loop cap f epsrel epsabs fuel s'

/-- What `Integrate<n>` returns: the value, the error, the number of evaluations; and the reason it ended (`ifail`: 1 and 2 print a message if the library is verbose) -/
structure Out where
  value : ℝ
  abserr : ℝ
  neval : ℕ
  ifail : ℕ

/-- `Integrate<n>` (`Quadrature.inl:310-530`) in a storage that holds anything -/
def integrate (f : (Fin n → ℝ) → ℝ) (a b : Fin n → ℝ) (epsrel epsabs : ℝ) (h : Mem (Region n)) : Option Out :=
  (first (capacity n) f a b h).bind fun s => (loop (capacity n) f epsrel epsabs maxPts s).bind fun p => some ⟨p.1.finest, p.1.abserr, p.1.funcls, p.2⟩

end

end Verif.GM
