/-
Model of the shape handling of the callables of `(k, mu)`: `pyRSD/rsd/tools.py:20-36` (`return_xarray`), `225-264`
(`broadcast_kmu`) and `266-330` (`monopole`, `quadrupole`, `hexadecapole`, `tetrahexadecapole`).

An array is a shape and the entry at each multi-index; only multi-indices below the shape have a meaning.  Numbers are exact reals.
The parts of numpy and xarray used are modelled from their documentation: broadcasting, `newaxis`, `squeeze`, `ravel(order='F')`,
`atleast_1d`, and the checks of `xr.DataArray` on the coordinates it is given.
-/
import Verif.Model.Quad

namespace Verif.Bcast

noncomputable section

/-- An array: a shape and its entries. -/
structure Arr where
  shape : List ℕ
  at' : List ℕ → ℝ

/-- Exceptions: `IndexError`, `ValueError`, `TypeError`. -/
inductive Err where
  | index
  | value
  | type
deriving DecidableEq

/-- What a user passes: a number, or a list or array. -/
inductive Inp where
  | num (x : ℝ)
  | arr (a : Arr)

/-- `tools.py:243-246`: lists are made arrays, numbers arrays of length one. -/
def Inp.toArr : Inp → Arr
  | .num x => ⟨[1], fun _ => x⟩
  | .arr a => a

/-- `a[:, np.newaxis]` for an array of one dimension or none. -/
def addLast (a : Arr) : Except Err Arr :=
  if a.shape.length < 1 then .error .index else .ok ⟨a.shape ++ [1], fun idx => a.at' idx.dropLast⟩

/-- `a[np.newaxis, :]` for an array of one dimension or none. -/
def addFirst (a : Arr) : Except Err Arr :=
  if a.shape.length < 1 then .error .index else .ok ⟨1 :: a.shape, fun idx => a.at' idx.tail⟩

/-- The broadcast of two shapes, last dimension first (numpy). -/
def bshapeRev : List ℕ → List ℕ → Option (List ℕ)
  | [], t => some t
  | s, [] => some s
  | a :: s, b :: t =>
    match bshapeRev s t with
    | none => none
    | some r => if a = b then some (a :: r) else if a = 1 then some (b :: r) else if b = 1 then some (a :: r) else none

/-- The broadcast of two shapes (numpy). -/
def bshape (s t : List ℕ) : Option (List ℕ) := (bshapeRev s.reverse t.reverse).map List.reverse

/-- An array seen with a larger shape: missing dimensions are added in front, those of length one repeated (numpy). -/
def broadcastTo (a : Arr) (s : List ℕ) : Arr :=
  ⟨s, fun idx => a.at' (List.zipWith (fun d i => if d = 1 then 0 else i) a.shape (idx.drop (s.length - a.shape.length)))⟩

/-- Lines 248-261 of `tools.py`: the arrays the decorated function is called with. -/
def broadcast (k mu : Inp) : Except Err (Arr × Arr) := do
  let k := k.toArr
  let mu := mu.toArr
  let (k, mu) ←
    (if mu.shape.length = 1 ∧ k.shape.length = 1 then                     -- line 249
      if mu.shape ≠ k.shape then do                                        -- line 250
        let k ← addLast k
        let mu ← addFirst mu
        pure (k, mu)
      else pure (k, mu)
    else if 1 < k.shape.length ∧ mu.shape.length < 2 then do               -- line 254
      let mu ← addFirst mu
      pure (k, mu)
    else if 1 < mu.shape.length ∧ k.shape.length < 2 then do               -- line 256
      let k ← addLast k
      pure (k, mu)
    else pure (k, mu) : Except Err (Arr × Arr))
  match bshape k.shape mu.shape with                                       -- line 259
  | none => .error .value
  | some s => if 2 < s.length then .error .value else .ok (broadcastTo k s, broadcastTo mu s)   -- lines 260-262

/-- The multi-index of an array from the one of the squeezed array. -/
def unsq : List ℕ → List ℕ → List ℕ
  | [], _ => []
  | d :: s, idx => if d = 1 then 0 :: unsq s idx else idx.head! :: unsq s idx.tail

/-- `np.squeeze`. -/
def squeeze (a : Arr) : Arr := ⟨a.shape.filter (· ≠ 1), fun idx => a.at' (unsq a.shape idx)⟩

/-- The multi-index of the `n`-th entry when the first index varies fastest. -/
def unravelF : List ℕ → ℕ → List ℕ
  | [], _ => []
  | d :: s, n => n % d :: unravelF s (n / d)

/-- `np.ravel(a, order='F')`. -/
def ravelF (a : Arr) : Arr := ⟨[a.shape.prod], fun idx => a.at' (unravelF a.shape idx.head!)⟩

/-- `np.atleast_1d`. -/
def atleast1d (a : Arr) : Arr := if a.shape = [] then ⟨[1], fun _ => a.at' []⟩ else a

/-- An `xr.DataArray` with coordinates `k` and `mu`: along the one dimension `i`, or along the two dimensions `k`, `mu`. -/
structure DataArray where
  vals : Arr
  kc : Arr
  muc : Arr

/-- `return_xarray(pkmu, k, mu, flatten)` (`tools.py:20-36`).  `xr.DataArray` refuses a coordinate that does not have the dimension
it is said to have, or its length, and more than two dimensions for two names. -/
def returnXarray (pkmu k mu : Arr) (flatten : Bool) : Except Err DataArray :=
  let k := if flatten then ravelF k else k                                  -- lines 22-24
  let mu := if flatten then ravelF mu else mu
  let pkmu := atleast1d pkmu                                                -- line 27
  if pkmu.shape.length = 1 then                                             -- lines 28-30
    if k.shape = pkmu.shape ∧ mu.shape = pkmu.shape then .ok ⟨pkmu, k, mu⟩ else .error .value
  else
    match k.shape, mu.shape with                                            -- lines 31-33
    | [a, b], [c, d] =>
      if b = 0 ∨ c = 0 then .error .index
      else if pkmu.shape = [a, d] then
        .ok ⟨pkmu, ⟨[a], fun idx => k.at' [idx.head!, 0]⟩, ⟨[d], fun idx => mu.at' [0, idx.head!]⟩⟩
      else .error .value
    | _, _ => .error .index

/-- `broadcast_kmu(f)` (`tools.py:225-264`).  `flatten` is the keyword argument; it is also given to `f` (line 263). -/
def wrapper (f : Arr → Arr → Except Err Arr) (k mu : Inp) (flatten : Bool) : Except Err DataArray := do
  let (k, mu) ← broadcast k mu
  let P ← f k mu
  returnXarray (squeeze P) k mu flatten

/-- A decorated function that acts entry by entry and ends with `np.ravel(_, order='F')` if it is told to flatten, as the `power` of
`DarkMatterSpectrum` (`power_dm.py:985-1013`) and `GalaxySpectrum` (`power_gal.py:404-425`), and the finger-of-god kernels
(`fog_kernels.py:19-37`), which never flatten. -/
def pointwise (g : ℝ → ℝ → ℝ) (flatten : Bool) (k mu : Arr) : Except Err Arr :=
  let P : Arr := ⟨k.shape, fun idx => g (k.at' idx) (mu.at' idx)⟩
  .ok (if flatten then ravelF P else P)

/-- `power(k, mu, flatten=flatten)` of the models. -/
def power (g : ℝ → ℝ → ℝ) (k mu : Inp) (flatten : Bool) : Except Err DataArray := wrapper (pointwise g flatten) k mu flatten

/-- `power(k, mu, flatten)`, with the flag given by position: `kwargs` has no `flatten` (line 264). -/
def powerPositional (g : ℝ → ℝ → ℝ) (k mu : Inp) (flatten : Bool) : Except Err DataArray := wrapper (pointwise g flatten) k mu false

/-- `QuasarSpectrum.power` (`power_qso.py:254-289`): the body calls two callables decorated in the same way, the power of the base class
and the finger-of-god kernel, then multiplies entry by entry, adds the constant, and flattens.  (The Alcock-Paczynski decorator, which acts entry
by entry, is left out.) -/
def qsoPower (p G : ℝ → ℝ → ℝ) (N : ℝ) (k mu : Inp) (flatten : Bool) : Except Err DataArray :=
  wrapper (fun k mu => do
    let pkmu ← power p (.arr k) (.arr mu) false
    let G ← power G (.arr k) (.arr mu) false
    let P : Arr := ⟨pkmu.vals.shape, fun idx => pkmu.vals.at' idx * G.vals.at' idx ^ 2 + N⟩
    .ok (if flatten then ravelF P else P)) k mu flatten

/-- The number of `mu` of the multipole decorators (`tools.py:272-273`, the same in the other three). -/
def numMu (nk : ℕ) : ℕ := if nk = 41 then 42 else 41

/-- The kernels of the four decorators (`tools.py:277, 291-292, 306-307, 321-322`). -/
def kern : ℕ → ℝ → ℝ
  | 0, _ => 1
  | 1, mu => 2.5 * (3 * mu ^ 2 - 1)
  | 2, mu => 9 / 8 * (35 * mu ^ 4 - 30 * mu ^ 2 + 3)
  | 3, mu => 13 / 16 * (231 * mu ^ 6 - 315 * mu ^ 4 + 105 * mu ^ 2 - 5)
  | _, _ => 0

/-- `monopole`, `quadrupole`, `hexadecapole`, `tetrahexadecapole` (`p = 0, 1, 2, 3`) of a model whose power is `g` (`tools.py:266-330`):
`len(k)` fails for a number; each row of the returned table is integrated.  (A one-dimensional table would be integrated entry by entry, and
`simps` of a number fails.) -/
def multipole (p : ℕ) (g : ℝ → ℝ → ℝ) : Inp → Except Err (List ℝ)
  | .num _ => .error .type
  | .arr k =>
    match k.shape with
    | [] => .error .type
    | nk :: _ => do
      let n := numMu nk
      let mus := Quad.linspace01 n
      let P ← power g (.arr k) (.arr ⟨[n], fun idx => mus idx.head!⟩) false
      match P.vals.shape with
      | [a, _] => .ok ((List.range a).map fun i => Quad.simps n mus fun j => kern p (mus j) * P.vals.at' [i, j])
      | _ => .error .index

end

end Verif.Bcast
