import Verif.Model.Cov
/-
Model of `CovarianceMatrix.to_plaintext` / `from_plaintext` (`pyRSD/rsdfit/data/covariance_matrix.py:138-194`, `334-383`)
for matrices with two coordinates per axis (`PkmuCovarianceMatrix`, `PoleCovarianceMatrix`).
A text file is a list of lines, a line a list of blank-separated tokens.  Simplification: a token is the number or word it
denotes; that printing a float and parsing it gives the float back is Python's contract.
-/
namespace Verif.Cov

/-- A token: printed as an integer, printed as a float, or any other word. -/
inductive Tok where
  | int (z : Int)
  | num (q : Rat)
  | word (s : String)
  deriving DecidableEq, Repr

abbrev Line := List Tok

/-- A value of the metadata dictionary `attrs`. -/
inductive Attr where
  | flt (q : Rat)
  | int (z : Int)
  | bool (b : Bool)
  | str (s : String)
  | fltArray (shape : List Nat) (vals : List Rat)
  | intArray (shape : List Nat) (vals : List Int)
  deriving DecidableEq, Repr

/-- The name of the type written in the header (`covariance_matrix.py:145-152`). -/
def Attr.cast : Attr → String
  | .flt _ => "float64" | .int _ => "int" | .bool _ => "bool" | .str _ => "str"
  | .fltArray .. => "float64" | .intArray .. => "int64"

/-- `np.shape(v)`, `(0,)` for scalars (`covariance_matrix.py:150`). -/
def Attr.shape : Attr → List Nat
  | .fltArray s _ => s | .intArray s _ => s | _ => [0]

def natTok (n : Nat) : Tok := .int n

/-- The value lines: `str(v)` for a scalar, `np.savetxt(ff, v.ravel())` (format `%.18e`) for an array
(`covariance_matrix.py:154-157`). -/
def Attr.lines : Attr → List Line
  | .flt q => [[.num q]]
  | .int z => [[.int z]]
  | .bool b => [[.word (if b then "True" else "False")]]
  | .str s => [[.word s]]
  | .fltArray _ vs => vs.map fun v => [.num v]
  | .intArray _ vs => vs.map fun (v : Int) => [.num (v : Rat)]

/-- `__write_attrs__` (`covariance_matrix.py:138-157`). -/
def writeAttrs (attrs : List (String × Attr)) : List Line :=
  if attrs = [] then []
  else [natTok attrs.length] ::
    attrs.flatMap fun e =>
      ([.word e.1, natTok (max 1 (e.2.shape.foldr (· * ·) 1)), .word e.2.cast] ++ e.2.shape.map natTok) :: e.2.lines

/-- `to_plaintext` (`covariance_matrix.py:334-354`). -/
def toPlaintext (c : Cov) (dims : List String) (attrs : List (String × Attr)) : List Line :=
  [[natTok c.N]] ++ (c.data.map fun v => [.num v]) ++ [dims.map .word] ++
    ((c.coords1.zip c.coords2).map fun e => [.num e.1.1, .num e.1.2, .num e.2.1, .num e.2.2]) ++ writeAttrs attrs

/-- `ff.readline()`: an empty line at the end of the file. -/
def readline : List Line → Line × List Line
  | [] => ([], [])
  | l :: r => (l, r)

/-- `float(line)` and `int(line)`. -/
def parseFloat : Line → Except Err Rat
  | [.num q] => .ok q
  | [.int z] => .ok z
  | _ => .error .valueError
def parseInt : Line → Except Err Int
  | [.int z] => .ok z
  | _ => .error .valueError

/-- `[parse(ff.readline()) for i in range(n)]`. -/
def readMany {β : Type} (p : Line → Except Err β) : Nat → List Line → Except Err (List β × List Line)
  | 0, ls => .ok ([], ls)
  | n + 1, ls => match p (readline ls).1 with
    | .error e => .error e
    | .ok b => match readMany p n (readline ls).2 with
      | .error e => .error e
      | .ok (bs, rest) => .ok (b :: bs, rest)

/-- `[float(x) for x in ff.readline().split()]` for the four coordinates of a row. -/
def parseRow : Line → Except Err (Coord × Coord)
  | [a, b, c, d] => match parseFloat [a], parseFloat [b], parseFloat [c], parseFloat [d] with
    | .ok a, .ok b, .ok c, .ok d => .ok ((a, b), (c, d))
    | _, _, _, _ => .error .valueError
  | _ => .error .valueError

/-- `toret[key] = dtype(ff.readline())` for a scalar (`covariance_matrix.py:189-190`): the line still has its newline, so
`str` keeps it and `bool` of any non-empty line is `True`. -/
def parseScalar (cast : String) (l : Line) : Except Err Attr :=
  if cast = "float64" then match parseFloat l with | .ok q => .ok (.flt q) | .error e => .error e
  else if cast = "int" then match parseInt l with | .ok z => .ok (.int z) | .error e => .error e
  else if cast = "bool" then .ok (.bool true)
  else if cast = "str" then match l with | [.word s] => .ok (.str (s ++ "\n")) | _ => .error .valueError
  else .error .typeError

/-- `int(token)` of a shape entry (only ever written as a non-negative integer). -/
def dimOf : Tok → Nat
  | .int z => z.toNat
  | _ => 0

/-- One entry of `__read_attrs__` (`covariance_matrix.py:166-192`). -/
def readAttr (ls : List Line) : Except Err ((String × Attr) × List Line) :=
  match readline ls with
  | (.word key :: .int n :: .word cast :: shape, rest) =>
    let sh := shape.map dimOf
    if sh = [0] then
      match parseScalar cast (readline rest).1 with
      | .error e => .error e
      | .ok v => .ok ((key, v), (readline rest).2)
    else if cast = "float64" then
      match readMany parseFloat n.toNat rest with
      | .error e => .error e
      | .ok (vs, rest') => .ok ((key, .fltArray sh vs), rest')
    else if cast = "int64" then
      match readMany parseInt n.toNat rest with
      | .error e => .error e
      | .ok (vs, rest') => .ok ((key, .intArray sh vs), rest')
    else .error .typeError
  | _ => .error .valueError

/-- `for i in range(tot)`. -/
def readAttrsLoop : Nat → List Line → Except Err (List (String × Attr))
  | 0, _ => .ok []
  | n + 1, ls => match readAttr ls with
    | .error e => .error e
    | .ok (e, rest) => match readAttrsLoop n rest with
      | .error e => .error e
      | .ok es => .ok (e :: es)

/-- `__read_attrs__` (`covariance_matrix.py:160-194`). -/
def readAttrs (ls : List Line) : Except Err (List (String × Attr)) :=
  match readline ls with
  | ([], _) => .ok []
  | (l, rest) => match parseInt l with
    | .error e => .error e
    | .ok n => readAttrsLoop n.toNat rest

/-- `from_plaintext` (`covariance_matrix.py:356-383`).  For a single row, `np.squeeze(np.hsplit(coords, 2))` drops the row
axis, every coordinate becomes a scalar and `len()` of it in `GridIndex.__init__` (`indexing.py:114-123`) is a
`TypeError`. -/
def fromPlaintext (ls : List Line) : Except Err (Cov × List String × List (String × Attr)) :=
  match parseInt (readline ls).1 with
  | .error e => .error e
  | .ok n =>
    let N := n.toNat
    match readMany parseFloat (N * (N + 1) / 2) (readline ls).2 with
    | .error e => .error e
    | .ok (data, ls) =>
      let dims := (readline ls).1.filterMap fun t => match t with | .word s => some s | _ => none
      match readMany parseRow N (readline ls).2 with
      | .error e => .error e
      | .ok (rows, ls) =>
        if N ≤ 1 then .error .typeError
        else match readAttrs ls with
        | .error e => .error e
        | .ok attrs => match condensedToFull data N with
          | .error e => .error e
          | .ok g => .ok (construct N (fun i j => (g i j).getD 0) (rows.map (·.1)) (rows.map (·.2)), dims, attrs)

end Verif.Cov
