/-
Tables of best-fit parameters: `pyRSD/rsdfit/analysis/bestfit.py`.

`BestfitParameterSet` is a `pandas.DataFrame`: labelled rows, named columns, and metadata.  Files are lists of lines, lines are lists of words: how a number is written, and that it is read back as
the same number, is left out (Python 3 writes all digits), as are words with quotation marks; a cell that is text is taken not to look like a number, a truth value or a missing value.  What pandas does in
`to_csv` and `read_csv` is not in the repository; modelled is what the calls of `bestfit.py` use of it.
-/
import Mathlib.Data.Real.Basic
import Mathlib.Data.List.Sort
import Mathlib.Data.List.Nodup

namespace Verif.BestFit

noncomputable section

/-! ### Info files -/

/-- a cell of a table, or a label of a row; `nan` is a missing value -/
inductive Cell where
  | nan
  | num (x : ℝ)
  | bool (b : Bool)
  | text (s : String)

/-- the value of an attribute in the metadata; text is a list of words, `none` is Python's `None` -/
inductive Meta where
  | int (n : ℤ)
  | float (x : ℝ)
  | bool (b : Bool)
  | str (w : List String)
  | none

/-- a `BestfitParameterSet` (`bestfit.py:208-264`): columns, labelled rows, and the attributes of `_user_metadata` in order -/
structure Frame where
  cols : List String
  rows : List (Cell × List Cell)
  info : List (String × Meta)

/-- the type of an attribute as it is written (`type(val).__name__`, `bestfit.py:419`) -/
inductive Cast where
  | int
  | float
  | bool
  | str
  | noneType

/-- a word of a line of metadata: a name of a type, or a value; the words of a text that is a value are `word` -/
inductive Word where
  | int (n : ℤ)
  | float (x : ℝ)
  | bool (b : Bool)
  | word (s : String)
  | none
  | cast (c : Cast)

/-- a line of an info file: a comment, that is the fields after the `#`, or the words of a line of the table -/
inductive Line where
  | comment (key : String) (rest : List Word)
  | words (w : List Cell)

/-- the words of a value (`"%s" % val`, `bestfit.py:419`) -/
def Meta.words : Meta → List Word
  | .int n => [.int n]
  | .float x => [.float x]
  | .bool b => [.bool b]
  | .str w => w.map .word
  | .none => [.none]

/-- `type(val).__name__` (`bestfit.py:419`) -/
def Meta.type : Meta → Cast
  | .int _ => .int
  | .float _ => .float
  | .bool _ => .bool
  | .str _ => .str
  | .none => .noneType

/-- whether a cell is written at all: `to_csv` writes nothing for a missing value, and the blanks around it are one delimiter for the reader (`bestfit.py:294,420`) -/
def Cell.there : Cell → Bool
  | .nan => false
  | _ => true

/-- the lines `to_csv(filename, sep=" ", mode='a')` appends (`bestfit.py:420`): the names of the columns after an empty word, and each row after its label -/
def csv (f : Frame) : List Line := .words (f.cols.map .text) :: f.rows.map fun r => .words ((r.1 :: r.2).filter Cell.there)

/-- `to_info` (`bestfit.py:405-420`): what is in the file afterwards, if there was `old` in it -/
def toInfo (f : Frame) (old : List Line) : List Line :=
  if f.info.length ≠ 0 then f.info.map (fun kv => .comment kv.1 (kv.2.words ++ [.cast kv.2.type])) ++ csv f else old ++ csv f

inductive Err where
  | typeError
  | valueError
  | parserError
  | emptyData
  | indexError
  | notImplemented
  | zeroDivision
deriving DecidableEq

/-- the cast of a word to a type (`bestfit.py:287-289`): `bool` of a text that is not empty is true; a number in the place of a text is its digits, which are left out -/
def castTo : Cast → Word → Except Err Meta
  | .int, .int n => .ok (.int n)
  | .float, .float x => .ok (.float x)
  | .float, .int n => .ok (.float n)
  | .bool, _ => .ok (.bool true)
  | .str, .word s => .ok (.str [s])
  | .str, .cast _ => .ok (.str ["str"])
  | .noneType, _ => .error .typeError
  | _, _ => .error .valueError

/-- one line of metadata (`bestfit.py:284-292`): the second field is the value, the last one the type.  `fields` is `[key] ++ rest`; the name of the type is always the last word -/
def readMeta (rest : List Word) : Except Err Meta :=
  match rest.head?, rest.getLast? with
  | some v, some (.cast c) => castTo c v
  | _, _ => .error .typeError

/-- `meta[name] = value` of a dictionary, in the order of the first assignment (`bestfit.py:281-290`) -/
def setMeta (m : List (String × Meta)) (k : String) (v : Meta) : List (String × Meta) :=
  if k ∈ m.map Prod.fst then m.map fun kv => if kv.1 = k then (k, v) else kv else m ++ [(k, v)]

/-- the loop over the lines (`bestfit.py:282-292`) -/
def readMetas : List Line → List (String × Meta) → Except Err (List (String × Meta))
  | [], m => .ok m
  | .comment k rest :: l, m => (readMeta rest).bind fun v => readMetas l (setMeta m k v)
  | .words _ :: l, m => readMetas l m

/-- the lines that are not comments (`comment='#'`, `bestfit.py:294`) -/
def dataLines : List Line → List (List Cell)
  | [] => []
  | .comment _ _ :: l => dataLines l
  | .words w :: l => w :: dataLines l

/-- the name of a column, from a word of the first line -/
def colName : Cell → String
  | .text s => s
  | _ => ""

/-- how a word looks as text, for a column that is neither of numbers nor of truth values -/
structure Look where
  num : ℝ → String
  bool : Bool → String

/-- a word as text -/
def Look.cell (L : Look) : Cell → Cell
  | .num x => .text (L.num x)
  | .bool b => .text (L.bool b)
  | c => c

/-- the kinds of the words in a column -/
def isNum : Cell → Bool
  | .num _ => true
  | .nan => true
  | _ => false

/-- truth values, or missing -/
def isBool : Cell → Bool
  | .bool _ => true
  | .nan => true
  | _ => false

/-- the inference of the type of a column by `read_csv`: numbers, truth values, or text -/
def infer (L : Look) (col : List Cell) : List Cell := if col.all isNum then col else if col.all isBool then col else col.map L.cell

/-- the table of a list of rows, all of the length `n`: every column is inferred -/
def inferRows (L : Look) (n : ℕ) (rows : List (List Cell)) : List (List Cell) :=
  let cols := (List.range n).map fun j => infer L (rows.map fun r => r.getD j .nan)
  (List.range rows.length).map fun i => cols.map fun c => c.getD i .nan

/-- `read_csv(filename, delim_whitespace=True, comment='#')` (`bestfit.py:294`): the first line has the names; if the second one has one word more, the first word of each row is its label, otherwise rows are
numbered; a row with fewer words than the first one has missing values at its end, with more words is an error.  Two or more words more do not happen here and are an error in the model. -/
def readCsv (L : Look) (lines : List (List Cell)) : Except Err (List String × List (Cell × List Cell)) :=
  match lines with
  | [] => .error .emptyData
  | head :: rows =>
    let n := head.length
    let first := (rows.head?.map List.length).getD 0
    let lead := first - n
    if lead ≥ 2 then .error .parserError
    else if rows.any fun r => n + lead < r.length then .error .parserError
    else
      let full := inferRows L (n + lead) (rows.map fun r => r ++ List.replicate (n + lead - r.length) .nan)
      if lead = 1 then .ok (head.map colName, full.map fun r => (r.headD .nan, r.tail))
      else .ok (head.map colName, (List.range full.length).zipWith (fun (i : ℕ) r => (.num (i : ℝ), r)) full)

/-- `from_info` (`bestfit.py:270-297`); an empty line would be an `IndexError`, there are none -/
def fromInfo (L : Look) (file : List Line) : Except Err Frame :=
  (readMetas file []).bind fun m => (readCsv L (dataLines file)).bind fun t => .ok ⟨t.1, t.2, m⟩

/-- What `from_nlopt` uses of a result (`bestfit.py:313-325`): the names and values of the free and of the constrained parameters -/
structure Nlopt where
  free : List (String × ℝ)
  constrained : List (String × ℝ)

/-- `from_nlopt` (`bestfit.py:299-332`) -/
def fromNlopt (r : Nlopt) (info : List (String × Meta)) : Frame where
  cols := ["best_fit", "median", "lower_1sigma", "upper_1sigma", "lower_2sigma", "upper_2sigma", "free", "scale", "gt_1sigma", "gt_2sigma", "lt_1sigma", "lt_2sigma"]
  rows := (r.free.map fun p => (.text p.1, [.num p.2, .nan, .nan, .nan, .nan, .nan, .bool true, .num 1, .nan, .nan, .nan, .nan])) ++
    r.constrained.map fun p => (.text p.1, [.num p.2, .nan, .nan, .nan, .nan, .nan, .bool false, .num 1, .nan, .nan, .nan, .nan])
  info := info

/-! ### Comparison tables -/

/-- a row of a parameter set, the columns that are used (`bestfit.py:28-46,130-205`); `none` is a missing value -/
structure PRow where
  best : Option ℝ
  median : Option ℝ
  lower : Option ℝ
  upper : Option ℝ
  free : Bool
  scale : ℝ
  tex : Option String

/-- a parameter set: its rows, whether it has a column `tex_name`, and the metadata `min_minus_lkl`, `Nb`, `Np` if it has all three -/
structure PSet where
  rows : List (String × PRow)
  tex : Bool
  chi2 : Option (ℝ × ℤ × ℤ)

/-- an entry of the comparison table: median with the errors, a best-fit value, or χ² over the degrees of freedom (`bestfit.py:165-174`) -/
inductive Entry where
  | pm (median upper lower : Option ℝ)
  | best (v : Option ℝ)
  | chi2 (chi2 : ℝ) (Nb Np : ℤ) (red : ℝ)

/-- which parameters are asked for (`params`, `bestfit.py:130,152-160`) -/
inductive Select where
  | all
  | free
  | constrained
  | these (l : List String)

/-- What the model leaves open: the names in LaTeX, and how a name is written with a scale (`bestfit.py:17-26`, `tools.py:25-50`) -/
structure Names where
  tex : String → Option String
  scaled : String → ℝ → String
  texScaled : String → ℝ → String

/-- `format_scale` (`bestfit.py:17-26`) and `format_scaled_param` (`tools.py:25-30`) leave a name alone if the number is 1 -/
def Names.format (N : Names) (name : String) (x : ℝ) : String := if x = 1 then name else N.scaled name x

/-- `format_scaled_param` (`tools.py:25-50`) -/
def Names.formatTex (N : Names) (name : String) (x : ℝ) : String := if x = 1 then name else N.texScaled name x

/-- the names in LaTeX are filled in, in the set of the caller (`bestfit.py:147-150`) -/
def addTex (N : Names) (s : PSet) : PSet :=
  if s.tex then s
  else { s with rows := s.rows.map fun r => (r.1, { r.2 with tex := (N.tex r.1).map fun t => N.formatTex t (1 / r.2.scale) }),
                tex := s.rows.any fun r => (N.tex r.1).isSome }

/-- the rows under their names with scale (`bestfit.py:153-156`); that the set of the caller gets a column `index` is left out -/
def addScale (N : Names) (s : PSet) : List (String × PRow) :=
  if s.rows.any (fun r => decide (r.2.scale ≠ 1)) then s.rows.map fun r => (N.format r.1 r.2.scale, r.2) else s.rows

/-- the row of a label -/
def row? (rows : List (String × PRow)) (p : String) : Option PRow := (rows.find? fun r => r.1 == p).map Prod.snd

/-- the rows that are asked for (`bestfit.py:158-165`) -/
def select (rows : List (String × PRow)) : Select → List (String × PRow)
  | .all => rows
  | .free => rows.filter fun r => r.2.free
  | .constrained => rows.filter fun r => !r.2.free
  | .these l => (l.filter fun p => p ∈ rows.map Prod.fst).filterMap fun p => (row? rows p).map fun r => (p, r)

/-- the column of a set (`bestfit.py:171-175`) -/
def entry (rows : List (String × PRow)) (r : PRow) : Entry :=
  if rows.any fun r => r.2.median.isSome then .pm r.median r.upper (r.lower.map abs) else .best r.best

/-- χ² (`bestfit.py:177-180`) -/
def chiEntry : Option (ℝ × ℤ × ℤ) → Except Err (Option Entry)
  | none => .ok none
  | some (l, nb, np) => if nb = np then .error .zeroDivision else .ok (some (.chi2 (2*l) nb np (2*l / (nb - np))))

/-- a row of the table: its label, which may be missing, and the entry for each name -/
structure TRow where
  label : Option String
  entries : List (Option Entry)

/-- a set, prepared for the table: its rows, whether it has names in LaTeX, and χ² -/
def prepare (N : Names) (sel : Select) (s : PSet) : List (String × PRow) := select (addScale N (addTex N s)) sel

/-- the output format is known (`bestfit.py:35-40`); it is only looked at if there are medians -/
def fmtOk (fmt : String) (rows : List (String × PRow)) : Bool := !(rows.any fun r => r.2.median.isSome) || rows.isEmpty || fmt == "latex" || fmt == "ipynb"

/-- The names of the columns: a name that is given twice is one column, which has the values of the last of them (`out[name] = …`, `bestfit.py:171-175`) -/
def column (names : List String) (cols : List (String → Option Entry)) (name : String) : String → Option Entry :=
  ((names.zip cols).reverse.find? fun c => c.1 == name).elim (fun _ => none) Prod.snd

/-- likewise for the row of χ², which is missing after `out[name] = …` (`bestfit.py:171-180`) -/
def chiColumn (names : List String) (chis : List (Option Entry)) (name : String) : Option Entry :=
  ((names.zip chis).reverse.find? fun c => c.1 == name).bind Prod.snd

/-- the label of a row: its name in LaTeX, according to the first set that has such a column, or its name (`bestfit.py:182-183,199-201`) -/
def finalLabel (sets : List (Bool × List (String × PRow))) (p : String) : Option String :=
  match sets.find? fun s => s.1 with
  | none => some p
  | some s => (row? s.2 p).bind PRow.tex

/-- χ² of each set, if it is asked for (`bestfit.py:177-180`) -/
def chisOf (data : List PSet) : Bool → Except Err (List (Option Entry))
  | true => (data.map PSet.chi2).mapM chiEntry
  | false => .ok (data.map fun _ => none)

/-- The names of the rows, those of the first set, sorted unless a list was given (`bestfit.py:166-168,185-187`) -/
def indexOf (N : Names) (data : List PSet) (sel : Select) : List String :=
  match sel with
  | .these _ => ((data.map (prepare N sel)).headD []).map Prod.fst
  | _ => (((data.map (prepare N sel)).headD []).map Prod.fst).mergeSort (fun a b => decide (a ≤ b))

/-- whether each set has names in LaTeX, and its rows -/
def texOf (N : Names) (data : List PSet) (sel : Select) : List (Bool × List (String × PRow)) := ((data.map (addTex N)).map PSet.tex).zip (data.map (prepare N sel))

/-- the columns of the sets (`bestfit.py:170-175`), which are empty where a set does not have the name -/
def colsOf (N : Names) (data : List PSet) (sel : Select) : List (String → Option Entry) := (data.map (prepare N sel)).map fun rows => fun p => (row? rows p).map (entry rows)

/-- the rows of the table, χ² first (`bestfit.py:182-201`) -/
def assemble (N : Names) (names : List String) (data : List PSet) (sel : Select) (chis : List (Option Entry)) : List TRow :=
  (if chis.any Option.isSome then [(⟨some (if (texOf N data sel).any Prod.fst then "$\\chi^2$/d.o.f." else "red_chi2"), names.map (chiColumn names chis)⟩ : TRow)] else []) ++
    (indexOf N data sel).map fun p => (⟨finalLabel (texOf N data sel) p, names.map fun n => column names (colsOf N data sel) n p⟩ : TRow)

/-- `to_comparison_table` (`bestfit.py:125-205`), the table before it is written, and the sets of the caller afterwards.  The rows are those of the first set.  Labels that are given twice are an error here. -/
def compare (N : Names) (names : List String) (data : List PSet) (sel : Select) (fmt : String) (addChi : Bool) : Except Err (List TRow × List PSet) :=
  if data.length < 2 then .error .valueError
  else if names.length ≠ data.length then .error .valueError
  else if ((data.map (prepare N sel)).any fun rows => !decide (rows.map Prod.fst).Nodup) = true then .error .valueError
  else if ((data.map (prepare N sel)).any fun rows => !fmtOk fmt rows) = true then .error .notImplemented
  else (chisOf data addChi).bind fun chis => .ok (assemble N names data sel chis, data.map (addTex N))

end

end Verif.BestFit
