import Verif.Model.ParamFile
/-!
What has to be true of parameters for a file to hold them.
-/
namespace Verif.PFile

/-- The facts about Python's objects that are used. -/
structure Lawful (py : Python) : Prop where
  items : ∀ l, py.items (py.mkDict l) = some l
  none_ninf : py.ninf ≠ py.none
  none_pinf : py.pinf ≠ py.none
  none_ff : py.ff ≠ py.none
  ofTxt : ∀ t, py.ofTxt t ≠ py.none
  fin_none : py.finite py.none = false
  fin_ninf : py.finite py.ninf = false
  fin_pinf : py.finite py.pinf = false
  prior : py.priorOk py.none = true

/-- A name: letters, digits and underscores. -/
def IsName (n : Txt) : Prop := n ≠ [] ∧ ∀ c ∈ n, c.isAlphanum = true ∨ c = '_'

/-- The text does not begin or end with a space or a control character. -/
def Trim (t : Txt) : Prop := (∀ c ∈ t.head?, 32 < c.toNat) ∧ (∀ c ∈ t.getLast?, 32 < c.toNat)

/-- The text stays one field of one line: no line break, comment sign, continuation sign or equals sign. -/
structure OneField (t : Txt) : Prop where
  ne : t ≠ []
  trim : Trim t
  line : '\n' ∉ t
  hash : '#' ∉ t
  back : '\\' ∉ t
  eq : '=' ∉ t

/-- The names of the values known while a file is read all contain a dot. -/
def Dotted {V : Type} (D : Txt → Option V) : Prop := ∀ k, (D k).isSome → '.' ∈ k

/-- The text `t` of a value evaluates to `v`; if it has variables, then after they are replaced, and `o` is what it is
with them. -/
def ReadsAs (py : Python) (env : Txt → Option Txt) (t : Txt) (v : py.Val) (o : Option py.Val) : Prop :=
  ∀ D : Txt → Option py.Val, Dotted D →
    ('$' ∉ t ∧ o = Option.none ∧ py.eval D t = some v) ∨
    ('$' ∈ t ∧ ∃ w t', o = some w ∧ py.eval (fun _ => Option.none) t = some w ∧
      Vars.replaceVars (fun x => (D x).map py.str) env t = .ok t' ∧ Trim t' ∧ py.eval D t' = some v)

/-- A parameter that is only a value: everything else is as in a new parameter, and the value is not a dictionary of
attributes (nor an empty one). -/
structure Plain {py : Python} (p : Par py) : Prop where
  vary : p.vary = py.ff
  min : p.min = py.ninf
  max : p.max = py.pinf
  expr : p.expr = py.none
  fiducial : p.fiducial = py.none
  prior : p.prior = py.none
  lower : p.lower = py.none
  upper : p.upper = py.none
  mu : p.mu = py.none
  sigma : p.sigma = py.none
  analytic : p.analytic = py.ff
  dict : ∀ its, py.items p.value = some its → ∃ kv ∈ its, kv.1 ∉ validKeys

/-- A parameter of a fit as they are: a value inside its bounds, bounds that are finite or those of an unbounded
parameter, a prior of a known name. -/
structure Standard {py : Python} (p : Par py) : Prop where
  output : p.output = Option.none
  vary : p.vary ≠ py.none
  analytic : p.analytic ≠ py.none
  min : p.min = py.ninf ∨ py.finite p.min = true
  max : p.max = py.pinf ∨ py.finite p.max = true
  above : py.finite p.min = true → py.gt p.min p.value = false
  below : py.finite p.max = true → py.gt p.value p.max = false
  value : p.value ≠ py.none
  prior : py.priorOk p.prior = true

/-- A set of parameters written as values (those of the driver, the data and the model). -/
structure PlainSet (py : Python) (env : Txt → Option Txt) (ps : Params py) : Prop where
  nodup : (ps.map Prod.fst).Nodup
  each : ∀ np ∈ ps, IsName np.1 ∧ py.validName np.1 = true ∧ np.2.name = np.1 ∧ Plain np.2 ∧
    OneField (py.repr (np.2.output.getD np.2.value)) ∧
    ReadsAs py env (py.repr (np.2.output.getD np.2.value)) np.2.value np.2.output

/-- A set of parameters written as dictionaries (the fit parameters). -/
structure DictSet (py : Python) (env : Txt → Option Txt) (ps : Params py) : Prop where
  nodup : (ps.map Prod.fst).Nodup
  each : ∀ np ∈ ps, IsName np.1 ∧ py.validName np.1 = true ∧ np.2.name = np.1 ∧ Standard np.2 ∧
    OneField (py.repr (py.mkDict (np.2.toDict true))) ∧
    ReadsAs py env (py.repr (py.mkDict (np.2.toDict true))) (py.mkDict (np.2.toDict true)) Option.none

/-- The further names of the theory. -/
structure ExtraSet (py : Python) (env : Txt → Option Txt) (es : List (Txt × Txt)) : Prop where
  nodup : (es.map Prod.fst).Nodup
  each : ∀ nd ∈ es, IsName nd.1 ∧ py.validName nd.1 = true ∧ OneField ('\'' :: nd.2 ++ ['\'']) ∧
    py.items (py.ofTxt nd.2) = Option.none ∧
    ReadsAs py env ('\'' :: nd.2 ++ ['\'']) (py.ofTxt nd.2) Option.none

/-- A run whose parameters a file can hold. -/
structure Writable (py : Python) (env : Txt → Option Txt) (r : Run py) : Prop where
  driver : PlainSet py env r.driver
  data : PlainSet py env r.data
  theory : DictSet py env r.theory
  extras : ExtraSet py env r.extras
  model : PlainSet py env r.model

end Verif.PFile
