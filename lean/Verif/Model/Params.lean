/-
Model of parameter sets with constraints:
`pyRSD/rsdfit/parameters/parameterset.py`, the value part of `pyRSD/rsdfit/parameters/parameter.py`, and
`BasePowerParameters` / `BasePowerTheory` in `pyRSD/rsdfit/theory/base.py`.

Names are an arbitrary type `N`, values an arbitrary type `V`.
-/
namespace Verif.Params

variable {N V : Type} [DecidableEq N]

/-- A constraint expression (`Parameter.expr`): the parameter names it mentions (`par._expr_deps` restricted to parameters,
`parameterset.py:302-304`) and its value as a function of the values read for them.
Simplification: an expression reads each parameter it mentions once, in the order of `deps`, before it computes
(asteval has no way of changing parameters; a second read of a name gives the same value). -/
structure Expr (N V : Type) where
  deps : List N
  eval : List V → V

/-- The static part of a parameter set: dictionary order, constraint expressions, which parameters vary, and
`clamp n v`, the effect of `min`/`max` on a value (`parameter.py:192-197`). -/
structure Sys (N V : Type) where
  names : List N
  expr : N → Option (Expr N V)
  vary : N → Bool
  clamp : N → V → V

/-- The mutable part: `Parameter._val` (= `user_value`) of each parameter, the symbol table of the evaluator
(`SmartSymTable`, `parameterset.py:18-29`; `none` = key absent).  The `children` sets (`parameterset.py:293-306`) are passed separately. -/
structure St (N V : Type) where
  val : N → V
  sym : N → Option V

/-- Update of a function at one point. -/
def upd {A : Type} (f : N → A) (n : N) (a : A) : N → A := fun m => if m = n then a else f m

/-- Assignment `par.value = v` (`parameter.py:270-288`): store, write the symbol table, and drop every child from the
symbol table. -/
def St.set (children : N → List N) (st : St N V) (n : N) (v : V) : St N V :=
  { val := upd st.val n v
    sym := fun m => if m ∈ children n then none else upd st.sym n (some v) m }

mutual

/-- `Parameter._getval` (`parameter.py:164-199`), called for `par.value` and by `SmartSymTable.__missing__`
(`parameterset.py:25-28`).  `fuel` is the interpreter's recursion limit; `none` is a RecursionError. -/
def getval (sys : Sys N V) (children : N → List N) : Nat → St N V → N → Option (V × St N V)
  | 0, _, _ => none
  | fuel + 1, st, n =>
    match sys.expr n with
    | none =>
      if sys.vary n then                                       -- lines 191-199
        let v := sys.clamp n (st.val n)
        some (v, st.set children n v)
      else some (st.val n, st)                                 -- lines 180-181
    | some e =>
      match readDeps sys children fuel st e.deps with          -- line 189, evaluation of the expression
      | none => none
      | some (vs, st) =>
        let st := st.set children n (e.eval vs)                -- line 189, `self.value = ...`
        let v := sys.clamp n (e.eval vs)
        some (v, st.set children n v)                          -- line 198

/-- Evaluation of the names of an expression, left to right: the symbol table entry if present, otherwise
`__missing__` (`parameterset.py:25-28`). -/
def readDeps (sys : Sys N V) (children : N → List N) : Nat → St N V → List N → Option (List V × St N V)
  | _, st, [] => some ([], st)
  | 0, _, _ :: _ => none
  | fuel + 1, st, d :: ds =>
    match st.sym d with
    | some v =>
      match readDeps sys children fuel st ds with
      | none => none
      | some (vs, st) => some (v :: vs, st)
    | none =>
      match getval sys children fuel st d with
      | none => none
      | some (v, st) =>
        match readDeps sys children fuel st ds with
        | none => none
        | some (vs, st) => some (v :: vs, st)

end

/-! ### `prepare_params` -/

/-- The working state of `prepare_params`: `par.deps` and `par.children` of every parameter. -/
structure Prep (N : Type) where
  deps : N → List N
  children : N → List N

/-- `parameterset.py:290-306`: direct dependencies (without repetition) and direct users. -/
def prepInit (sys : Sys N V) : Prep N :=
  { deps := fun n => match sys.expr n with
      | none => []
      | some e => (e.deps.filter (· ∈ sys.names)).eraseDups
    children := fun d => sys.names.filter (fun n => match sys.expr n with
      | none => false
      | some e => decide (d ∈ e.deps) && decide (d ∈ sys.names)) }

/-- The inner `for dep in deps` loop over the list that is modified while being iterated (`parameterset.py:314-320`):
position `i` of the list iterator.  Returns the new state and whether something was redundant; `none` if the loop does not
end. `constrained d` is `self[d].constrained` (`parameter.py:394-402`). -/
def prepScan (constrained : N → Bool) (n : N) : Nat → Nat → Prep N → Bool → Option (Prep N × Bool)
  | 0, _, _, _ => none
  | fuel + 1, i, p, red =>
    match (p.deps n)[i]? with
    | none => some (p, red)
    | some d =>
      if constrained d then
        let ds := (p.deps n).erase d                                            -- line 317
        let ds := ds ++ (p.deps d).filter (fun x => decide (x ∉ ds))            -- line 318
        prepScan constrained n fuel (i + 1)
          { deps := upd p.deps n ds
            children := upd p.children d ((p.children d).erase n) } true         -- lines 319-320
      else prepScan constrained n fuel (i + 1) p red

/-- `for name, par in self.items()` (`parameterset.py:312`). -/
def prepPass (constrained : N → Bool) (fuel : Nat) : List N → Prep N → Bool → Option (Prep N × Bool)
  | [], p, red => some (p, red)
  | n :: ns, p, red =>
    match prepScan constrained n fuel 0 p red with
    | none => none
    | some (p, red) => prepPass constrained fuel ns p red

/-- `while redundant` (`parameterset.py:308-320`). -/
def prepLoop (constrained : N → Bool) (names : List N) (fuel : Nat) : Nat → Prep N → Option (Prep N)
  | 0, _ => none
  | k + 1, p =>
    match prepPass constrained fuel names p false with
    | none => none
    | some (p, true) => prepLoop constrained names fuel k p
    | some (p, false) => some p

/-- `ParameterSet.prepare_params` (`parameterset.py:286-321`), at a time when `constrained` has not been overridden, so that
it means "has an expression" (`parameter.py:394-402`). -/
def prepare (sys : Sys N V) (fuel : Nat) : Option (Prep N) :=
  prepLoop (fun d => (sys.expr d).isSome) sys.names fuel fuel (prepInit sys)

/-! ### Reading and updating a parameter set -/

/-- Reading `.value` of several parameters in order (e.g. `constrained_values`, `parameterset.py:461-473`,
`BasePowerParameters.to_dict`, `theory/base.py:262-267`). -/
def readAll (sys : Sys N V) (children : N → List N) (fuel : Nat) : St N V → List N → Option (List V × St N V)
  | st, [] => some ([], st)
  | st, n :: ns =>
    match getval sys children fuel st n with
    | none => none
    | some (v, st) =>
      match readAll sys children fuel st ns with
      | none => none
      | some (vs, st) => some (v :: vs, st)

/-- `ParameterSet.update_values(**kwargs)` (`parameterset.py:345-368`) on names that are all parameters. -/
def updateValues [DecidableEq V] (sys : Sys N V) (children : N → List N) (fuel : Nat) :
    St N V → List (N × V) → Option (St N V)
  | st, [] => some st
  | st, (n, v) :: kvs =>
    match getval sys children fuel st n with
    | none => none
    | some (w, st) =>
      updateValues sys children fuel (if v ≠ w then st.set children n v else st) kvs

/-- The outcome of `set_free_parameters`. -/
inductive Outcome (N V : Type) where
  | ret (valid : Bool) (st : St N V) (model : N → Option V)
  | error (st : St N V) (model : N → Option V)        -- RuntimeError of `theory/base.py:295-306`, or RecursionError

/-- `BasePowerParameters.set_free_parameters(theta)` (`theory/base.py:269-308`).
* `free`: the sorted free names (`parameterset.py:423-428`); `within n v`: `Parameter.within_bounds(v)`;
* `modelParams`: `valid_model_params` (`theory/base.py:238-243`) that are in the set;
* `accepts d`: whether `model.update(**d)` goes through.  Simplification: on failure the model keeps its old values (it may
  in fact keep some of the new ones). -/
def setFree [DecidableEq V] (sys : Sys N V) (children : N → List N) (fuel : Nat) (free : List N) (within : N → V → Bool)
    (modelParams : List N) (accepts : List (N × V) → Bool) (st : St N V) (model : N → Option V) (theta : List V) :
    Outcome N V :=
  if (free.zip theta).any (fun x => !within x.1 x.2) then .ret false st model            -- lines 286-287
  else
    match updateValues sys children fuel st (free.zip theta) with                         -- line 291
    | none => .error st model
    | some st =>
      match readAll sys children fuel st modelParams with                                 -- line 299, `self.to_dict()`
      | none => .error st model
      | some (vs, st) =>
        let d := modelParams.zip vs
        if accepts d then .ret true st (fun n => (d.lookup n).or (model n)) else .error st model

end Verif.Params
