/-
Model of `replace_vars`, `pyRSD/rsdfit/parameters/tools.py:63-126`.  Strings are lists of characters.
-/
namespace Verif.Vars

/-- What can be raised. -/
inductive Err where
  | trailing    -- `tools.py:95`  ValueError("trailing $")
  | unmatched   -- `tools.py:100` ValueError("unmatched '('")
  | key         -- KeyError of `D[var]` / `os.environ[var]`
  deriving DecidableEq, Repr

/-- Characters of a variable name (`tools.py:117-120`). -/
def identChar (c : Char) : Bool :=
  ('a' ≤ c && c ≤ 'z') || ('A' ≤ c && c ≤ 'Z') || ('0' ≤ c && c ≤ '9') || c == '_'

/-- The `while True` loop (`tools.py:85-125`): `sIn` is the rest of the input, `sOut` the output so far.
`D v` is `str(D[v])`, `env v` is `os.environ[v]` (`none`: no such key).  `fuel` bounds the number of iterations; the
input gets shorter in each one, so its length + 1 is enough (the result for too little fuel is never used). -/
def loop (D env : List Char → Option (List Char)) : Nat → List Char → List Char → Except Err (List Char)
  | 0, _, sOut => .ok sOut
  | fuel + 1, sIn, sOut =>
    match sIn.dropWhile (· != '$') with                        -- line 86, `i = s_in.find('$')`
    | [] => .ok (sOut ++ sIn)                                  -- lines 87-89
    | _ :: rest =>
      let sOut := sOut ++ sIn.takeWhile (· != '$')             -- line 91
      match rest with                                          -- line 92
      | [] => .error .trailing                                 -- lines 94-95
      | '(' :: r =>                                            -- line 97
        match r.dropWhile (· != ')') with                      -- line 98
        | [] => .error .unmatched                              -- lines 99-100
        | _ :: r' =>
          let var := r.takeWhile (· != ')')                    -- line 101
          match D var with                                     -- lines 104-107
          | some v => loop D env fuel r' (sOut ++ v)
          | none =>
            match env var with
            | some v => loop D env fuel r' (sOut ++ v)
            | none => .error .key
      | c :: r =>                                              -- lines 109-125
        let var := (c :: r).takeWhile identChar
        match D var with
        | some v => loop D env fuel ((c :: r).dropWhile identChar) (sOut ++ v)
        | none => .error .key

/-- `replace_vars(s, D)`. -/
def replaceVars (D env : List Char → Option (List Char)) (s : List Char) : Except Err (List Char) :=
  loop D env (s.length + 1) s []

end Verif.Vars
