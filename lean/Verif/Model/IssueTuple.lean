import Verif.Model.Validate
/-!
# Issues as tuples (validate/base.py)

Other than in `Model/Validate.lean`, an issue has all its attributes here, with the values of any type that the constructor
takes.  Simplification: of the types of values, those are modelled that `to_tuple` returns.
-/

namespace Verif

/-- A Python value. -/
inductive PyVal where
  | num (n : Nat)
  | bool (b : Bool)
  | str (s : Str)
  /-- A list or tuple of strings. -/
  | strs (l : List Str)
deriving DecidableEq, Repr

/-- The attributes of a `ValidationIssue` (validate/base.py:49-56). -/
structure FullIssue where
  label : PyVal
  type : PyVal
  spec : PyVal
  passed : PyVal
  comments : List Str
  version : PyVal
deriving DecidableEq, Repr

/-- The setter of `type` (validate/base.py:86-91): `True` equals 1, so that it counts as `ERROR`; for anything else than a
string, making the message of the ValueError fails. -/
def setType (v : PyVal) : Except PyErr PyVal :=
  match v with
  | .num n => if n = ERROR || n = WARN || n = REC then .ok v else .error .typeError
  | .bool true => .ok v
  | .str _ => .error .valueError
  | _ => .error .typeError

/-- What becomes of the comments that are given (validate/base.py:41-46, 55-56): a string is one comment; a number that is
not 0 cannot be iterated over. -/
def givenComments (v : Option PyVal) : Except PyErr (List Str) :=
  match v with
  | none => .ok []
  | some (.str s) => .ok (if s = [] then [] else [s])
  | some (.strs l) => .ok l
  | some (.num n) => if n = 0 then .ok [] else .error .typeError
  | some (.bool b) => if b then .error .typeError else .ok []

/-- `ValidationIssue(*args)` with its defaults (validate/base.py:39-56): it takes up to six arguments. -/
def newIssue (args : List PyVal) : Except PyErr FullIssue :=
  if args.length > 6 then .error .typeError
  else
    match setType (args[1]?.getD (.num ERROR)) with
    | .error e => .error e
    | .ok type =>
      match givenComments args[4]? with
      | .error e => .error e
      | .ok comments =>
        .ok { label := args[0]?.getD (.str []), type := type, spec := args[2]?.getD (.str []),
              passed := args[3]?.getD (.bool true), comments := comments, version := args[5]?.getD (.str py!"0.4") }

/-- `to_tuple` (validate/base.py:167-172). -/
def FullIssue.toTuple (i : FullIssue) : List PyVal :=
  [i.type, .str py!"multibag", i.version, i.label, i.spec, i.passed, .strs i.comments]

/-- `from_tuple` (validate/base.py:188-191): seven items are passed to the constructor. -/
def issueFromTuple (data : List PyVal) : Except PyErr FullIssue :=
  match data with
  | d0 :: d1 :: d2 :: d3 :: d4 :: d5 :: d6 :: _ => newIssue [d1, d2, d3, d0, d4, d5, d6]
  | _ => .error .indexError

end Verif
