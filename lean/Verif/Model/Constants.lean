import Verif.Py.IntLemmas
/-!
# multibag/constants.py
-/

namespace Verif

/-- `CURRENT_VERSION` (constants.py:6). -/
def CURRENT_VERSION : Str := py!"0.4"

/-- `CURRENT_REFERENCE` (constants.py:7). -/
def CURRENT_REFERENCE : Str :=
  py!"https://github.com/usnistgov/multibag-py/blob/master/docs/multibag-profile-spec.md"

/-- `_2int` (constants.py:17-21). -/
def to2int (s : Str) : Int :=
  match pyInt s with
  | some i => i
  | none => -1

/-- The `fields` attribute of a `Version`: a Python list (constants.py:34) or a
Python tuple (constants.py:37).  The elements of a tuple are taken to be
integers. -/
inductive VFields where
  | list (fs : List Int)
  | tuple (fs : List Int)
deriving DecidableEq, Repr

/-- `class Version` (constants.py:23-39): the string form and the fields. -/
structure Version where
  vs : Str
  fields : VFields
deriving DecidableEq, Repr

/-- `Version(vers)` for a string (constants.py:32-34). -/
def Version.ofStr (s : Str) : Version := ⟨s, .list ((splitOn '.' s).map to2int)⟩

/-- `Version(vers)` for a tuple (constants.py:35-37). -/
def Version.ofTuple (t : List Int) : Version := ⟨joinWith ['.'] (t.map intStr), .tuple t⟩

/-- What a `Version` may be compared with: another `Version`, a string or a tuple
(constants.py:45-46, 50-51, 55-56). -/
inductive VArg where
  | vers (v : Version)
  | str (s : Str)
  | tuple (t : List Int)

/-- `if not isinstance(other, Version): other = Version(other)` (constants.py:45-46). -/
def VArg.toVersion : VArg → Version
  | .vers v => v
  | .str s => .ofStr s
  | .tuple t => .ofTuple t

/-- Python's `<` on two lists (or two tuples) of integers. -/
def pySeqLt : List Int → List Int → Bool
  | _, [] => false
  | [], _ :: _ => true
  | a :: as, b :: bs => if a = b then pySeqLt as bs else a < b

/-- Python's `==` on the two field sequences: a list never equals a tuple. -/
def VFields.eq : VFields → VFields → Bool
  | .list a, .list b => a = b
  | .tuple a, .tuple b => a = b
  | _, _ => false

/-- Python's `<` on the two field sequences: `TypeError` between list and tuple. -/
def VFields.lt : VFields → VFields → Except PyErr Bool
  | .list a, .list b => .ok (pySeqLt a b)
  | .tuple a, .tuple b => .ok (pySeqLt a b)
  | _, _ => .error .typeError

/-- `Version.__eq__` (constants.py:44-47). -/
def Version.eq (v : Version) (other : VArg) : Bool := v.fields.eq other.toVersion.fields

/-- `Version.__lt__` (constants.py:49-52). -/
def Version.lt (v : Version) (other : VArg) : Except PyErr Bool :=
  v.fields.lt other.toVersion.fields

/-- `Version.__le__` (constants.py:54-57): `self < other or self == other`. -/
def Version.le (v : Version) (other : VArg) : Except PyErr Bool := do
  if (← v.lt other) then return true else return v.eq other

/-- `Version.__ge__` (constants.py:59-60). -/
def Version.ge (v : Version) (other : VArg) : Except PyErr Bool := do
  return !(← v.lt other)

/-- `Version.__gt__` (constants.py:61-62). -/
def Version.gt (v : Version) (other : VArg) : Except PyErr Bool := do
  return !(← v.le other)

/-- `Version.__ne__` (constants.py:63-64). -/
def Version.ne (v : Version) (other : VArg) : Bool := !(v.eq other)

/-- `Version(s) < t` for two strings, as used by the readers; never raises. -/
def verLt (s t : Str) : Bool :=
  pySeqLt ((splitOn '.' s).map to2int) ((splitOn '.' t).map to2int)

end Verif
