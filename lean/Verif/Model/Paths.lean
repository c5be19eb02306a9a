import Verif.Model.Walk
/-!
# Path strings

`os.path.join`, `normpath`, `commonprefix` for POSIX, and the functions of the code that
use them to keep paths inside a bag: `_canon_path` (access/extended.py:259-265),
`_path_is_dangerous` (access/bagit.py:540-557) and `Path.relpath` (access/bagit.py:42-58).
-/

namespace Verif

/-- `os.path.isabs` and `fs.path.isabs`. -/
def isAbs (p : Str) : Bool := p.head? = some '/'

/-- `os.path.join(a, b)` (POSIX). -/
def pathJoin (a b : Str) : Str :=
  if isAbs b then b
  else if a = [] || a.getLast? = some '/' then a ++ b
  else a ++ '/' :: b

/-- One component in `os.path.normpath`: empty ones and `.` are dropped, `..` removes
the component before it if there is one to remove. -/
def normStep (abs : Bool) (acc : Path) (c : Str) : Path :=
  if c = [] || c = ['.'] then acc
  else if c ≠ ['.', '.'] || (!abs && acc.isEmpty) || acc.getLast? = some ['.', '.'] then acc ++ [c]
  else acc.dropLast

/-- Number of leading slashes that `normpath` keeps. -/
def initialSlashes : Str → Nat
  | '/' :: '/' :: '/' :: _ => 1
  | '/' :: '/' :: _ => 2
  | '/' :: _ => 1
  | _ => 0

/-- `os.path.normpath` (POSIX). -/
def normpath (p : Str) : Str :=
  if p = [] then ['.']
  else
    let k := initialSlashes p
    let r := List.replicate k '/' ++ joinPath ((splitOn '/' p).foldl (normStep (k != 0)) [])
    if r = [] then ['.'] else r

/-- `os.path.commonprefix` of two strings: the longest common string prefix, without
regard to components. -/
def commonPrefix : Str → Str → Str
  | a :: as, b :: bs => if a = b then a :: commonPrefix as bs else []
  | _, _ => []

/-- What `os.path.expanduser` and `expandvars` do in the process environment.  All that
is assumed: the former only changes paths that start with `~`, the latter only those with
a `$`. -/
structure Env where
  expanduser : Str → Str
  expandvars : Str → Str
  user_only : ∀ p, p.head? ≠ some '~' → expanduser p = p
  vars_only : ∀ p, '$' ∉ p → expandvars p = p

/-- `_canon_path` for a bag in directory `bagdir` (access/extended.py:259-265); on POSIX the
separator is not replaced. -/
def canonPath (bagdir p : Str) : Option Str :=
  let q := normpath (pathJoin bagdir p)
  if startsWith (normpath bagdir) q then some q else none

/-- `exists`, `isdir` and `isfile` of a bag in directory `bagdir` (access/extended.py:267-298)
on a disk given as a tree from the root directory. -/
def bagExists (disk : Tree) (bagdir p : Str) : Bool :=
  match canonPath bagdir p with
  | none => false
  | some q => disk.exists (comps q)

/-- See `bagExists`. -/
def bagIsfile (disk : Tree) (bagdir p : Str) : Bool :=
  match canonPath bagdir p with
  | none => false
  | some q => disk.isfile (comps q)

/-- See `bagExists`. -/
def bagIsdir (disk : Tree) (bagdir p : Str) : Bool :=
  match canonPath bagdir p with
  | none => false
  | some q => disk.isdir (comps q)

/-- `sizeof` (access/extended.py:300-309): `os.stat(None)` is a `TypeError`; the size of a
directory is not modelled (0). -/
def bagSizeof (blen : Str → Nat) (disk : Tree) (bagdir p : Str) : Except PyErr Nat :=
  match canonPath bagdir p with
  | none => .error .typeError
  | some q =>
    match disk.read (comps q) with
    | some c => .ok (blen c)
    | none => if disk.isdir (comps q) then .ok 0 else .error .osError

/-- `_path_is_dangerous` for a bag with location `bagpath` (access/bagit.py:540-557). -/
def isDangerous (env : Env) (bagpath p : Str) : Bool :=
  if isAbs p then true
  else if env.expanduser p ≠ p then true
  else if env.expandvars p ≠ p then true
  else
    let real := normpath (pathJoin bagpath p)
    let bag := normpath bagpath
    !(commonPrefix bag real = bag)

/-- The path of `Path.relpath(rel)` for a `Path` at `base` (access/bagit.py:42-58). -/
def relpath (base rel : Str) : Str :=
  if rel = [] then base
  else (if base = [] then [] else base ++ ['/']) ++ lstripBy (· = '/') rel

end Verif
