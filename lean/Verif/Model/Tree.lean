import Verif.Py.Dict
import Verif.Py.StrLemmas
/-!
# File trees

A bag directory as a finite map from component paths (relative to the bag root)
to directories and files.  The root itself is implicit.  Entries are kept in
creation order, so a directory comes before its contents.
-/

namespace Verif

/-- A path relative to the bag root, as its components. -/
abbrev Path := List Str

/-- A directory entry.  `file` carries the (decoded) contents. -/
inductive Node where
  | dir
  | file (content : Str)
deriving DecidableEq, Repr

/-- A directory tree. -/
abbrev Tree := List (Path × Node)

/-- Components of a `/`-delimited relative path; empty components and `.` are
dropped.  `..` is not resolved here (see `Model/Paths.lean`). -/
def comps (s : Str) : Path := (splitOn '/' s).filter (fun c => c ≠ [] && c ≠ ['.'])

/-- `os.path.isdir`. -/
def Tree.isdir (t : Tree) (p : Path) : Bool := p = [] || dget t p = some .dir

/-- `os.path.isfile`. -/
def Tree.isfile (t : Tree) (p : Path) : Bool :=
  match dget t p with
  | some (.file _) => true
  | _ => false

/-- `os.path.exists`. -/
def Tree.exists (t : Tree) (p : Path) : Bool := p = [] || (dget t p).isSome

/-- Contents of the file at `p`, if there is one. -/
def Tree.read (t : Tree) (p : Path) : Option Str :=
  match dget t p with
  | some (.file c) => some c
  | _ => none

/-- `os.mkdir`: the parent must be a directory and nothing may exist at `p`. -/
def Tree.mkdir (t : Tree) (p : Path) : Except PyErr Tree :=
  if t.exists p || !t.isdir p.dropLast then .error .osError else .ok (dset t p .dir)

/-- `open(p, 'w')`, writing `c` and closing: the parent must be a directory and
`p` must not be one. -/
def Tree.write (t : Tree) (p : Path) (c : Str) : Except PyErr Tree :=
  if t.isdir p || !t.isdir p.dropLast then .error .osError else .ok (dset t p (.file c))

/-- `os.remove` of an existing file. -/
def Tree.remove (t : Tree) (p : Path) : Except PyErr Tree :=
  if t.isfile p then .ok (ddel t p) else .error .osError

end Verif
