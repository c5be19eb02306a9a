import Verif.Model.Walk
import Verif.Py.Exc
/-!
# The `walk` method of bag objects, and the sizes computed with it

`walk` of local bags (multibag/access/extended.py:391-424) and of read-only ones (655-689), and
`calc_oxum` (426-440).  A local bag is a directory on a disk: its `walk` may leave the bag.  The order in
which directories and names are listed is that of the tree; symbolic links are not modelled.
-/

namespace Verif

/-- How the operating system follows the components of a path from a directory; `none` if what should be
a directory is not. -/
def osResolve (disk : Tree) : Path → List Str → Option Path
  | cur, [] => some cur
  | cur, c :: cs =>
    if disk.isdir cur = false then none
    else if c = [] ∨ c = ['.'] then osResolve disk cur cs
    else if c = ['.', '.'] then osResolve disk cur.dropLast cs
    else osResolve disk (cur ++ [c]) cs

/-- What `os.walk` and the walker of PyFilesystem give for a directory `d`: for each directory at or below
it its path relative to `d`, and the names of its subdirectories and files. -/
def listing (t : Tree) (d : Path) : List (Path × List Str × List Str) :=
  (dirsBelow t d).map (fun x => (x.drop d.length, subdirsOf t x, filesOf t x))

/-- `walk` of a local bag (access/extended.py:411-424).  `os.path.join(*re.split('/+', start))` only has
empty strings first and last, so it never is absolute (line 414) and has the non-empty components of `start`;
the directories found begin with the bag's directory, which is cut off (420-421). -/
def walkLocal (disk : Tree) (bagdir : Path) (start : Str) : Except PyErr (List (Str × List Str × List Str)) :=
  let names := (splitOn '/' start).filter (· ≠ [])
  match osResolve disk bagdir names with
  | none => .error .valueError
  | some d =>
    if disk.isdir d then .ok ((listing disk d).map (fun r => (joinPath (names ++ r.1), r.2)))
    else .error .valueError

/-- `fs.path.normpath` without the leading slash, on the components of a path (used by `fs.path.join` in
`Path.subfspath`, access/bagit.py:69-71): `none` for IllegalBackReference. -/
def fsNorm : Path → List Str → Option Path
  | cur, [] => some cur
  | cur, c :: cs =>
    if c = [] ∨ c = ['.'] then fsNorm cur cs
    else if c = ['.', '.'] then (if cur = [] then none else fsNorm cur.dropLast cs)
    else fsNorm (cur ++ [c]) cs

/-- `walk` of a read-only bag (access/extended.py:672-689).  IllegalBackReference is a ValueError;
ResourceNotFound and DirectoryExpected of PyFilesystem are given as `osError`. -/
def walkReadOnly (t : Tree) (start : Str) : Except PyErr (List (Str × List Str × List Str)) :=
  if startsWith ['/'] start then .error .valueError
  else match fsNorm [] (splitOn '/' start) with
  | none => .error .valueError
  | some d =>
    if t.isdir d then
      .ok ((listing t d).map (fun r =>
        (rstripBy (· = '/') (lstripBy (· = '/') (start ++ '/' :: joinPath r.1)), r.2)))
    else .error .osError

/-- The paths of the files that a walk has listed: `"/".join([root, f])` (access/extended.py:439). -/
def walkedFiles (rows : List (Str × List Str × List Str)) : List Str :=
  rows.flatMap (fun r => r.2.2.map (fun f => r.1 ++ '/' :: f))

/-- `calc_oxum` (access/extended.py:426-440), from the result of `walk("data")`. -/
def calcOxum (sizeof : Str → Nat) (walked : Except PyErr (List (Str × List Str × List Str))) :
    Except PyErr (Nat × Nat) :=
  match walked with
  | .error e => .error e
  | .ok rows => .ok ((walkedFiles rows).foldl (fun acc p => (acc.1 + sizeof p, acc.2 + 1)) (0, 0))

end Verif
