import Verif.Model.OpenBag
import Verif.Model.Paths
import Verif.Model.Restore
/-!
# Setting up a restorer and finding member bags

`BagRestorer.__init__`, `_create_dest_bag`, `find_member_bag`, `_fetch_member_bag` and
`get_member_bag` (multibag/restore.py:43-148).  The disk is a tree from the root directory, without
symbolic links; a path is followed component by component whether or not the directories on the way
exist.
-/

namespace Verif

/-- `os.path.abspath` (POSIX). -/
def abspath (cwd p : Str) : Str := normpath (pathJoin cwd p)

/-- `os.path.dirname` (POSIX): up to the last slash, without slashes at the end unless there is nothing
else. -/
def dirName (p : Str) : Str :=
  let head := (p.reverse.dropWhile (· ≠ '/')).reverse
  if head.all (· = '/') then head else rstripBy (· = '/') head

/-- `os.path.isdir`. -/
def diskIsdir (cwd : Str) (disk : Tree) (p : Str) : Bool := disk.isdir (comps (abspath cwd p))

/-- `os.path.isfile`. -/
def diskIsfile (cwd : Str) (disk : Tree) (p : Str) : Bool := disk.isfile (comps (abspath cwd p))

/-- `os.path.exists`. -/
def diskExists (cwd : Str) (disk : Tree) (p : Str) : Bool := disk.exists (comps (abspath cwd p))

/-- The argument `headbag`: a path, or a bag object with this `path`. -/
inductive HeadArg where
  | location (p : Str)
  | bag (path : Str)
deriving DecidableEq

/-- The path of the head bag. -/
def HeadArg.path : HeadArg → Str
  | .location p => p
  | .bag p => p

/-- A restorer (restore.py:71-97), without the function to fetch bags. -/
structure Restorer where
  headPath : Str
  inplace : Bool
  destdir : Str
  cachedir : Str
deriving DecidableEq

/-- An optional string, the empty one counting as none (`if not destbag`). -/
def given : Option Str → Option Str
  | some [] => none
  | o => o

/-- `BagRestorer.__init__` (restore.py:65-97).  `isHead` is `is_headbag` (see `isHeadbag`); opening the
bag again is taken to succeed if this does.  A bag object given as destination stands for its path.
`fetcher`: a function to fetch bags is given. -/
def Restorer.make (cwd : Str) (disk : Tree) (isHead : Str → Except PyErr Bool) (head : HeadArg)
    (dest comp : Option Str) (fetcher : Bool) : Except PyErr Restorer :=
  match ((match head with
    | .bag _ => .ok ()
    | .location p =>
      if !diskExists cwd disk p then .error .osError
      else match isHead p with
        | .error e => .error e
        | .ok false => .error .multibagError
        | .ok true => .ok ()) : Except PyErr Unit) with
  | .error e => .error e
  | .ok () =>
    let destdir := abspath cwd ((given dest).getD head.path)
    if !diskIsdir cwd disk (dirName destdir) then .error .osError
    else .ok {
      headPath := head.path
      inplace := (given dest).isNone || destdir = abspath cwd head.path
      destdir := destdir
      cachedir := (given comp).getD
        (if fetcher then pathJoin (pathJoin destdir py!"multibag") py!"_membercache"
         else dirName (abspath cwd head.path)) }

/-- `not os.path.exists(self._cachedir) and self._cachedir.startswith(self._destdir)` (restore.py:114, 137). -/
def Restorer.lacksCache (r : Restorer) (cwd : Str) (disk : Tree) : Bool :=
  !diskExists cwd disk r.cachedir && startsWith r.destdir r.cachedir

/-- `_create_dest_bag` (restore.py:111-116). -/
def Restorer.createDest (r : Restorer) (cwd : Str) (disk : Tree) : Except PyErr Tree :=
  match ((if diskExists cwd disk r.destdir then .ok disk
    else disk.mkdir (comps (abspath cwd r.destdir))) : Except PyErr Tree) with
  | .error e => .error e
  | .ok disk =>
    if r.lacksCache cwd disk then disk.makedirsFrom [] (comps (abspath cwd r.cachedir)) else .ok disk

/-- `find_member_bag` (restore.py:118-132).  `exts` lists the extensions in the order in which the set
`serialized_extensions` (restore.py:25) yields them, which is not specified. -/
def Restorer.find (r : Restorer) (exts : List Str) (cwd : Str) (disk : Tree) (name : Str) : Option Str :=
  let bagdir := pathJoin r.cachedir name
  if diskIsdir cwd disk bagdir then some bagdir
  else ((exts.map (fun e => bagdir ++ e)).filter (diskIsfile cwd disk)).head?

/-- A function to fetch bags: given a name and a directory it returns a path, or `None`, and may change
the disk. -/
abbrev Fetcher := Str → Str → Tree → Except PyErr (Option Str × Tree)

/-- `_fetch_member_bag` (restore.py:134-139). -/
def Restorer.fetch (r : Restorer) (fetcher : Option Fetcher) (cwd : Str) (disk : Tree) (name : Str) :
    Except PyErr (Option Str × Tree) :=
  match fetcher with
  | none => .ok (none, disk)
  | some f =>
    match (if r.lacksCache cwd disk then r.createDest cwd disk else .ok disk) with
    | .error e => .error e
    | .ok disk => f name r.cachedir disk

/-- `get_member_bag` (restore.py:141-148). -/
def Restorer.getMember (r : Restorer) (exts : List Str) (fetcher : Option Fetcher) (cwd : Str) (disk : Tree)
    (name : Str) : Except PyErr (Option Str × Tree) :=
  match given (r.find exts cwd disk name) with
  | some p => .ok (some p, disk)
  | none => r.fetch fetcher cwd disk name

/-- The bag that `get_member_bag` finds without fetching, as a source to restore from: the directory, or
what is in the archive. -/
def Restorer.source (r : Restorer) (exts : List Str) (cwd : Str) (disk : Tree) (archives : Path → Option Tree)
    (name : Str) : Option RSource :=
  match r.find exts cwd disk name with
  | none => none
  | some p =>
    let q := comps (abspath cwd p)
    if disk.isdir q then some ⟨abspath cwd p, disk.below q⟩
    else (archives q).map (fun t => ⟨abspath cwd p, t⟩)

end Verif
