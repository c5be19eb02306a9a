import Verif.Model.ReadBag
import Verif.Model.TagDir
/-!
# Operations on a read-only bag (multibag/access/bagit.py:294-302, access/extended.py:511-689)

A disk holds the bag at one place; the operations on the bag are run on the disk.
-/

namespace Verif

/-- `replicate(p, destdir)` of a read-only bag (access/extended.py:607-641), for the bag at `bag`
and the destination directory `dest`; `open_fs` fails if `dest` is not a directory.  Paths with
`..` are not modelled. -/
def roReplicate (disk : Tree) (bag dest p : Path) : Except PyErr Tree :=
  if disk.exists (bag ++ p) = false then .error .valueError
  else if disk.isdir dest = false then .error .osError
  else if disk.isdir (bag ++ p) then
    if disk.isdir (dest ++ p) then .ok disk else disk.makedirsFrom dest p
  else
    match (if p.dropLast ≠ [] && !disk.exists (dest ++ p.dropLast) then
        disk.makedirsFrom dest p.dropLast else .ok disk) with
    | .error e => .error e
    | .ok disk =>
      match disk.read (bag ++ p) with
      | none => .error .osError
      | some c => disk.write (dest ++ p) c

/-- The operations on a read-only bag. -/
inductive RoOp where
  /-- `save` (access/bagit.py:294-302). -/
  | save
  /-- `replicate` into a directory. -/
  | replicate (dest p : Path)
  /-- `open_text_file` and reading (access/bagit.py:262-269). -/
  | read (p : Path)
  /-- `exists`, `isfile`, `isdir`, `sizeof`, `walk`, `fetch_entries` and the validations, which
  only read. -/
  | query

/-- Runs an operation: outcome and disk afterwards.  A failing `replicate` may leave
directories behind; that is not modelled. -/
def roStep (bag : Path) (disk : Tree) : RoOp → Except PyErr Unit × Tree
  | .save => (.error .bagError, disk)
  | .replicate dest p =>
    match roReplicate disk bag dest p with
    | .error e => (.error e, disk)
    | .ok disk' => (.ok (), disk')
  | .read p => if disk.isfile (bag ++ p) then (.ok (), disk) else (.error .osError, disk)
  | .query => (.ok (), disk)

/-- Runs operations one after the other. -/
def roRun (bag : Path) : List RoOp → Tree → Tree
  | [], disk => disk
  | op :: rest, disk => roRun bag rest (roStep bag disk op).2

end Verif
