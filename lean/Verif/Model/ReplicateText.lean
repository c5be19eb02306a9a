import Verif.Model.Replicate
import Verif.Model.Restorer
/-!
# `replicate` of a writable bag, for any path string

`Model/Replicate.lean` takes the path apart.  Here it is a string, which the code uses in three ways: normalized as a
string to see whether it is in the bag (`_canon_path`), and joined to the bag's and to the destination directory and
given to the operating system.  The latter follows `..` on the disk, so that a directory left by `..` has to be there.
All directories are given as absolute paths; symbolic links are not modelled.
-/

namespace Verif

/-- Where the operating system gets from `cur` by following components: each has to be looked up in a directory. -/
def LDisk.go (d : LDisk) (cur : Path) : List Str → Option Path
  | [] => some cur
  | c :: cs =>
    if !d.isdir cur then none
    else if c = [] || c = ['.'] then d.go cur cs
    else if c = ['.', '.'] then d.go cur.dropLast cs
    else d.go (cur ++ [c]) cs

/-- The place an absolute path string is for: where something is, or could be made. -/
def LDisk.place (d : LDisk) (s : Str) : Option Path := d.go [] (splitOn '/' s)

/-- `os.path.exists` (called in access/extended.py:276 and 353). -/
def LDisk.existsAt (d : LDisk) (s : Str) : Bool :=
  match d.place s with
  | some p => d.exists p
  | none => false

/-- `os.path.isdir` (called in access/extended.py:287 and 342). -/
def LDisk.isdirAt (d : LDisk) (s : Str) : Bool :=
  match d.place s with
  | some p => d.isdir p
  | none => false

/-- How `os.mkdir` ends. -/
inductive Mkdir where
  | made | fileExists | failed
deriving DecidableEq

/-- `os.mkdir` for a path given by its components. -/
def LDisk.mkdir (d : LDisk) (cs : List Str) : Mkdir × LDisk :=
  match d.go [] cs with
  | none => (.failed, d)
  | some p => if d.exists p then (.fileExists, d) else (.made, { d with names := dset d.names p .dir })

/-- `os.makedirs` of the Python library, for a path given by its components in reverse: unless the parent exists, it is
made in the same way, where it is no error if it exists by then (which happens with `..`). -/
def LDisk.mkdirs (d : LDisk) : List Str → Mkdir × LDisk
  | [] => (.fileExists, d)
  | c :: up =>
    if (d.go [] up.reverse).elim false d.exists then d.mkdir (up.reverse ++ [c])
    else
      match d.mkdirs up with
      | (.failed, d) => (.failed, d)
      | (_, d) => if c = ['.'] then (.made, d) else d.mkdir (up.reverse ++ [c])

/-- `os.makedirs`; directories that were made stay if it fails (called in access/extended.py:346 and 357). -/
def LDisk.makedirsAt (d : LDisk) (s : Str) : Ended :=
  match d.mkdirs ((splitOn '/' s).filter (· ≠ [])).reverse with
  | (.made, d) => (.ok (), d)
  | (_, d) => (.error .osError, d)

/-- A call `bag.replicate(path, destdir, logger)` of a writable bag in the directory `bag`. -/
structure TextCall where
  bag : Str
  path : Str
  dest : Str
  hardlink : Bool := true
  /-- Whether a logger is given. -/
  logger : Bool := false
  /-- Whether the file system can make a hard link from the bag in the destination directory. -/
  canLink : Bool := true
deriving DecidableEq

/-- `os.link(source, destpath)`; `none` for an `OSError` (access/extended.py:361). -/
def LDisk.linkAt (d : LDisk) (source destpath : Str) : Option LDisk :=
  match d.place source, d.place destpath with
  | some q, some p =>
    match dget d.names q with
    | some (.file i) =>
      if !d.exists p && d.isdir p.dropLast then some { d with names := dset d.names p (.file i) } else none
    | _ => none
  | _, _ => none

/-- `shutil.copy(source, destpath)`: a file is put into a directory that is there, under the last part of the source's
path; `none` for an exception (access/extended.py:371). -/
def LDisk.copyAt (d : LDisk) (source destpath : Str) : Option LDisk :=
  let target := if d.isdirAt destpath then pathJoin destpath (baseName source) else destpath
  match d.place source, d.place target with
  | some q, some p =>
    match dget d.names q with
    | some (.file i) =>
      if dget d.names p = some (.file i) then none
      else match d.write p (d.data i) with
        | .ok d => some d
        | .error _ => none
    | _ => none
  | _, _ => none

/-- Copying in `replicate` (access/extended.py:368-376).  With a logger, the handler uses the attribute `log`, which does
not exist; without, an exception is forgotten. -/
def LDisk.copyOrForgetAt (d : LDisk) (c : TextCall) : Ended :=
  match d.copyAt (pathJoin c.bag c.path) (pathJoin c.dest c.path) with
  | some d => (.ok (), d)
  | none => if c.logger then (.error .attributeError, d) else (.ok (), d)

/-- Linking or copying in `replicate` (access/extended.py:358-376).  With a logger, the handler of a failed link uses the
attribute `logger`, which does not exist. -/
def LDisk.linkOrCopyAt (d : LDisk) (c : TextCall) : Ended :=
  if c.hardlink then
    match (if c.canLink then d.linkAt (pathJoin c.bag c.path) (pathJoin c.dest c.path) else none) with
    | some d => (.ok (), d)
    | none => if c.logger then (.error .attributeError, d) else d.copyOrForgetAt c
  else d.copyOrForgetAt c

/-- `replicate` of a writable bag (access/extended.py:320-376). -/
def LDisk.replicateAt (d : LDisk) (c : TextCall) : Ended :=
  match canonPath c.bag c.path with
  | none => (.error .valueError, d)
  | some q =>
    if !d.existsAt q then (.error .valueError, d)
    else
      let destpath := pathJoin c.dest c.path
      if d.isdirAt q then
        if d.isdirAt destpath then (.ok (), d) else d.makedirsAt destpath
      else
        match (if d.existsAt (dirName destpath) then (.ok (), d) else d.makedirsAt (dirName destpath) : Ended) with
        | (.error e, d) => (.error e, d)
        | (.ok _, d) => d.linkOrCopyAt c

end Verif
