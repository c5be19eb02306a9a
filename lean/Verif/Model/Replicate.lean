import Verif.Model.Apply
/-!
# `replicate` called by a program

Any number of bags and directories on one disk, whose files are names for inodes.  Paths are given by their components,
without `.` and `..`; symbolic links are not modelled.
-/

namespace Verif

/-- A disk: names, and the contents of the inodes; the inodes from `next` on are unused. -/
structure LDisk where
  names : LTree
  data : Nat → Str
  next : Nat

/-- What is seen at a path. -/
def LDisk.node (d : LDisk) (p : Path) : Option Node := (dget d.names p).map (·.view d.data)

/-- `os.path.isdir`. -/
def LDisk.isdir (d : LDisk) (p : Path) : Bool := p = [] || dget d.names p = some .dir

/-- `os.path.exists`. -/
def LDisk.exists (d : LDisk) (p : Path) : Bool := p = [] || (dget d.names p).isSome

/-- `open(p, 'w')`, writing and closing: an existing file keeps its inode, whose contents are replaced. -/
def LDisk.write (d : LDisk) (p : Path) (c : Str) : Except PyErr LDisk :=
  if d.isdir p || !d.isdir p.dropLast then .error .osError
  else match dget d.names p with
    | some (.file i) => .ok { d with data := fun j => if j = i then c else d.data j }
    | _ => .ok { names := dset d.names p (.file d.next), data := fun j => if j = d.next then c else d.data j,
                 next := d.next + 1 }

/-- How a bag is opened: read-only, or writable; for the latter the flag `replicate_with_hardlink`. -/
inductive Opened where
  | readOnly
  | writable (hardlink : Bool)
deriving DecidableEq

/-- A call `bag.replicate(path, destdir, logger)`. -/
structure RepCall where
  bag : Path
  how : Opened
  path : Path
  dest : Path
  /-- Whether a logger is given. -/
  logger : Bool := false
  /-- Whether the file system can make a hard link from the bag in the destination directory. -/
  canLink : Bool := true
deriving DecidableEq

/-- `os.makedirs` below the destination directory, which has to be there (`os.makedirs` would make it, too).
Directories made before an error are not kept. -/
def LDisk.makedirs (d : LDisk) (dest p : Path) : Except PyErr LDisk :=
  match d.names.makedirsFrom dest p with
  | .error e => .error e
  | .ok t => .ok { d with names := t }

/-- `shutil.copy(source, destpath)`: a file is put into a directory that is there. -/
def LDisk.copy (d : LDisk) (source : Path) (destpath : Path) : Except PyErr LDisk :=
  let target := if d.isdir destpath then destpath ++ source.getLast?.toList else destpath
  match dget d.names source with
  | some (.file i) => if dget d.names target = some (.file i) then .error .osError else d.write target (d.data i)
  | _ => .error .osError

/-- The end of a call with the disk as it is then. -/
abbrev Ended := Except PyErr Unit × LDisk

/-- Copying in `replicate` of a writable bag (access/extended.py:368-376): with a logger, the handler uses the attribute
`log`, which does not exist; without, an exception is forgotten. -/
def LDisk.copyOrForget (d : LDisk) (c : RepCall) : Ended :=
  match d.copy (c.bag ++ c.path) (c.dest ++ c.path) with
  | .ok d => (.ok (), d)
  | .error _ => if c.logger then (.error .attributeError, d) else (.ok (), d)

/-- `replicate` of a writable bag (access/extended.py:345-376), for a file, when its parent directory is there.  With
a logger, the handler of a failed link uses the attribute `logger`, which does not exist (367). -/
def LDisk.linkOrCopy (d : LDisk) (c : RepCall) (hardlink : Bool) : Ended :=
  if hardlink then
    match dget d.names (c.bag ++ c.path) with
    | some (.file i) =>
      if c.canLink && !d.exists (c.dest ++ c.path) && d.isdir (c.dest ++ c.path).dropLast then
        (.ok (), { d with names := dset d.names (c.dest ++ c.path) (.file i) })
      else if c.logger then (.error .attributeError, d)
      else d.copyOrForget c
    | _ => d.copyOrForget c
  else d.copyOrForget c

/-- `copy_file` of PyFilesystem: the file is opened for writing. -/
def LDisk.copyFile (d : LDisk) (source destpath : Path) : Ended :=
  match dget d.names source with
  | some (.file i) =>
    match d.write destpath (d.data i) with
    | .error e => (.error e, d)
    | .ok d => (.ok (), d)
  | _ => (.error .osError, d)

/-- `replicate` (access/extended.py:320-376 for writable bags, 607-641 for read-only bags). -/
def LDisk.replicate (d : LDisk) (c : RepCall) : Ended :=
  let ending (r : Except PyErr LDisk) : Ended :=
    match r with
    | .error e => (.error e, d)
    | .ok d => (.ok (), d)
  if !d.exists (c.bag ++ c.path) then (.error .valueError, d)
  else if d.isdir (c.bag ++ c.path) then
    if d.isdir (c.dest ++ c.path) then (.ok (), d) else ending (d.makedirs c.dest c.path)
  else
    match (if d.exists (c.dest ++ c.path.dropLast) then .ok d else d.makedirs c.dest c.path.dropLast) with
    | .error e => (.error e, d)
    | .ok d =>
      match c.how with
      | .writable hardlink => d.linkOrCopy c hardlink
      | .readOnly => d.copyFile (c.bag ++ c.path) (c.dest ++ c.path)

/-- A number of calls; the program may go on after exceptions. -/
def LDisk.replicates (d : LDisk) : List RepCall → LDisk
  | [] => d
  | c :: cs => (d.replicate c).2.replicates cs

end Verif
