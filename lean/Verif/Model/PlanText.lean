import Verif.Model.ReplicateText
/-!
# Filling an output bag from a plan with any strings (multibag/split.py:287-333)

`Model/Apply.lean` has the whole of `apply_iter` for plans whose entries are plain paths.  Here the entries are any strings,
and the loop over the contents of one output bag works on a disk with absolute paths and hard links.

Simplifications: no logger; the metadata and manifests are not written; symbolic links are not modelled.
-/

namespace Verif

/-- An output bag to be filled from a writable bag. -/
structure Filling where
  /-- Directory of the source bag. -/
  bag : Str
  /-- Directory of the output bag, `os.path.join(outdir, bagname)` (split.py:275). -/
  out : Str
  /-- `replicate_with_hardlink`, which `apply_iter` sets (split.py:232-233). -/
  hardlink : Bool := true
  /-- Whether the file system can make a hard link for an entry. -/
  canLink : Str → Bool := fun _ => true

/-- `exists` of a writable bag (access/extended.py:267-276). -/
def LDisk.inBag (d : LDisk) (bag path : Str) : Bool :=
  match canonPath bag path with
  | some q => d.existsAt q
  | none => false

/-- `isdir` of a writable bag (access/extended.py:278-287). -/
def LDisk.dirInBag (d : LDisk) (bag path : Str) : Bool :=
  match canonPath bag path with
  | some q => d.isdirAt q
  | none => false

/-- `os.path.isfile` (split.py:313). -/
def LDisk.isfileAt (d : LDisk) (s : Str) : Bool :=
  match d.place s with
  | some p =>
    match dget d.names p with
    | some (.file _) => true
    | _ => false
  | none => false

/-- One round of the loop over the contents of an output bag (split.py:289-315); `true` if the entry is then recorded in the
lookup list (split.py:333). -/
def LDisk.putEntry (c : Filling) (d : LDisk) (file : Str) : Except PyErr Bool × LDisk :=
  if !d.inBag c.bag file then (.ok false, d)
  else
    let opath := pathJoin c.out file
    if d.dirInBag c.bag file then
      if d.existsAt opath then (.ok false, d)
      else
        match d.makedirsAt opath with
        | (.ok _, d) => (.ok false, d)
        | (.error e, d) => (.error e, d)
    else
      match (if d.existsAt (dirName opath) then (.ok (), d) else d.makedirsAt (dirName opath) : Ended) with
      | (.error e, d) => (.error e, d)
      | (.ok _, d) =>
        match d.replicateAt { bag := c.bag, path := file, dest := c.out, hardlink := c.hardlink, canLink := c.canLink file } with
        | (.error e, d) => (.error e, d)
        | (.ok _, d) => if d.isfileAt opath then (.ok true, d) else (.error .runtimeError, d)

/-- The loop over the contents of an output bag (split.py:289-333), with the entries recorded in the lookup list. -/
def LDisk.putEntries (c : Filling) : LDisk → List Str → Except PyErr (List Str) × LDisk
  | d, [] => (.ok [], d)
  | d, f :: fs =>
    match d.putEntry c f with
    | (.error e, d) => (.error e, d)
    | (.ok b, d) =>
      match d.putEntries c fs with
      | (.error e, d) => (.error e, d)
      | (.ok l, d) => (.ok (if b then f :: l else l), d)

end Verif
