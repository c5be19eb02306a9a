import Verif.Model.PlanText
/-!
# Writing output bags with any names (multibag/split.py:260-399)

`Model/Apply.lean` has `apply_iter` for output bags whose names are single path components.  Here the name is any string,
which the code joins to the output directory, and the disk has absolute paths and hard links.

Simplifications: what the metadata files and manifests say is given (`Model/Apply.lean` has it), and the lines of the
manifests are written after the loop over the contents and not during it; no logger; no symbolic links.
-/

namespace Verif

/-- One thing after another, until one fails. -/
def Ended.andThen (e : Ended) (f : LDisk → Ended) : Ended :=
  match e with
  | (.ok _, d) => f d
  | (.error x, d) => (.error x, d)

/-- `os.mkdir` (split.py:276, 277, 381). -/
def LDisk.mkdirAt (d : LDisk) (s : Str) : Ended :=
  match d.mkdir ((splitOn '/' s).filter (· ≠ [])) with
  | (.made, d) => (.ok (), d)
  | (_, d) => (.error .osError, d)

/-- `io.open(path, 'w')`, writing and closing (split.py:282, 337, 383, 388, 392). -/
def LDisk.writeAt (d : LDisk) (s text : Str) : Ended :=
  match d.place s with
  | none => (.error .osError, d)
  | some p =>
    match d.write p text with
    | .ok d => (.ok (), d)
    | .error e => (.error e, d)

/-- Files written in a directory, one after another. -/
def LDisk.writeAll (dir : Str) : LDisk → List (Str × Str) → Ended
  | d, [] => (.ok (), d)
  | d, (name, text) :: ts => (d.writeAt (pathJoin dir name) text).andThen fun d => d.writeAll dir ts

/-- What is common to the output bags of a split. -/
structure BagMaking where
  /-- Directory of the source bag. -/
  bag : Str
  outdir : Str
  /-- The last parts of the names of the source's manifests (split.py:280-281). -/
  manifests : List Str := []
  hardlink : Bool := true
  /-- Whether the file system can make a hard link for an entry. -/
  canLink : Str → Bool := fun _ => true

/-- An output bag that is to be written. -/
structure Output where
  name : Str
  entries : List Str
  /-- Manifests with their lines. -/
  hashes : List (Str × Str) := []
  /-- The text of bag-info.txt. -/
  info : Str := []
  /-- The texts of member-bags.tsv, file-lookup.tsv and aggregation-info.txt of a head bag. -/
  head : Option (Str × Str × Str) := none

/-- Writing the tag files of a head bag (split.py:378-396). -/
def LDisk.writeHead (bagdir : Str) (texts : Str × Str × Str) (d : LDisk) : Ended :=
  let mbagdir := pathJoin bagdir py!"multibag"
  (if d.isdirAt mbagdir then (.ok (), d) else d.mkdirAt mbagdir : Ended).andThen fun d =>
    d.writeAll mbagdir [(py!"member-bags.tsv", texts.1), (py!"file-lookup.tsv", texts.2.1), (py!"aggregation-info.txt", texts.2.2)]

/-- The metadata of an output bag (split.py:326-331 and 335-396). -/
def LDisk.writeMeta (bagdir : Str) (o : Output) (d : LDisk) : Ended :=
  (d.writeAll bagdir o.hashes).andThen fun d =>
    (d.writeAll bagdir [(py!"bag-info.txt", o.info)]).andThen fun d =>
      match o.head with
      | none => (.ok (), d)
      | some texts => d.writeHead bagdir texts

/-- The contents of an output bag (split.py:289-333). -/
def LDisk.putAll (c : Filling) (entries : List Str) (d : LDisk) : Ended :=
  match d.putEntries c entries with
  | (.ok _, d) => (.ok (), d)
  | (.error e, d) => (.error e, d)

/-- An output bag is written (split.py:274-396). -/
def LDisk.makeBag (m : BagMaking) (d : LDisk) (o : Output) : Ended :=
  let bagdir := pathJoin m.outdir o.name
  (d.mkdirAt bagdir).andThen fun d =>
    (d.mkdirAt (pathJoin bagdir py!"data")).andThen fun d =>
      (d.writeAll bagdir (m.manifests.map fun n => (n, []))).andThen fun d =>
        (d.replicateAt { bag := m.bag, path := py!"bagit.txt", dest := bagdir, hardlink := m.hardlink,
                         canLink := m.canLink py!"bagit.txt" }).andThen fun d =>
          (d.putAll { bag := m.bag, out := bagdir, hardlink := m.hardlink, canLink := m.canLink } o.entries).andThen
            fun d => d.writeMeta bagdir o

/-- The output bags are written one after another (split.py:260-399). -/
def LDisk.makeBags (m : BagMaking) : LDisk → List Output → Ended
  | d, [] => (.ok (), d)
  | d, o :: os => (d.makeBag m o).andThen fun d => d.makeBags m os

end Verif
