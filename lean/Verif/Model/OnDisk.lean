import Verif.Model.BagWalk
import Verif.Model.TagDir
/-!
# Head bag objects and the disk

The other models of head bag objects are about the directory of the bag, which a tag directory such as `../x`
leaves.  Here the updates that write are done on a whole disk.  What is written is not of interest: the texts are
arbitrary.  The bag's directory is given by an absolute path; symbolic links are not modelled.
-/

namespace Verif

/-- The disk, and the metadata that the object has in memory. -/
structure OnDisk where
  disk : Tree
  info : Info
deriving DecidableEq

/-- The result of a call, and what is there after it. -/
abbrev Done := Except PyErr Unit × OnDisk

/-- Runs a file operation. -/
def OnDisk.lift (s : OnDisk) : Except PyErr Tree → Done
  | .error e => (.error e, s)
  | .ok t => (.ok (), { s with disk := t })

/-- The components of `os.path.join(dir, *rest)`, and the directory they start from if that is used in `bagdir`. -/
def placeOf (disk : Tree) (bagdir : Path) (dir : Str) (rest : List Str) : Option Path :=
  osResolve disk (if startsWith ['/'] dir then [] else bagdir) (splitOn '/' dir ++ rest)

/-- `os.path.exists(os.path.join(bagdir, dir, *rest))`. -/
def osExists (disk : Tree) (bagdir : Path) (dir : Str) (rest : List Str) : Bool :=
  match placeOf disk bagdir dir rest with
  | none => false
  | some q => disk.exists q

/-- The place of a directory to be made: slashes at the end do not matter. -/
def mkdirPlace (disk : Tree) (bagdir : Path) (dir : Str) : Option Path :=
  osResolve disk (if startsWith ['/'] dir then [] else bagdir) ((splitOn '/' dir).reverse.dropWhile (· = [])).reverse

/-- `ensure_tagdir` (access/multibag.py:421-427). -/
def OnDisk.ensureTagdir (bagdir : Path) (s : OnDisk) : Done :=
  if osExists s.disk bagdir (tagDir s.info) [] then (.ok (), s)
  else match mkdirPlace s.disk bagdir (tagDir s.info) with
    | none => (.error .osError, s)
    | some q => s.lift (s.disk.mkdir q)

/-- `io.open(os.path.join(bagdir, tagdir, name), 'w')` and writing (access/multibag.py:438-445, 617-628, 688-690). -/
def OnDisk.writeTag (bagdir : Path) (name text : Str) (s : OnDisk) : Done :=
  match placeOf s.disk bagdir (tagDir s.info) [name] with
  | none => (.error .osError, s)
  | some q => s.lift (s.disk.write q text)

/-- `os.remove(os.path.join(bagdir, tagdir, name))`. -/
def OnDisk.removeTag (bagdir : Path) (name : Str) (s : OnDisk) : Done :=
  match placeOf s.disk bagdir (tagDir s.info) [name] with
  | none => (.error .osError, s)
  | some q => s.lift (s.disk.remove q)

/-- One after the other, unless there is an exception. -/
def Done.next (r : Done) (f : OnDisk → Done) : Done :=
  match r with
  | (.error e, s) => (.error e, s)
  | (.ok _, s) => f s

/-- The place that `os.renames` makes for its target (`os.makedirs` of the directory it is in): from where nothing
exists on only proper names may follow, as `os.makedirs` fails on `..` there. -/
def newPlace (disk : Tree) : Path → List Str → Option Path
  | cur, [] => some cur
  | cur, c :: cs =>
    if disk.isdir cur then
      if c = [] ∨ c = ['.'] then newPlace disk cur cs
      else if c = ['.', '.'] then newPlace disk cur.dropLast cs
      else newPlace disk (cur ++ [c]) cs
    else if disk.exists cur || ['.', '.'] ∈ c :: cs then none
    else some (cur ++ (c :: cs).filter (fun x => x ≠ [] && x ≠ ['.']))

/-- `set_multibag_tag_dir(dirname, migrate)` (access/multibag.py:338-365).  `os.path.join` of parts without slashes
is a relative path.  Directories made before `os.renames` fails are not kept. -/
def OnDisk.setTagDir (bagdir : Path) (dirname : Str) (migrate : Bool) (s : OnDisk) : Done :=
  let dirname := osJoin (splitOn '/' dirname)
  if dirname = tagDir s.info then (.ok (), s)
  else
    let moved : Except PyErr Tree :=
      if migrate then
        if osExists s.disk bagdir dirname [] then .error .runtimeError
        else match placeOf s.disk bagdir (tagDir s.info) [] with
          | none => .ok s.disk
          | some old =>
            if s.disk.exists old then
              match newPlace s.disk bagdir (splitOn '/' dirname) with
              | none => .error .osError
              | some new => s.disk.renames old new
            else .ok s.disk
      else .ok s.disk
    match moved with
    | .error e => (.error e, s)
    | .ok t => (.ok (), { disk := t, info := dset s.info py!"Multibag-Tag-Directory" (.one dirname) })

/-- What a program does with a head bag object that writes to the disk, or decides where later calls write.  The
lists in memory are given by the text that is written. -/
inductive DiskAct where
  /-- `ensure_tagdir` -/
  | ensureTagdir
  /-- `save_member_bags` (access/multibag.py:429-445) -/
  | saveMembers (text : Str)
  /-- `save_file_lookup` (access/multibag.py:609-628) -/
  | saveLookup (text : Str)
  /-- `clear_file_lookup` (access/multibag.py:630-638) -/
  | clearLookup
  /-- `save_deleted` (access/multibag.py:674-690) -/
  | saveDeleted (paths : List Str)
  /-- `set_multibag_tag_dir` -/
  | setTagDir (dirname : Str) (migrate : Bool)
  /-- the beginning of an amendment (amend.py:237-247): an old member list goes -/
  | amend
  /-- the metadata are changed: `bag.info` is public -/
  | setInfo (info : Info)

/-- One such action. -/
def OnDisk.act (bagdir : Path) (s : OnDisk) : DiskAct → Done
  | .ensureTagdir => s.ensureTagdir bagdir
  | .saveMembers text => (s.ensureTagdir bagdir).next (OnDisk.writeTag bagdir py!"member-bags.tsv" text)
  | .saveLookup text => (s.ensureTagdir bagdir).next (OnDisk.writeTag bagdir py!"file-lookup.tsv" text)
  | .clearLookup =>
    if osExists s.disk bagdir (tagDir s.info) [py!"file-lookup.tsv"] then s.removeTag bagdir py!"file-lookup.tsv"
    else (.ok (), s)
  | .saveDeleted paths =>
    ((if paths = [] ∧ osExists s.disk bagdir (tagDir s.info) [py!"deleted.txt"] then
        s.removeTag bagdir py!"deleted.txt"
      else (.ok (), s)).next (OnDisk.ensureTagdir bagdir)).next
        (OnDisk.writeTag bagdir py!"deleted.txt" (deletedText paths))
  | .setTagDir dirname migrate => s.setTagDir bagdir dirname migrate
  | .amend =>
    match placeOf s.disk bagdir (tagDir s.info) [py!"member-bags.tsv"] with
    | none => s.ensureTagdir bagdir
    | some q => if s.disk.isfile q then s.lift (s.disk.remove q) else s.ensureTagdir bagdir
  | .setInfo info => (.ok (), { s with info := info })

/-- A program goes on after an exception, or not: what is there after any number of actions. -/
def OnDisk.acts (bagdir : Path) (s : OnDisk) : List DiskAct → OnDisk
  | [] => s
  | a :: rest => OnDisk.acts bagdir (s.act bagdir a).2 rest

end Verif
