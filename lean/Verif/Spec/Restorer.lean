import Verif.Spec.Paths
/-!
# Where a restorer should look for member bags
-/

namespace Verif.Spec

/-- The extensions of serialized bags that are supported (docs of `find_member_bag`; access/bagit.py:606-612). -/
def serialized : List Str := [py!".zip", py!".tar", py!".tar.gz", py!".tar.bz2", py!".tgz"]

/-- The bag `name` is in the directory `dir` as a directory. -/
def HasUnpacked (disk : Tree) (dir : Path) (name : Str) : Prop := disk.isdir (dir ++ [name]) = true

/-- The bag `name` is in the directory `dir` as an archive with this extension. -/
def HasArchive (disk : Tree) (dir : Path) (name ext : Str) : Prop :=
  ext ∈ serialized ∧ disk.isfile (dir ++ [name ++ ext]) = true

/-- Nothing in the directory `dir` is the bag `name`. -/
def Absent (disk : Tree) (dir : Path) (name : Str) : Prop :=
  ¬ HasUnpacked disk dir name ∧ ∀ ext, ¬ HasArchive disk dir name ext

/-- `q` is the bag `name` in the directory `dir`: the directory, or one of the archives if there is no
directory. -/
def IsMember (disk : Tree) (dir : Path) (name : Str) (q : Path) : Prop :=
  HasUnpacked disk dir name ∧ q = dir ++ [name] ∨
  ¬ HasUnpacked disk dir name ∧ ∃ ext, HasArchive disk dir name ext ∧ q = dir ++ [name ++ ext]

/-- Directories may be added, and nothing else changes. -/
def OnlyDirsAdded (disk disk' : Tree) (places : Path → Prop) : Prop :=
  ∀ q, dget disk' q = dget disk q ∨ (dget disk q = none ∧ dget disk' q = some .dir ∧ places q)

/-- The contents of the file at `p` in the last of these bags, directories in `dir`, that has one. -/
def lastWith (disk : Tree) (dir : Path) : List Str → Path → Option Str
  | [], _ => none
  | n :: ns, p => (lastWith disk dir ns p).or (disk.read (dir ++ n :: p))

end Verif.Spec
