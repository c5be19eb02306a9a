import Verif.Spec.Restorer
import Verif.Model.Restorer
/-!
# What a member bag holds, as a directory or as an archive
-/

namespace Verif.Spec

/-- The bag `name` in the directory `dir` has the contents `t`: they are those of the directory, or, if there
is no directory, those of the archive; several archives have the same contents. -/
def MemberHas (disk : Tree) (archives : Path → Option Tree) (dir : Path) (name : Str) (t : Tree) : Prop :=
  HasUnpacked disk dir name ∧ t = disk.below (dir ++ [name]) ∨
  ¬ HasUnpacked disk dir name ∧ (∃ ext, HasArchive disk dir name ext) ∧
    ∀ ext, HasArchive disk dir name ext → archives (dir ++ [name ++ ext]) = some t

end Verif.Spec
