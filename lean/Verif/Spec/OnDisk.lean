import Verif.Model.OnDisk
import Verif.Spec.Paths
/-!
# Tag directories in the bag
-/

namespace Verif.Spec

/-- Every tag directory that the action names leads to the directory of the bag or to something in it.  (The argument
of `set_multibag_tag_dir` is always taken relative to the bag.) -/
def NamesInside (bagdir : Path) : DiskAct → Prop
  | .setInfo info => Inside bagdir (leadsTo bagdir (tagDir info))
  | .setTagDir dirname _ => Inside bagdir (follow bagdir (splitOn '/' dirname))
  | _ => True

/-- A relative path without `..`. -/
def Downwards (p : Str) : Prop := p.head? ≠ some '/' ∧ py!".." ∉ splitOn '/' p

/-- Following the path, every step starts from a directory that is there. -/
def Passable (disk : Tree) (cwd : Path) (p : Str) : Prop :=
  ∀ a b, splitOn '/' p = a ++ b → disk.isdir (follow (if p.head? = some '/' then [] else cwd) a) = true

end Verif.Spec
