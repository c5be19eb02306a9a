import Verif.Spec.Replicate
import Verif.Model.ReplicateText
/-!
# Disks as trees
-/

namespace Verif.Spec

/-- Everything on the disk is in a directory. -/
def Rooted (d : LDisk) : Prop := ∀ x y, y ≠ [] → d.exists (x ++ y) = true → d.isdir x = true

/-- The components of the path string can be followed from the directory `dir`: each is looked up in a directory that is
there (also those that are left again by `..`). -/
def CanFollow (d : LDisk) (dir : Path) (path : Str) : Prop :=
  ∀ x y, splitOn '/' path = x ++ y → y ≠ [] → d.isdir (follow dir x) = true

end Verif.Spec
