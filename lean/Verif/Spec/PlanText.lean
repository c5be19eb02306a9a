import Verif.Model.PlanText
import Verif.Spec.ReplicateText
import Verif.Spec.OnDisk
/-!
# Plans with any strings
-/

namespace Verif.Spec

/-- A disk on which there are two directories, neither in the other; the files in the second have no other names. -/
structure TwoDirs (d : LDisk) (B D : Path) : Prop where
  rooted : Rooted d
  inodes : InodesOk d
  unshared : ∀ x q i, dget d.names (D ++ x) = some (.file i) → dget d.names q = some (.file i) → q = D ++ x
  source : d.isdir B = true
  target : d.isdir D = true
  outside : ¬ Inside B D
  apart : ¬ Inside D B

end Verif.Spec
