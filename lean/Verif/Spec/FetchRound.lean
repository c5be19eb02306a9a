import Verif.Spec.RestoreCall
import Verif.Spec.Fetching
/-!
# A head bag that has been brought somewhere
-/

namespace Verif.Spec

/-- The path `p`, used in the directory `wd`, leads to a directory of the name `name`, in which is what is in the tree `t`. -/
structure BroughtTo (disk : Tree) (wd : Path) (p : Str) (name : Str) (t : Tree) : Prop where
  given : p ≠ []
  /-- POSIX allows two slashes at the start to have a meaning of their own -/
  single : ¬ py!"//" <+: p
  /-- not a URL -/
  local_ : contains py!"://" p = false
  name_ : (leadsTo wd p).getLast? = some name
  dir : disk.isdir (leadsTo wd p) = true
  contents : disk.below (leadsTo wd p) = t

end Verif.Spec
