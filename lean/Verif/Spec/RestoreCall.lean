import Verif.Spec.Paths
import Verif.Model.Tree
/-!
# A place for a restored bag
-/

namespace Verif.Spec

/-- A path, used in the directory `wd`, at which there is nothing yet, in a directory that exists. -/
structure NewPlace (disk : Tree) (wd : Path) (p : Str) : Prop where
  given : p ≠ []
  /-- POSIX allows two slashes at the start to have a meaning of their own -/
  single : ¬ py!"//" <+: p
  root : leadsTo wd p ≠ []
  parent : disk.isdir (leadsTo wd p).dropLast = true
  free : disk.exists (leadsTo wd p) = false

end Verif.Spec
