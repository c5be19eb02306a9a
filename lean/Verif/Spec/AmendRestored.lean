import Verif.Spec.Amend
import Verif.Spec.Restore
/-!
# Bags that are at hand when an aggregation is restored
-/

namespace Verif.Spec

/-- For each of the bags, given by name and contents, the restorer finds a bag of this name with these contents,
which is not the destination itself. -/
def Available (E : RestoreEnv) (bags : List (Str × Tree)) : Prop :=
  ∀ nt ∈ bags, WfTree nt.2 ∧ ∃ s, E.find nt.1 = some s ∧ s.tree = nt.2 ∧ s.path ≠ E.base.bagpath

/-- The bag that has been amended, as the head bag to restore from. -/
def Amendee.restoreFrom (old : Amendee) (path : Str) : RHead :=
  { name := old.name, path := path, tree := old.tree, info := old.info, mode := old.mode }

/-- The new head bag, as an amendment leaves it, to restore from. -/
def restoreFromNew (me : NewHead) (s : HeadBag) (path : Str) (mode : TextMode) : RHead :=
  { name := me.name, path := path, tree := s.tree, info := s.info, mode := mode }

end Verif.Spec
