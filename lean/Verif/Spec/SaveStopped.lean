import Verif.Model.SaveStopped
/-!
# What may be left of a list whose writing is stopped
-/

namespace Verif.Spec

/-- The name of the file the list is kept in, in the tag directory. -/
def listFileName : ListSave → Str
  | .members => py!"member-bags.tsv"
  | .lookup => py!"file-lookup.tsv"
  | .deleted _ => py!"deleted.txt"

/-- The first entries of a list, possibly followed by a wrong version of the next one. -/
def CutShort {α : Type} (wrong : α → α → Prop) (full left : List α) : Prop :=
  ∃ j, left = full.take j ∨ ∃ a b, full[j]? = some a ∧ wrong a b ∧ left = full.take j ++ [b]

end Verif.Spec
