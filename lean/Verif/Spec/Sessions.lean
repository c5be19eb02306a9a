import Verif.Model.Sessions
/-!
# What several objects for one head bag should do
-/

namespace Verif.Spec

/-- The bag can be opened as a head bag of profile 0.3 or later, and the tag directory is not given twice. -/
structure Metadata (info : Info) : Prop where
  tag : ∀ l, dget info py!"Multibag-Tag-Directory" ≠ some (.many l)
  ver : verLt (profileVersion info) py!"0.3" = false

/-- All three lists are in memory. -/
structure AllLoaded (s : HeadBag) : Prop where
  members : s.members.isSome
  lookup : s.lookup.isSome
  deleted : s.deleted.isSome

/-- Calls that read the directory even if the lists are in memory, or forget a list. -/
def rereads : Op → Bool
  | .reloadMembers | .reloadLookup _ | .reloadDeleted | .clearLookup => true
  | _ => false

end Verif.Spec
