import Verif.Model.AmendStopped
/-!
# The states a head bag goes through while one of its lists is saved (multibag/access/multibag.py:429-445, 609-628, 674-690)

As in `Model/AmendStopped.lean`: the states of the directory in the order in which they occur, with the same
simplifications.
-/

namespace Verif

/-- The bag after lines 684-685 of `save_deleted` (access/multibag.py:684-685): an existing list of deletions is removed when nothing is deleted. -/
def HeadBag.emptiedDeleted (s : HeadBag) (ps : List Str) : HeadBag :=
  if ps = [] ∧ s.tree.exists (deletedFile s.info) then
    match s.tree.remove (deletedFile s.info) with
    | .error _ => s
    | .ok t => { s with tree := t }
  else s

/-- `save_deleted` (access/multibag.py:674-690). -/
def HeadBag.saveDeletedStates (s : HeadBag) (enum : List Str → List Str) : List Tree :=
  match s.deleted with
  | none => [s.tree]
  | some ps =>
    s.tree :: (s.emptiedDeleted ps).tree :: (s.emptiedDeleted ps).ensureTagdir.2.tree ::
      tornWrites (s.emptiedDeleted ps).ensureTagdir.2.tree (deletedFile s.info) (deletedText (enum ps))

/-- The three calls that write a list of a head bag: `save_member_bags` (access/multibag.py:429-445), `save_file_lookup`
(access/multibag.py:609-628) and `save_deleted` (access/multibag.py:674-690, with the order in which the set is gone
through). -/
inductive ListSave where
  | members | lookup | deleted (enum : List Str → List Str)

/-- The call (access/multibag.py:429-445, 609-628, 674-690). -/
def ListSave.run (s : HeadBag) : ListSave → Res Unit
  | .members => s.saveMemberBags
  | .lookup => s.saveFileLookup
  | .deleted enum => s.saveDeleted enum

/-- The states during the call (access/multibag.py:429-445, 609-628, 674-690). -/
def ListSave.states (s : HeadBag) : ListSave → List Tree
  | .members => s.saveMemberBagsStates
  | .lookup => s.saveFileLookupStates
  | .deleted enum => s.saveDeletedStates enum

end Verif
