import Verif.Model.History
import Verif.Spec.TagFiles
/-!
# What a head bag object should do
-/

namespace Verif.Spec

/-- The effect each call should have on the mapping from file to bag. -/
def lookupEffect (f : Str → Option Str) : Op → (Str → Option Str)
  | .addLookup p b => fun q => if q = p then some b else f q
  | .removeLookup p => fun q => if q = p then none else f q
  | .clearLookup => fun _ => none
  | .removeMember b => fun q => if f q = some b then none else f q
  | .addMember m true => fun q => if f q = some m.name then none else f q
  | _ => f

/-- The effect each call should have on the member list. -/
def membersEffect (ms : List MemberInfo) : Op → List MemberInfo
  | .addMember m true => ms.filter (fun x => x.name ≠ m.name) ++ [m]
  | .addMember m false => ms ++ [m]
  | .setMembers ms' => ms'
  | .removeMember b => ms.filter (fun x => x.name ≠ b)
  | _ => ms

/-- The effect each call should have on the set of deleted paths. -/
def deletedEffect (D : Str → Prop) : Op → (Str → Prop)
  | .setDeleted p => fun q => q = p ∨ D q
  | .unsetDeleted p => fun q => q ≠ p ∧ D q
  | _ => D

/-- Calls that are documented to write to the bag directory. -/
def writesDisk : Op → Bool
  | .saveMembers | .saveLookup | .saveDeleted _ | .clearLookup => true
  | _ => false

/-- The paths that lines of a lookup file name, each where it is named first. -/
def firstNamed : List (Str × Str) → List Str
  | [] => []
  | r :: rs => r.1 :: (firstNamed rs).filter (fun p => p ≠ r.1)

end Verif.Spec

namespace Verif.Spec

/-- A bag directory and its metadata that can be opened as a head bag of
profile 0.3 or later: the tag directory is not given twice, and the tag files
can be read (or are missing). -/
structure Opened (tree : Tree) (info : Info) : Prop where
  tag : ∀ l, dget info py!"Multibag-Tag-Directory" ≠ some (.many l)
  ver : verLt (profileVersion info) py!"0.3" = false
  members : ∃ ms, ((HeadBag.open tree info).memberBags).1 = .ok ms
  lookup : ∃ b, ((HeadBag.open tree info).lookupFile []).1 = .ok b
  deleted : ∃ ps, ((HeadBag.open tree info).deletedPaths).1 = .ok ps

/-- A name that can stand at the start of a tag file: clean, and not beginning
with a byte order mark (which the reader drops). -/
structure Plain (s : Str) : Prop where
  clean : Clean s
  nobom : s.head? ≠ some bom

end Verif.Spec
