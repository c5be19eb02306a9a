import Verif.Model.HeadBag
/-!
# Histories of calls on a head bag object
-/

namespace Verif

/-- A call on an open `HeadBag`.  The `reload*` calls are the queries with
`reread=True`; `saveDeleted` carries the iteration order of the set. -/
inductive Op where
  | addMember (m : MemberInfo) (override : Bool)
  | setMembers (ms : List MemberInfo)
  | removeMember (bag : Str)
  | addLookup (p bag : Str)
  | removeLookup (p : Str)
  | clearLookup
  | setDeleted (p : Str)
  | unsetDeleted (p : Str)
  | saveMembers | saveLookup | saveDeleted (enum : List Str → List Str)
  | memberBags | lookupFile (p : Str) | filesInMember (bag : Str) | deletedPaths
  | reloadMembers | reloadLookup (p : Str) | reloadDeleted

/-- Drop the value of a result. -/
def Res.void {α : Type} : Res α → Res Unit
  | (.ok _, s) => (.ok (), s)
  | (.error e, s) => (.error e, s)

/-- Perform one call. -/
def step (s : HeadBag) : Op → Res Unit
  | .addMember m ov => s.addMemberBag m ov
  | .setMembers ms => s.setMemberBags ms
  | .removeMember b => s.removeMemberBag b
  | .addLookup p b => s.addFileLookup p b
  | .removeLookup p => s.removeFileLookup p
  | .clearLookup => s.clearFileLookup
  | .setDeleted p => s.setDeleted p
  | .unsetDeleted p => s.unsetDeleted p
  | .saveMembers => s.saveMemberBags
  | .saveLookup => s.saveFileLookup
  | .saveDeleted e => s.saveDeleted e
  | .memberBags => (s.memberBags).void
  | .lookupFile p => (s.lookupFile p).void
  | .filesInMember b => (s.filesInMember b).void
  | .deletedPaths => (s.deletedPaths).void
  | .reloadMembers => (s.memberBags true).void
  | .reloadLookup p => (s.lookupFile p true).void
  | .reloadDeleted => (s.deletedPaths true).void

/-- Perform calls one after the other; `none` if one of them raised. -/
def runOk : List Op → HeadBag → Option HeadBag
  | [], s => some s
  | op :: ops, s =>
    match step s op with
    | (.ok _, s') => runOk ops s'
    | (.error _, _) => none

/-- Perform calls one after the other, carrying on after exceptions. -/
def runAll (ops : List Op) (s : HeadBag) : HeadBag := ops.foldl (fun s op => (step s op).2) s

end Verif
