import Verif.Model.Amend
/-!
# The states a bag goes through while it is amended or converted (multibag/amend.py)

Beside each operation that writes to the bag's directory, the list of the states of the directory in the order in
which they occur, for a run of the operation that does not fail.  Opening a file for writing empties it; its text then
arrives from the beginning on.

Simplifications: the operating system does not reorder the writes to different files; removing a file and making a
directory are one step each.
-/

namespace Verif

/-- The states while `open(p, 'w')` and writing the text `c` are under way (for instance access/multibag.py:439-445). -/
def tornWrites (t : Tree) (p : Path) (c : Str) : List Tree :=
  (List.range (c.length + 1)).filterMap (fun k => (t.write p (c.take k)).toOption)

/-- `save_member_bags` (access/multibag.py:429-445). -/
def HeadBag.saveMemberBagsStates (s : HeadBag) : List Tree :=
  match s.members with
  | none => [s.tree]
  | some ms =>
    s.tree :: s.ensureTagdir.2.tree ::
      tornWrites s.ensureTagdir.2.tree (tagFile (tagDir s.info) py!"member-bags.tsv") (membersWritten ms).1

/-- `save_file_lookup` (access/multibag.py:609-628). -/
def HeadBag.saveFileLookupStates (s : HeadBag) : List Tree :=
  match s.lookup with
  | none => [s.tree]
  | some d =>
    s.tree :: s.ensureTagdir.2.tree ::
      tornWrites s.ensureTagdir.2.tree (tagFile (tagDir s.info) py!"file-lookup.tsv") (lookupText d)

/-- Writing the tag manifests in `Bag.save()` of the external `bagit` package. -/
def writeTagManifestsStates (sum : Str → Str → Str) : List Str → Tree → List Tree
  | [], t => [t]
  | alg :: rest, t =>
    let text := ((taggedFiles t).map (fun pc => hashLine (sum alg pc.2) (joinPath pc.1))).flatten
    t :: tornWrites t (manPath py!"tagmanifest" alg) text ++
      match t.write (manPath py!"tagmanifest" alg) text with
      | .error _ => []
      | .ok t => writeTagManifestsStates sum rest t

/-- `Bag.save()` of the external `bagit` package. -/
def HeadBag.saveInfoStates (E : SaveEnv) (s : HeadBag) : List Tree :=
  s.tree :: tornWrites s.tree [py!"bag-info.txt"] (fieldsText (tagFields s.info)) ++
    match s.tree.write [py!"bag-info.txt"] (fieldsText (tagFields s.info)) with
    | .error _ => []
    | .ok t => writeTagManifestsStates E.sum E.algs t

/-- `update_info` (access/multibag.py:692-724). -/
def HeadBag.updateInfoStates (E : SaveEnv) (s : HeadBag) (version : Option Str) (profver : Str) : List Tree :=
  let s1 := (({ s with info := headInfo version profver s.info } : HeadBag).saveInfo E).2
  ({ s with info := headInfo version profver s.info } : HeadBag).saveInfoStates E ++
    ({ s1 with info := dset s1.info py!"Bag-Size" (.one (E.size s1.tree)) } : HeadBag).saveInfoStates E

/-- `init_from_amendee` (amend.py:222-269): the old member list goes (or the tag directory is made), then the old lookup
list; the rest is done in memory. -/
def HeadBag.initFromStates (s : HeadBag) (keep : Bool) (old : Amendee) : List Tree :=
  let s1 := (({ s with info := initInfo keep old.info s.info } : HeadBag).initMembers old).2
  [s.tree, s1.tree, (s1.initLookup old).2.tree]

/-- `finalize` (amend.py:326-355). -/
def HeadBag.finalizeStates (E : SaveEnv) (s : HeadBag) (me : NewHead) (version : Str) : List Tree :=
  let s1 := (s.addMemberBag ⟨me.name, me.uri, me.comment, me.extra⟩).2
  let s2 := (s1.updateForMember false s1.tree me.name me.incl me.excl false).2
  let s3 := s2.saveMemberBags.2
  let s4 := s3.saveFileLookup.2
  s2.saveMemberBagsStates ++ s3.saveFileLookupStates ++
    s4.updateInfoStates E (some version) (profileVersion s4.info)

/-- An amendment from start to end (amend.py:173-177); `add_amending_bag` writes nothing (amend.py:290-324). -/
def amendStates (E : SaveEnv) (keep : Bool) (old : Amendee) (me : NewHead) (version : Str) (bags : List Amending)
    (s : HeadBag) : List Tree :=
  let s1 := (s.initFrom keep old).2
  s.initFromStates keep old ++ (s1.addAllAmending bags).2.finalizeStates E me version

/-- `write_member_bags(pid)` (amend.py:61-77). -/
def HeadBag.writeMemberBagsStates (E : SaveEnv) (s : HeadBag) (dir : Str) (pid : Option Str) : List Tree :=
  let s1 := if noProfile s.info then (s.updateInfo E (some py!"1") CURRENT_VERSION).2 else s
  (if noProfile s.info then s.updateInfoStates E (some py!"1") CURRENT_VERSION else [s.tree]) ++
    (s1.setMemberBags [⟨baseName dir, pid, none, []⟩]).2.saveMemberBagsStates

/-- `write_file_lookup(include, exclude, trunc)` (amend.py:79-110). -/
def HeadBag.writeFileLookupStates (E : SaveEnv) (s : HeadBag) (dir : Str) (incl excl : Arg) (trunc : Bool) : List Tree :=
  let s1 := if noProfile s.info then (s.updateInfo E (some py!"1") CURRENT_VERSION).2 else s
  let s2 := if trunc then s1.clearFileLookup.2 else s1
  (if noProfile s.info then s.updateInfoStates E (some py!"1") CURRENT_VERSION else [s.tree]) ++
    (s2.updateForMember false s2.tree (baseName (rstripBy (fun c => c = '/') dir)) incl excl false).2.saveFileLookupStates

/-- `convert(version, pid)` (amend.py:122-137). -/
def HeadBag.convertStates (E : SaveEnv) (s : HeadBag) (dir version : Str) (pid : Option Str) : List Tree :=
  let s1 := (s.writeMemberBags E dir pid).2
  let s2 := (s1.writeFileLookup E dir .none .none true).2
  s.writeMemberBagsStates E dir pid ++ s1.writeFileLookupStates E dir .none .none true ++
    s2.updateInfoStates E (some version) CURRENT_VERSION

end Verif
