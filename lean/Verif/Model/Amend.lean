import Verif.Model.UpdateMember
import Verif.Model.Restore
/-!
# Amending an aggregation and converting a bag (multibag/amend.py)

`Amender`, `amend_bag_with`, `SingleMultibagMaker` and `make_single_multibag`.

Simplifications: the bag to be amended, the amending bags and the new head bag are different
directories; if an iteration over the old tag files fails half way, the entries read before are
not kept in the (failed) object's memory.  The list of deprecated versions is the same Python
object in the old and the new metadata; changing it does not reach the old bag's directory
unless the old bag object is saved by the caller.
-/

namespace Verif

/-! ## Saving the metadata -/

/-- What `Bag.save` and `_bag_size` depend on: the bag's checksum algorithms, checksums, and the
text for the size of a directory. -/
structure SaveEnv where
  algs : List Str
  sum : Str → Str → Str
  size : Tree → Str

/-- `Bag.save()` of the external `bagit` package for an updatable head bag: bag-info.txt and the
tag manifests are written.  Not modelled: the manifests are reloaded, which cannot change what
follows. -/
def HeadBag.saveInfo (E : SaveEnv) (s : HeadBag) : Res Unit :=
  match s.tree.write [py!"bag-info.txt"] (fieldsText (tagFields s.info)) with
  | .error e => (.error e, s)
  | .ok t =>
    match writeTagManifests E.sum E.algs t with
    | .error e => (.error e, s)
    | .ok t => (.ok (), { s with tree := t })

/-- `update_info` with its effect on the bag directory (access/multibag.py:692-724). -/
def HeadBag.updateInfo (E : SaveEnv) (s : HeadBag) (version : Option Str) (profver : Str) : Res Unit :=
  match ({ s with info := headInfo version profver s.info } : HeadBag).saveInfo E with
  | (.error e, s) => (.error e, s)
  | (.ok _, s) =>
    ({ s with info := dset s.info py!"Bag-Size" (.one (E.size s.tree)) } : HeadBag).saveInfo E

/-! ## The amender -/

/-- The bag to be amended, opened (amend.py:211-215).  `mode` and `readonly` tell how it was
opened. -/
structure Amendee where
  name : Str
  tree : Tree
  info : Info
  mode : TextMode
  readonly : Bool

/-- An amending bag with the arguments of `add_amending_bag` (amend.py:290-324). -/
structure Amending where
  name : Str
  tree : Tree
  readonly : Bool := true
  incl : Arg := .none
  excl : Arg := .none
  uri : Option Str := none
  comment : Option Str := none
  extra : List Str := []

/-- `is_head_multibag` (access/extended.py:191-197). -/
def isHeadInfo (info : Info) : Bool := dmem info py!"Multibag-Head-Version"

/-- `str(l)` for a list of strings without quotes, backslashes and unprintable characters; it is
what saving makes of a list inside a list. -/
def listRepr (l : List Str) : Str :=
  py!"[" ++ (py!", ").intercalate (l.map (fun s => py!"'" ++ s ++ py!"'")) ++ py!"]"

/-- The value appended to the deprecated versions (amend.py:287-288), as it will be saved. -/
def oldVersion (old : Info) : Str :=
  match dget old py!"Multibag-Head-Version" with
  | none => py!"1"
  | some (.one v) => v
  | some (.many l) => listRepr l

/-- The versions the old head deprecates (amend.py:278-285). -/
def oldDeprecates (old : Info) : List Str :=
  match dget old py!"Multibag-Head-Deprecates" with
  | none => []
  | some v => v.values

/-- The profile version for the new head bag (amend.py:272-275). -/
def newProfile (keep : Bool) (old : Info) : InfoVal :=
  if keep then (dget old py!"Multibag-Version").getD (.one CURRENT_VERSION) else .one CURRENT_VERSION

/-- `_init_multibag_info` (amend.py:271-288): the new head bag's metadata, in memory. -/
def initInfo (keep : Bool) (old new : Info) : Info :=
  let new := dset new py!"Multibag-Version" (newProfile keep old)
  dset new py!"Multibag-Head-Deprecates" (.many (oldDeprecates old ++ [oldVersion old]))

/-- Calls of `add_member_bag` for the members of the old head (amend.py:251-253). -/
def HeadBag.addMembers (s : HeadBag) : List MemberInfo → Res Unit
  | [] => (.ok (), s)
  | m :: ms =>
    match s.addMemberBag m with
    | (.error e, s) => (.error e, s)
    | (.ok _, s) => s.addMembers ms

/-- `_init_member_bags` (amend.py:238-255). -/
def HeadBag.initMembers (s : HeadBag) (old : Amendee) : Res Unit :=
  let target := tagFile (tagDir s.info) py!"member-bags.tsv"
  let cleared : Res Unit :=
    if s.tree.isfile target then
      match s.tree.remove target with
      | .error e => (.error e, s)
      | .ok t => (({ s with tree := t } : HeadBag).memberBags true).void
    else s.ensureTagdir
  match cleared with
  | (.error e, s) => (.error e, s)
  | (.ok _, s) =>
    if isHeadInfo old.info then
      match iterMembers old.mode old.tree old.info with
      | .error e => (.error e, s)
      | .ok ms => s.addMembers ms
    else s.addMemberBag ⟨old.name, none, none, []⟩

/-- Calls of `add_file_lookup` for the entries of the old head (amend.py:264-265). -/
def HeadBag.addLookups (s : HeadBag) : List (Str × Str) → Res Unit
  | [] => (.ok (), s)
  | e :: es =>
    match s.addFileLookup e.1 e.2 with
    | (.error x, s) => (.error x, s)
    | (.ok _, s) => s.addLookups es

/-- `_init_file_lookup` (amend.py:257-269). -/
def HeadBag.initLookup (s : HeadBag) (old : Amendee) : Res Unit :=
  match s.clearFileLookup with
  | (.error e, s) => (.error e, s)
  | (.ok _, s) =>
    if isHeadInfo old.info then
      match iterLookup old.mode old.tree old.info with
      | .error e => (.error e, s)
      | .ok es => s.addLookups es
    else s.updateForMember old.readonly old.tree old.name .none .none false

/-- `init_from_amendee` (amend.py:222-236). -/
def HeadBag.initFrom (s : HeadBag) (keep : Bool) (old : Amendee) : Res Unit :=
  match ({ s with info := initInfo keep old.info s.info } : HeadBag).initMembers old with
  | (.error e, s) => (.error e, s)
  | (.ok _, s) => s.initLookup old

/-- `add_amending_bag` (amend.py:290-324). -/
def HeadBag.addAmending (s : HeadBag) (b : Amending) : Res Unit :=
  match s.addMemberBag ⟨b.name, b.uri, b.comment, b.extra⟩ with
  | (.error e, s) => (.error e, s)
  | (.ok _, s) => s.updateForMember b.readonly b.tree b.name b.incl b.excl false

/-- The loop of `amend_bag_with` (amend.py:175-176). -/
def HeadBag.addAllAmending (s : HeadBag) : List Amending → Res Unit
  | [] => (.ok (), s)
  | b :: bs =>
    match s.addAmending b with
    | (.error e, s) => (.error e, s)
    | (.ok _, s) => s.addAllAmending bs

/-- What the amender knows about the new head bag itself (amend.py:215-220, 326). -/
structure NewHead where
  name : Str
  incl : Arg := .none
  excl : Arg := .none
  uri : Option Str := none
  comment : Option Str := none
  extra : List Str := []

/-- `finalize` (amend.py:326-355). -/
def HeadBag.finalize (E : SaveEnv) (s : HeadBag) (me : NewHead) (version : Str) : Res Unit :=
  match s.addMemberBag ⟨me.name, me.uri, me.comment, me.extra⟩ with
  | (.error e, s) => (.error e, s)
  | (.ok _, s) =>
    match s.updateForMember false s.tree me.name me.incl me.excl false with
    | (.error e, s) => (.error e, s)
    | (.ok _, s) =>
      match s.saveMemberBags with
      | (.error e, s) => (.error e, s)
      | (.ok _, s) =>
        match s.saveFileLookup with
        | (.error e, s) => (.error e, s)
        | (.ok _, s) => s.updateInfo E (some version) (profileVersion s.info)

/-- An amendment with an `Amender` from start to end (amend.py:173-177, with the profile version
and the arguments for the bags chosen by the caller). -/
def amend (E : SaveEnv) (keep : Bool) (old : Amendee) (me : NewHead) (version : Str) (bags : List Amending)
    (s : HeadBag) : Res Unit :=
  match s.initFrom keep old with
  | (.error e, s) => (.error e, s)
  | (.ok _, s) =>
    match s.addAllAmending bags with
    | (.error e, s) => (.error e, s)
    | (.ok _, s) => s.finalize E me version

/-! ## Converting a single bag -/

/-- `os.path.basename`. -/
def baseName (s : Str) : Str := (splitOn '/' s).getLast?.getD []

/-- `not self.bag.info.get('Multibag-Version')` (amend.py:71, 103). -/
def noProfile (info : Info) : Bool :=
  match dget info py!"Multibag-Version" with
  | none => true
  | some (.one v) => v = []
  | some (.many l) => l = []

/-- `write_member_bags(pid)` (amend.py:61-77).  `dir` is the path that was given for the bag. -/
def HeadBag.writeMemberBags (E : SaveEnv) (s : HeadBag) (dir : Str) (pid : Option Str) : Res Unit :=
  let updated : Res Unit := if noProfile s.info then s.updateInfo E (some py!"1") CURRENT_VERSION else (.ok (), s)
  match updated with
  | (.error e, s) => (.error e, s)
  | (.ok _, s) =>
    match s.setMemberBags [⟨baseName dir, pid, none, []⟩] with
    | (.error e, s) => (.error e, s)
    | (.ok _, s) => s.saveMemberBags

/-- `write_file_lookup(include, exclude, trunc)` (amend.py:79-110).  The bag's name is the last
part of the path without slashes at its end (access/extended.py:228-229). -/
def HeadBag.writeFileLookup (E : SaveEnv) (s : HeadBag) (dir : Str) (incl excl : Arg) (trunc : Bool) : Res Unit :=
  let updated : Res Unit := if noProfile s.info then s.updateInfo E (some py!"1") CURRENT_VERSION else (.ok (), s)
  match updated with
  | (.error e, s) => (.error e, s)
  | (.ok _, s) =>
    let cleared : Res Unit := if trunc then s.clearFileLookup else (.ok (), s)
    match cleared with
    | (.error e, s) => (.error e, s)
    | (.ok _, s) =>
      match s.updateForMember false s.tree (baseName (rstripBy (fun c => c = '/') dir)) incl excl false with
      | (.error e, s) => (.error e, s)
      | (.ok _, s) => s.saveFileLookup

/-- `convert(version, pid)` (amend.py:122-137). -/
def HeadBag.convert (E : SaveEnv) (s : HeadBag) (dir version : Str) (pid : Option Str) : Res Unit :=
  match s.writeMemberBags E dir pid with
  | (.error e, s) => (.error e, s)
  | (.ok _, s) =>
    match s.writeFileLookup E dir .none .none true with
    | (.error e, s) => (.error e, s)
    | (.ok _, s) => s.updateInfo E (some version) CURRENT_VERSION

end Verif
