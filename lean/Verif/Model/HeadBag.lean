import Verif.Model.TagFiles
import Verif.Model.Tree
/-!
# The head bag object (multibag/access/multibag.py:143-724)

The state of an open `HeadBag` is the bag directory, the in-memory bag-info
metadata and the three caches (`_memberbags`, `_filelu`, `_deleted`).  Methods
are functions from the state to a result and a state; the state reached before
an exception is kept.
-/

namespace Verif

/-- A value in `Bag.info`: a string, or a list when the tag is repeated
(`bagit._load_tag_file`). -/
inductive InfoVal where
  | one (s : Str)
  | many (l : List Str)
deriving DecidableEq, Repr

/-- `Bag.info`. -/
abbrev Info := List (Str × InfoVal)

/-- State of a `HeadBag` instance (access/multibag.py:149-158, 796-816). -/
structure HeadBag where
  tree : Tree
  info : Info
  members : Option (List MemberInfo) := none
  lookup : Option (List (Str × Str)) := none
  deleted : Option (List Str) := none
deriving DecidableEq

/-- Result of a method call, with the state after it. -/
abbrev Res (α : Type) := Except PyErr α × HeadBag

/-- A freshly opened head bag: all caches empty (access/multibag.py:156-158). -/
def HeadBag.open (tree : Tree) (info : Info) : HeadBag := { tree := tree, info := info }

/-- `_get_required_info_item` (access/multibag.py:180-189). -/
def infoItem (info : Info) (name : Str) : Except PyErr Str :=
  match dget info name with
  | none => .error .multibagError
  | some (.one s) => .ok s
  | some (.many l) =>
    match l.getLast? with
    | none => .error .multibagError
    | some s => .ok s

/-- `head_version` (access/multibag.py:160-166). -/
def HeadBag.headVersion (s : HeadBag) : Except PyErr Str := infoItem s.info py!"Multibag-Head-Version"

/-- `profile_version` (access/multibag.py:168-178). -/
def profileVersion (info : Info) : Str :=
  match infoItem info py!"Multibag-Version" with
  | .ok v => v
  | .error _ => CURRENT_VERSION

/-- `multibag_tag_dir` (access/multibag.py:191-200). -/
def tagDir (info : Info) : Str :=
  match dget info py!"Multibag-Tag-Directory" with
  | none => py!"multibag"
  | some (.one s) => s
  | some (.many l) => l.getLast?.getD py!"multibag"

/-- The tag directory as used by `iter_member_bags` and `iter_file_lookup`
(access/multibag.py:208, 212, 248, 252): the raw value; joining a list value
raises `TypeError`. -/
def readerTagDir (info : Info) : Except PyErr Str :=
  match dget info py!"Multibag-Tag-Directory" with
  | none => .ok py!"multibag"
  | some (.one s) => .ok s
  | some (.many _) => .error .typeError

/-- Path of a tag file below a tag directory. -/
def tagFile (dir name : Str) : Path := comps (dir ++ '/' :: name)

/-- Name of the member list file (access/multibag.py:209-211). -/
def membersFileName (info : Info) : Str :=
  if verLt (profileVersion info) py!"0.3" then py!"group-members.txt" else py!"member-bags.tsv"

/-- Name of the lookup file (access/multibag.py:249-251). -/
def lookupFileName (info : Info) : Str :=
  if verLt (profileVersion info) py!"0.3" then py!"group-directory.txt" else py!"file-lookup.tsv"

/-- `list(self.iter_member_bags())` (access/multibag.py:202-223), for a bag whose
tag files are opened in the given mode. -/
def iterMembers (mode : TextMode) (tree : Tree) (info : Info) : Except PyErr (List MemberInfo) :=
  match readerTagDir info with
  | .error e => .error e
  | .ok dir =>
    match tree.read (tagFile dir (membersFileName info)) with
    | none => .error .missingFile
    | some text =>
      if verLt (profileVersion info) py!"0.3" then readMembers02 mode text
      else readMembers03 mode text

/-- `list(self.iter_file_lookup())` (access/multibag.py:244-263). -/
def iterLookup (mode : TextMode) (tree : Tree) (info : Info) : Except PyErr (List (Str × Str)) :=
  match readerTagDir info with
  | .error e => .error e
  | .ok dir =>
    match tree.read (tagFile dir (lookupFileName info)) with
    | none => .error .missingFile
    | some text =>
      if verLt (profileVersion info) py!"0.3" then readLookup02 mode text
      else readLookup03 mode text

/-- Path of deleted.txt (access/multibag.py:305). -/
def deletedFile (info : Info) : Path := tagFile (tagDir info) py!"deleted.txt"

/-- `list(self.iter_deleted())` (access/multibag.py:300-312): nothing if the file
does not exist; a directory of that name cannot be opened. -/
def iterDeleted (mode : TextMode) (tree : Tree) (info : Info) : Except PyErr (List Str) :=
  match dget tree (deletedFile info) with
  | none => .ok []
  | some (.file text) => .ok (readDeleted mode text)
  | some .dir => .error .osError

/-- `set(iterable)`: duplicates dropped.  The order of the list stands for the
unspecified iteration order of the set. -/
def pySet {α : Type} [DecidableEq α] (l : List α) : List α :=
  l.foldl (fun acc x => if x ∈ acc then acc else acc ++ [x]) []

namespace HeadBag

/-- `HeadBagUpdateMixin.member_bags` (access/multibag.py:225-235, 367-381). -/
def memberBags (s : HeadBag) (reread : Bool := false) : Res (List MemberInfo) :=
  if reread || s.members.isNone then
    match iterMembers .codecs s.tree s.info with
    | .ok ms => (.ok ms, { s with members := some ms })
    | .error .missingFile => (.ok [], s)
    | .error e => (.error e, s)
  else (.ok (s.members.getD []), s)

/-- `member_bag_names` (access/multibag.py:237-242). -/
def memberBagNames (s : HeadBag) : Res (List Str) :=
  match s.memberBags with
  | (.ok ms, s) => (.ok (ms.map (·.name)), s)
  | (.error e, s) => (.error e, s)

/-- `_cache_file_lookup` (access/multibag.py:265-266). -/
def cacheLookup (s : HeadBag) : Res Unit :=
  match iterLookup .codecs s.tree s.info with
  | .ok ps => (.ok (), { s with lookup := some (dofPairs ps) })
  | .error e => (.error e, s)

/-- `HeadBagUpdateMixin.lookup_file` (access/multibag.py:268-280, 447-458). -/
def lookupFile (s : HeadBag) (p : Str) (reread : Bool := false) : Res (Option Str) :=
  if reread || s.lookup.isNone then
    match s.cacheLookup with
    | (.ok _, s) => (.ok (dget (s.lookup.getD []) p), s)
    | (.error .missingFile, s) => (.ok none, s)
    | (.error e, s) => (.error e, s)
  else (.ok (dget (s.lookup.getD []) p), s)

/-- `files_in_member` (access/multibag.py:282-298). -/
def filesInMember (s : HeadBag) (bag : Str) : Res (List Str) :=
  let collect (s : HeadBag) : Res (List Str) :=
    (.ok (((s.lookup.getD []).filter (fun p => p.2 = bag)).map Prod.fst), s)
  if s.lookup.isNone then
    match s.cacheLookup with
    | (.ok _, s) => collect s
    | (.error .missingFile, s) => (.ok [], s)
    | (.error e, s) => (.error e, s)
  else collect s

/-- `deleted_paths` (access/multibag.py:314-321). -/
def deletedPaths (s : HeadBag) (reread : Bool := false) : Res (List Str) :=
  if reread || s.deleted.isNone then
    match iterDeleted .codecs s.tree s.info with
    | .ok ps => (.ok (pySet ps), { s with deleted := some (pySet ps) })
    | .error e => (.error e, s)
  else (.ok (s.deleted.getD []), s)

/-- `unset_deleted` (access/multibag.py:656-671).  Line 667 names the method
`deleted_paths` without calling it, so the saved list is not loaded. -/
def unsetDeleted (s : HeadBag) (p : Str) : Res Unit :=
  let d := s.deleted.getD []
  (.ok (), { s with deleted := some (d.filter (fun q => q ≠ p)) })

/-- `set_deleted` (access/multibag.py:641-654).  Line 651 does not call the
method either. -/
def setDeleted (s : HeadBag) (p : Str) : Res Unit :=
  let d := s.deleted.getD []
  (.ok (), { s with deleted := some (if p ∈ d then d else d ++ [p]) })

/-- `add_file_lookup` (access/multibag.py:460-481); arguments are strings. -/
def addFileLookup (s : HeadBag) (p bag : Str) : Res Unit :=
  if p = [] || bag = [] then (.error .valueError, s)
  else
    match s.lookup with
    | some d => (.ok (), { s with lookup := some (dset d p bag) })
    | none =>
      match s.cacheLookup with
      | (.ok _, s) => (.ok (), { s with lookup := some (dset (s.lookup.getD []) p bag) })
      | (.error .missingFile, s) => (.ok (), { s with lookup := some (dset [] p bag) })
      | (.error e, s) => (.error e, s)

/-- `remove_file_lookup` (access/multibag.py:483-498). -/
def removeFileLookup (s : HeadBag) (p : Str) : Res Unit :=
  if p = [] then (.error .valueError, s)
  else
    match s.lookup with
    | some d => (.ok (), { s with lookup := some (ddel d p) })
    | none =>
      match s.cacheLookup with
      | (.ok _, s) => (.ok (), { s with lookup := some (ddel (s.lookup.getD []) p) })
      | (.error .missingFile, s) => (.ok (), s)
      | (.error e, s) => (.error e, s)

/-- The loop of `remove_member_bag` over the member's files
(access/multibag.py:521-523). -/
def forgetFiles : HeadBag → List Str → Res Unit
  | s, [] => (.ok (), s)
  | s, f :: fs =>
    let s := (s.unsetDeleted f).2
    match s.removeFileLookup f with
    | (.error e, s) => (.error e, s)
    | (.ok _, s) => forgetFiles s fs

/-- `remove_member_bag` (access/multibag.py:500-523).  Line 512 names the method
`member_bags` without calling it, so an unloaded member list stays unloaded. -/
def removeMemberBag (s : HeadBag) (bag : Str) : Res Unit :=
  let s := { s with members := s.members.map (fun (ms : List MemberInfo) => ms.filter (fun m => m.name ≠ bag)) }
  match s.filesInMember bag with
  | (.error e, s) => (.error e, s)
  | (.ok files, s) => s.forgetFiles files

/-- Loading the member list before an update (access/multibag.py:399-402). -/
def ensureMembers (s : HeadBag) : Res Unit :=
  match s.members with
  | some _ => (.ok (), s)
  | none =>
    match s.memberBags with
    | (.error e, s) => (.error e, s)
    | (.ok _, s) => (.ok (), { s with members := some (s.members.getD []) })

/-- `add_member_bag` (access/multibag.py:383-407). -/
def addMemberBag (s : HeadBag) (m : MemberInfo) (override : Bool := true) : Res Unit :=
  match s.ensureMembers with
  | (.error e, s) => (.error e, s)
  | (.ok _, s) =>
    let removed : Res Unit := if override then s.removeMemberBag m.name else (.ok (), s)
    match removed with
    | (.error e, s) => (.error e, s)
    | (.ok _, s) => (.ok (), { s with members := some (s.members.getD [] ++ [m]) })

/-- `set_member_bags` (access/multibag.py:409-419). -/
def setMemberBags (s : HeadBag) (ms : List MemberInfo) : Res Unit :=
  (.ok (), { s with members := some ms })

/-- `ensure_tagdir` (access/multibag.py:421-427). -/
def ensureTagdir (s : HeadBag) : Res Unit :=
  let dir := comps (tagDir s.info)
  if s.tree.exists dir then (.ok (), s)
  else match s.tree.mkdir dir with
    | .error e => (.error e, s)
    | .ok t => (.ok (), { s with tree := t })

/-- Text written before the first member that cannot be formatted, and the
error of that member (access/multibag.py:441-445). -/
def membersWritten : List MemberInfo → Str × Except PyErr Unit
  | [] => ([], .ok ())
  | m :: ms =>
    match m.format with
    | .error e => ([], .error e)
    | .ok l =>
      match membersWritten ms with
      | (t, r) => (l ++ t, r)

/-- `save_member_bags` (access/multibag.py:429-445). -/
def saveMemberBags (s : HeadBag) : Res Unit :=
  match s.members with
  | none => (.ok (), s)
  | some ms =>
    match s.ensureTagdir with
    | (.error e, s) => (.error e, s)
    | (.ok _, s) =>
      match membersWritten ms with
      | (text, r) =>
        match s.tree.write (tagFile (tagDir s.info) py!"member-bags.tsv") text with
        | .error e => (.error e, s)
        | .ok t => (r, { s with tree := t })

/-- `save_file_lookup` (access/multibag.py:609-628). -/
def saveFileLookup (s : HeadBag) : Res Unit :=
  match s.lookup with
  | none => (.ok (), s)
  | some d =>
    match s.ensureTagdir with
    | (.error e, s) => (.error e, s)
    | (.ok _, s) =>
      match s.tree.write (tagFile (tagDir s.info) py!"file-lookup.tsv") (lookupText d) with
      | .error e => (.error e, s)
      | .ok t => (.ok (), { s with tree := t })

/-- `clear_file_lookup` (access/multibag.py:630-638). -/
def clearFileLookup (s : HeadBag) : Res Unit :=
  let p := tagFile (tagDir s.info) py!"file-lookup.tsv"
  if s.tree.exists p then
    match s.tree.remove p with
    | .error e => (.error e, s)
    | .ok t => (.ok (), { s with tree := t, lookup := none })
  else (.ok (), { s with lookup := none })

/-- `save_deleted` (access/multibag.py:674-690).  `enum` is the order in which
Python iterates over the set. -/
def saveDeleted (s : HeadBag) (enum : List Str → List Str := id) : Res Unit :=
  match s.deleted with
  | none => (.ok (), s)
  | some ps =>
    let p := deletedFile s.info
    let removed : Res Unit :=
      if ps = [] ∧ s.tree.exists p then
        match s.tree.remove p with
        | .error e => (.error e, s)
        | .ok t => (.ok (), { s with tree := t })
      else (.ok (), s)
    match removed with
    | (.error e, s) => (.error e, s)
    | (.ok _, s) =>
      match s.ensureTagdir with
      | (.error e, s) => (.error e, s)
      | (.ok _, s) =>
        match s.tree.write p (deletedText (enum ps)) with
        | .error e => (.error e, s)
        | .ok t => (.ok (), { s with tree := t })

end HeadBag

end Verif
