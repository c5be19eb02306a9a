import Verif.Model.Amend
import Verif.Model.ReadBag
/-!
# Opening bags

`open_bag` (multibag/access/bagit.py:606-667), `as_extended` (access/extended.py:710-737),
`is_headbag`, `as_headbag` and `open_headbag` (access/multibag.py:818-889).
-/

namespace Verif

/-! ## Finding the bag -/

/-- What is at a place on disk: a directory, or a file; `none` for a file that is not an archive, which
the constructors of PyFilesystem reject.  Directories that an archive implies but does not list are in
the tree. -/
inductive Stored where
  | dir (t : Tree)
  | file (archive : Option Tree)
  /-- a device, pipe or the like -/
  | other
deriving DecidableEq

/-- The world as `open_bag` sees it. -/
structure Places where
  /-- what is at a path on disk -/
  at_ : Str → Option Stored
  /-- `fs.open_fs` of a URL -/
  url : Str → Except PyErr Tree
  /-- the directories of a filesystem in the order of `walk.dirs()`, which leaves out the root -/
  walk : Tree → List Path

/-- The keys of `_ext_fs_lookup` (access/bagit.py:606-612). -/
def archiveExts : List Str := [py!".zip", py!".tar", py!".tar.gz", py!".tar.bz2", py!".tgz"]

/-- `fs.opendir(d)`: the part of a filesystem below a directory. -/
def Tree.below (t : Tree) (d : Path) : Tree :=
  t.filterMap (fun e => if d.isPrefixOf e.1 && e.1 ≠ d then some (e.1.drop d.length, e.2) else none)

/-- `open_bag` up to the construction of the bag object (access/bagit.py:621-665): the bag's name and its
root directory. -/
def openPlace (P : Places) (location : Str) : Except PyErr (Str × Tree) :=
  if location = [] then .error .valueError
  else if contains py!"://" location then
    match P.url location with
    | .error e => .error e
    | .ok t => .ok (baseName location, t)
  else match P.at_ location with
  | none => .error .osError
  | some (.dir t) => .ok (baseName location, t)
  | some (.file a) =>
    if archiveExts.any (fun ext => endsWith ext location) then
      match a with
      | none => .error .osError
      | some t =>
        match (P.walk t).find? (fun d => t.isfile (d ++ [py!"bagit.txt"])) with
        | none => .error .bagError
        | some d => .ok (d.getLast?.getD [], t.below d)
    else .error .valueError
  | some .other => .error .valueError

/-- `open_bag` (access/bagit.py:614-667): the bag's name and what is read from it. -/
def openAt (P : Places) (cfg : ReadCfg) (location : Str) : Except PyErr (Str × RBag) :=
  match openPlace P location with
  | .error e => .error e
  | .ok (name, t) =>
    match openBag { cfg with bagpath := location } t with
    | .error e => .error e
    | .ok b => .ok (name, b)

/-- `is_headbag` (access/multibag.py:818-827). -/
def isHeadbag (P : Places) (cfg : ReadCfg) (location : Str) : Except PyErr Bool :=
  match openAt P cfg location with
  | .error e => .error e
  | .ok (_, b) => .ok (dmem b.info py!"Multibag-Head-Version")

/-! ## Bag objects -/

/-- The classes of bag objects: `bagit.Bag`, `ReadOnlyBag`, `ExtendedReadWritableBag`,
`ExtendedReadOnlyBag`, `ReadOnlyHeadBag`, `_NoUpdateHeadBag`, `HeadBag` (access/bagit.py:131,
access/extended.py:498, 691, access/multibag.py:755, 776, 796), and anything else. -/
inductive BagClass where
  | bag | readOnly | extWritable | extReadOnly | readOnlyHead | noUpdateHead | head | notBag
deriving DecidableEq

namespace BagClass

/-- `isinstance(bag, ExtendedReadMixin)`. -/
def extended : BagClass → Bool
  | extWritable | extReadOnly | readOnlyHead | noUpdateHead | head => true
  | _ => false

/-- `isinstance(bag, ExtendedReadOnlyBag)`. -/
def extendedReadOnly : BagClass → Bool
  | extReadOnly | readOnlyHead => true
  | _ => false

/-- `isinstance(bag, HeadBagReadMixin)`: the methods for reading head bag data are there. -/
def readsHead : BagClass → Bool
  | readOnlyHead | noUpdateHead | head => true
  | _ => false

/-- `isinstance(bag, HeadBagUpdateMixin)`: the methods for changing head bag data are there. -/
def updatesHead : BagClass → Bool
  | head => true
  | _ => false

end BagClass

/-- A bag object: its class and state.  `hasBagit`: there is a file bagit.txt at its path on disk. -/
structure BagObj where
  cls : BagClass
  hasBagit : Bool := true
  state : HeadBag
deriving DecidableEq

/-- The caches are emptied (`HeadBagReadMixin.__init__`, access/multibag.py:149-158; of
`HeadBagUpdateMixin`, 329-336, it is the only effect). -/
def BagObj.resetCaches (b : BagObj) : BagObj := { b with state := HeadBag.open b.state.tree b.state.info }

/-- `as_extended` (access/extended.py:710-737). -/
def asExtended (b : BagObj) : Except PyErr BagObj :=
  if b.cls = .notBag then .error .valueError
  else if b.cls.extended then .ok b
  else if b.cls = .readOnly then .ok { b with cls := .extReadOnly }
  else if b.hasBagit = false then .error .valueError
  else .ok { b with cls := .extWritable }

/-- `as_headbag` (access/multibag.py:829-864). -/
def asHeadbag (b : BagObj) (readonly : Bool) : Except PyErr BagObj :=
  if b.cls = .notBag then .error .valueError
  else match (if b.cls.extended then .ok b else asExtended b) with
  | .error e => .error e
  | .ok b =>
    let b := if b.cls.readsHead then b
      else { b with cls := if b.cls.extendedReadOnly then .readOnlyHead else .noUpdateHead }.resetCaches
    .ok (if !b.cls.updatesHead && !readonly && !b.cls.extendedReadOnly then { b with cls := .head }.resetCaches else b)

/-- `open_headbag` (access/multibag.py:866-889).  Opening a directory with `Bag` is bagit's own; it is
taken to read what `openBag` reads, and to fail on anything that is no directory. -/
def openHeadbag (P : Places) (cfg : ReadCfg) (location : Str) (readonly : Bool) : Except PyErr BagObj :=
  let isFile := match P.at_ location with
    | some (.file _) => true
    | _ => false
  if readonly || contains py!"://" location || isFile then
    match openAt P cfg location with
    | .error e => .error e
    | .ok (_, b) => asHeadbag { cls := .readOnly, state := HeadBag.open b.tree b.info } false
  else match P.at_ location with
  | some (.dir t) =>
    match openBag { cfg with bagpath := location } t with
    | .error e => .error e
    | .ok b => asHeadbag { cls := .bag, state := HeadBag.open b.tree b.info } false
  | _ => .error .bagError

end Verif
