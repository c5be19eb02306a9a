import Verif.Model.Apply
import Verif.Model.ReadBag
import Verif.Model.Validate
/-!
# Validating a bag as a whole

`Bag.validate()`: the driver is that of the external `bagit` package (version 1.7), inherited
by `ReadOnlyBag`; the steps that are overridden in multibag/access/bagit.py are cited below.

Not modelled: `fast` and `completeness_only`; what the exceptions say besides their class.
-/

namespace Verif

/-- `payload_files` (access/bagit.py:287-292). -/
def payloadFiles (t : Tree) : List Str :=
  t.filterMap (fun e => match e.2 with
    | .file _ => if e.1.head? = some py!"data" && e.1.length ≠ 1 then some (joinPath e.1) else none
    | .dir => none)

/-- `_validate_structure` (access/bagit.py:433-444; the order is that of the external
`bagit`). -/
def validateStructure (cfg : ReadCfg) (t : Tree) : Except PyErr Unit :=
  if t.isdir [py!"data"] = false then .error .bagValidationError
  else if manifestFiles cfg py!"manifest" t = [] then .error .bagValidationError
  else if t.exists [py!"bagit.txt"] = false then .error .bagValidationError
  else .ok ()

/-- `_validate_bagittxt` (access/bagit.py:527-538). -/
def validateBagittxt (t : Tree) : Except PyErr Unit :=
  match t.read [py!"bagit.txt"] with
  | none => .error .osError
  | some text => if text.head? = some bom then .error .bagValidationError else .ok ()

/-- The loop of `validate_fetch` (external `bagit`) over what is yielded. -/
def checkUrls (hostOk : Str → Bool) : List (Str × Str × Str) → Except PyErr Unit
  | [] => .ok ()
  | (url, _, _) :: rest =>
    match urlparse hostOk url with
    | .error e => .error e
    | .ok (scheme, netloc) => if scheme = [] || netloc = [] then .error .bagError else checkUrls hostOk rest

/-- `validate_fetch` (external `bagit`; the generator is access/bagit.py:316-337). -/
def validateFetch (hostOk : Str → Bool) (cfg : ReadCfg) (t : Tree) : Except PyErr Unit :=
  match checkUrls hostOk (fetchEntries cfg t).1 with
  | .error e => .error e
  | .ok () =>
    match (fetchEntries cfg t).2 with
    | some e => .error e
    | none => .ok ()

/-- The paths in the manifests that must be payload files (`compare_manifests_with_fs` of the
external `bagit`): the payload entries and, from 0.97 on, the tag files that are missing
(access/bagit.py:304-314). -/
def expectedFiles (b : RBag) : List Str :=
  (dkeys b.entries).filter (fun p => startsWith py!"data/" p) ++
  (if tupLe [0, 97] b.version then
    (dkeys b.entries).filter (fun p => !startsWith py!"data/" p && !b.tree.isfile (comps p)) else [])

/-- `_validate_completeness` (external `bagit`): payload files and manifests are compared, and
what is in fetch.txt must be in a manifest. -/
def validateCompleteness (cfg : ReadCfg) (b : RBag) : Except PyErr Unit :=
  match (fetchEntries cfg b.tree).2 with
  | some e => .error e
  | none =>
    if (expectedFiles b).all (· ∈ payloadFiles b.tree) && (payloadFiles b.tree).all (· ∈ expectedFiles b) &&
        (fetchEntries cfg b.tree).1.all (fun e => e.2.2 ∈ expectedFiles b)
    then .ok () else .error .bagValidationError

/-- `Bag.validate()` (external `bagit`). -/
def bagValidate (hostOk : Str → Bool) (sum : Str → Str → Str) (blen : Str → Nat) (cfg : ReadCfg) (b : RBag) :
    Except PyErr Unit :=
  match validateStructure cfg b.tree with
  | .error e => .error e
  | .ok () =>
    match validateBagittxt b.tree with
    | .error e => .error e
    | .ok () =>
      match validateFetch hostOk cfg b.tree with
      | .error e => .error e
      | .ok () =>
        match validateOxum blen b with
        | .error e => .error e
        | .ok () =>
          match validateCompleteness cfg b with
          | .error e => .error e
          | .ok () => validateEntries sum b

/-- The bag as the validators of the multibag package see it. -/
def RBag.seen (hostOk : Str → Bool) (sum : Str → Str → Str) (blen : Str → Nat) (cfg : ReadCfg) (b : RBag)
    (name : Str) : VBag where
  name := name
  tree := b.tree
  info := b.info
  verdict := match bagValidate hostOk sum blen cfg b with
    | .ok () => .valid
    | .error e => .raises e

/-- An opened read-only bag as the source of a split: its files, metadata, manifest entries and
the algorithms with a payload manifest (`manifest_files`, access/bagit.py:271-277). -/
def RBag.source (cfg : ReadCfg) (b : RBag) : Source where
  tree := b.tree
  info := b.info
  entries := b.entries
  algs := (manifestFiles cfg py!"manifest" b.tree).map Prod.fst
  mode := .universal

end Verif
