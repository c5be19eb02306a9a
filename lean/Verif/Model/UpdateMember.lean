import Verif.Model.History
import Verif.Model.Walk
/-!
# `HeadBagUpdateMixin.update_for_member` (multibag/access/multibag.py:526-607)
-/

namespace Verif

/-- An argument that may be absent, one string or a list of strings.  Other types
raise `TypeError` and are not modelled. -/
inductive Arg where
  | none
  | str (s : Str)
  | list (l : List Str)

/-- `x in exclude`, where `exclude` is `[]` if absent; for a string it is the
substring test (access/multibag.py:579-589). -/
def Arg.has : Arg → Str → Bool
  | .none, _ => false
  | .str s, x => contains x s
  | .list l, x => x ∈ l

/-- The include list after defaulting (access/multibag.py:572-585).  A string
given as `exclude` replaces the include list (line 582). -/
def includeList (incl excl : Arg) : List Str :=
  match excl with
  | .str e => [e]
  | _ =>
    match incl with
    | .none => [py!"data"]
    | .str i => [i]
    | .list l => l

/-- The files of the member bag to register, in order
(access/multibag.py:587-607). `readonly` tells the kind of the member bag: pruning
the list of subdirectories has an effect only for local bags. -/
def filesFor (readonly : Bool) (t : Tree) (incl : List Str) (has : Str → Bool) : List Str :=
  incl.flatMap (fun i =>
    if has i then []
    else if t.isfile (comps i) then [i]
    else if t.isdir (comps i) then
      let skip (d : Path) : Bool := dirStr readonly i d ≠ [] && has (dirStr readonly i d)
      (walkDirs t (comps i) (fun d => !readonly && skip d)).flatMap (fun d =>
        if skip d then []
        else (filesOf t d).filterMap (fun f =>
          let p := dirStr readonly i d ++ '/' :: f
          if has p then none else some p))
    else [])

/-- Calling `add_file_lookup` for each file. -/
def HeadBag.registerAll (s : HeadBag) (bag : Str) : List Str → Res Unit
  | [] => (.ok (), s)
  | f :: fs =>
    match s.addFileLookup f bag with
    | (.error e, s) => (.error e, s)
    | (.ok _, s) => s.registerAll bag fs

/-- `update_for_member`.  The member bag is its directory tree and its name. -/
def HeadBag.updateForMember (s : HeadBag) (readonly : Bool) (member : Tree) (name : Str)
    (incl : Arg := .none) (excl : Arg := .none) (makeMember : Bool := true) : Res Unit :=
  let added : Res Unit := if makeMember then s.addMemberBag ⟨name, none, none, []⟩ else (.ok (), s)
  match added with
  | (.error e, s) => (.error e, s)
  | (.ok _, s) => s.registerAll name (filesFor readonly member (includeList incl excl) excl.has)

end Verif
