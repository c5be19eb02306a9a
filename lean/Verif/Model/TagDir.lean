import Verif.Model.HeadBag
/-!
# `HeadBagUpdateMixin.set_multibag_tag_dir` (multibag/access/multibag.py:338-365)
-/

namespace Verif

/-- `os.path.join(a, b)` for a part `b` without slashes. -/
def osJoin1 (a b : Str) : Str :=
  if a = [] then b
  else if a.getLast? = some '/' then a ++ b
  else a ++ '/' :: b

/-- `os.path.join(*parts)` for parts without slashes; the list comes from
`str.split` and so is not empty. -/
def osJoin : List Str → Str
  | [] => []
  | a :: rest => rest.foldl osJoin1 a

/-- `os.makedirs` for the directory `pre ++ rest`, where `pre` is the part already
handled: missing directories are created from the top. -/
def Tree.makedirsFrom (t : Tree) (pre : Path) : Path → Except PyErr Tree
  | [] => .ok t
  | c :: rest =>
    if t.isdir (pre ++ [c]) then t.makedirsFrom (pre ++ [c]) rest
    else match t.mkdir (pre ++ [c]) with
      | .error e => .error e
      | .ok t => t.makedirsFrom (pre ++ [c]) rest

/-- `os.rename(old, new)` where nothing exists at `new`: everything at and below
`old` moves.  The parent of `new` must be a directory and `new` must not lie below
`old`. -/
def Tree.rename (t : Tree) (old new : Path) : Except PyErr Tree :=
  if (dget t old).isNone || !t.isdir new.dropLast || old.isPrefixOf new then .error .osError
  else .ok (t.filter (fun e => !old.isPrefixOf e.1) ++
    (t.filter (fun e => old.isPrefixOf e.1)).map (fun e => (new ++ e.1.drop old.length, e.2)))

/-- `os.removedirs`: removes the directory and then its ancestors as long as they
are empty.  The bag's root is not empty in the states where this is called, as the
renamed directory is below it. -/
def Tree.removedirs (t : Tree) (p : Path) : Tree :=
  if p = [] then t
  else if t.any (fun e => p.isPrefixOf e.1 && e.1 ≠ p) then t
  else Tree.removedirs (ddel t p) p.dropLast
termination_by p.length
decreasing_by
  rename_i h _
  have := List.length_pos_iff.2 h
  simp; omega

/-- `os.renames(old, new)`: creates the parents of `new`, renames, and removes
what became empty above `old`.  Trailing slashes in the names are ignored here (Python
would then skip creating the parents of `new`). -/
def Tree.renames (t : Tree) (old new : Path) : Except PyErr Tree :=
  match t.makedirsFrom [] new.dropLast with
  | .error e => .error e
  | .ok t =>
    match t.rename old new with
    | .error e => .error e
    | .ok t => .ok (t.removedirs old.dropLast)

/-- `set_multibag_tag_dir(dirname, migrate)` (access/multibag.py:338-365). -/
def HeadBag.setTagDir (s : HeadBag) (dirname : Str) (migrate : Bool := false) : Res Unit :=
  let dirname := osJoin (splitOn '/' dirname)
  if dirname = tagDir s.info then (.ok (), s)
  else
    let moved : Except PyErr Tree :=
      if migrate then
        if s.tree.exists (comps dirname) then .error .runtimeError
        else if s.tree.exists (comps (tagDir s.info)) then
          s.tree.renames (comps (tagDir s.info)) (comps dirname)
        else .ok s.tree
      else .ok s.tree
    match moved with
    | .error e => (.error e, s)
    | .ok t => (.ok (), { s with tree := t, info := dset s.info py!"Multibag-Tag-Directory" (.one dirname) })

end Verif
