import Verif.Model.Restore
/-!
# Collecting fetch entries while member bags are restored one by one

`restore_member` with a dictionary for fetch entries (restore.py:150-172).
-/

namespace Verif

/-- `line.strip().rsplit(None, 1)[0]` (restore.py:170): the line without its last word, or the only word; `IndexError`
for a blank line. -/
def fetchKey (line : Str) : Except PyErr Str :=
  let s := (strip line).reverse
  if s = [] then .error .indexError
  else
    let rest := s.dropWhile (fun c => !isSpace c)
    if rest = [] then .ok (strip line) else .ok (rest.dropWhile isSpace).reverse

/-- The loop over the lines of a fetch.txt (restore.py:169-172). -/
def noteFetch : List Str → List (Str × Str) → Except PyErr (List (Str × Str))
  | [], fetch => .ok fetch
  | line :: rest, fetch =>
    match fetchKey line with
    | .error e => .error e
    | .ok k => noteFetch rest (if (dget fetch k).isSome then fetch else dset fetch k line)

/-- `restore_member` with a dictionary (restore.py:150-172): what the destination and the dictionary are afterwards. -/
def restoreMemberNoting (E : RestoreEnv) (name : Str) (skip : List Str) (overwrite : Bool)
    (st : Tree × List (Str × Str)) : Except PyErr (Tree × List (Str × Str)) :=
  match E.find name with
  | none => .error .osError
  | some src =>
    match restoreFrom E src skip overwrite st.1 with
    | .error e => .error e
    | .ok dest =>
      match openBag { E.base with bagpath := src.path } src.tree with
      | .error e => .error e
      | .ok _ =>
        match src.tree.read [py!"fetch.txt"] with
        | none => .ok (dest, st.2)
        | some text =>
          match noteFetch (textLines .universal text) st.2 with
          | .error e => .error e
          | .ok fetch => .ok (dest, fetch)

/-- A caller's loop over member bags with `restore_member`, as in restore.py:306-307 but with one dictionary for all. -/
def restoreMembersNoting (E : RestoreEnv) (skip : List Str) (overwrite : Bool) :
    List Str → Tree × List (Str × Str) → Except PyErr (Tree × List (Str × Str))
  | [], st => .ok st
  | n :: rest, st =>
    match restoreMemberNoting E n skip overwrite st with
    | .error e => .error e
    | .ok st => restoreMembersNoting E skip overwrite rest st

end Verif
