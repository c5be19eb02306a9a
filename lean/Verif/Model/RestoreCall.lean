import Verif.Model.OpenBag
import Verif.Model.Restorer
/-!
# Restoring by one call

`restore_bag` (multibag/restore.py:330-357) with paths and without a function to fetch bags, from the paths a user gives
to the restored bag on disk.
-/

namespace Verif

/-- The tree `t` with `u` in place of what is below the directory `d`. -/
def Tree.withBelow (t : Tree) (d : Path) (u : Tree) : Tree :=
  t.filter (fun e => !(d.isPrefixOf e.1 && e.1 ≠ d)) ++ u.map (fun e => (d ++ e.1, e.2))

/-- The disk as `open_bag` sees it, from the working directory `cwd`: `archives` says what is in the archive files, and
`dirs` lists the directories of a filesystem.  URLs lead nowhere. -/
def diskPlaces (cwd : Str) (archives : Path → Option Tree) (dirs : Tree → List Path) (disk : Tree) : Places where
  at_ p :=
    let q := comps (abspath cwd p)
    if disk.isdir q then some (.dir (disk.below q))
    else if disk.isfile q then some (.file (archives q))
    else none
  url _ := .error .osError
  walk := dirs

/-- `open_bag` (access/bagit.py:614-667), like `openAt`, with the path that bagit makes absolute. -/
def openFrom (cwd : Str) (P : Places) (cfg : ReadCfg) (p : Str) : Except PyErr (Str × RBag) :=
  match openPlace P p with
  | .error e => .error e
  | .ok (n, t) =>
    match openBag { cfg with bagpath := abspath cwd p } t with
    | .error e => .error e
    | .ok b => .ok (n, b)

/-- `is_headbag` (access/multibag.py:818-827). -/
def isHeadFrom (cwd : Str) (P : Places) (cfg : ReadCfg) (p : Str) : Except PyErr Bool :=
  match openFrom cwd P cfg p with
  | .error e => .error e
  | .ok (_, b) => .ok (dmem b.info py!"Multibag-Head-Version")

/-- The head bag at a path, as `open_headbag` opens it for `BagRestorer.__init__` (restore.py:70; access/multibag.py:866-889):
the text files of a directory are read with `codecs`, those of an archive by way of PyFilesystem; the name of a directory
is the last part of its path (access/extended.py:228-229, 256-257), that of an archive the name of the directory in it. -/
def headAt (cwd : Str) (P : Places) (cfg : ReadCfg) (p : Str) : Except PyErr RHead :=
  match openFrom cwd P cfg p with
  | .error e => .error e
  | .ok (n, b) =>
    let H := { name := n, path := abspath cwd p, tree := b.tree, info := b.info, mode := .universal }
    .ok (match P.at_ p with
      | some (.dir _) => { H with name := baseName (abspath cwd p), mode := .codecs }
      | _ => H)

/-- The environment for restoring into a directory from the bags that are found. -/
def RestoreEnv.into (E : RestoreEnv) (dest : Str) (find : Str → Option RSource) : RestoreEnv :=
  { E with base := { E.base with bagpath := dest }, find := find }

/-- `restore_bag(headbag, destbag, compdir)` (restore.py:330-357): the bag it returns, and the disk.  Simplifications: the
restored bag is made apart and put in its place; a destination that is not a directory is refused here and not where the
code first uses it (restore.py:200, 213, 357); what is left after an exception is not modelled here (see
`RestoreStopped`). -/
def restoreBag (E : RestoreEnv) (cwd : Str) (exts : List Str) (archives : Path → Option Tree) (dirs : Tree → List Path)
    (headbag : Str) (destbag compdir : Option Str) (disk : Tree) : Except PyErr (RBag × Tree) :=
  let P := diskPlaces cwd archives dirs disk
  match Restorer.make cwd disk (isHeadFrom cwd P E.base) (.location headbag) destbag compdir false with
  | .error e => .error e
  | .ok r =>
    match headAt cwd P E.base headbag with
    | .error e => .error e
    | .ok H =>
      match (if diskExists cwd disk r.destdir then .ok disk else r.createDest cwd disk) with
      | .error e => .error e
      | .ok disk =>
        let D := comps (abspath cwd r.destdir)
        let E' := E.into r.destdir (r.source exts cwd disk archives)
        if !disk.isdir D then .error .osError
        else match restore E' H true true (disk.below D) with
        | .error e => .error e
        | .ok out =>
          match openBag E'.base out with
          | .error e => .error e
          | .ok b => .ok (b, disk.withBelow D out)

end Verif
