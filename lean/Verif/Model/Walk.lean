import Verif.Model.Tree
/-!
# Walking a bag directory

`os.walk` and the bag's own `walk` (multibag/access/extended.py:391-424 and
655-689).  Directory listings come in an unspecified order; the order of the tree
stands for it.  Symbolic links are not modelled.
-/

namespace Verif

/-- `"/".join(path)`: the bag path of a component path. -/
def joinPath (p : Path) : Str := joinWith ['/'] p

/-- Names of the files directly in directory `d`. -/
def filesOf (t : Tree) (d : Path) : List Str :=
  t.filterMap (fun e =>
    match e.2 with
    | .file _ => if e.1.dropLast = d then e.1.getLast? else none
    | .dir => none)

/-- Names of the directories directly in directory `d`. -/
def subdirsOf (t : Tree) (d : Path) : List Str :=
  t.filterMap (fun e =>
    match e.2 with
    | .dir => if e.1.dropLast = d then e.1.getLast? else none
    | .file _ => none)

/-- The directories at and below `start`. -/
def dirsBelow (t : Tree) (start : Path) : List Path :=
  start :: (t.filter (fun e => e.2 = .dir && start.isPrefixOf e.1 && e.1 ≠ start)).map Prod.fst

/-- The directories visited by `os.walk` when the caller empties the list of
subdirectories of every visited directory satisfying `prune`: those without a
pruned directory strictly above them (at or below `start`). -/
def walkDirs (t : Tree) (start : Path) (prune : Path → Bool) : List Path :=
  (dirsBelow t start).filter (fun d =>
    (List.range d.length).all (fun k => k < start.length || !prune (d.take k)))

/-- The name under which `walk(start)` yields directory `d`
(access/extended.py:411-422 for local bags, 673-687 for read-only ones). -/
def dirStr (readonly : Bool) (start : Str) (d : Path) : Str :=
  let rel := d.drop (comps start).length
  if readonly then
    rstripBy (· = '/') (lstripBy (· = '/') (start ++ '/' :: joinPath rel))
  else joinPath ((splitOn '/' start).filter (· ≠ []) ++ rel)

end Verif
