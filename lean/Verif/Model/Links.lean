import Verif.Model.Split
import Verif.Model.Paths
/-!
# Bags with symbolic links (multibag/access/extended.py:153-172, 259-309, 391-466)

A disk with symbolic links, how the operating system follows them, and the methods of a local bag that ask the disk:
`exists`, `isfile`, `isdir`, `sizeof`, `walk`, `nonstandard` and `calc_bag_size`.

Simplifications: the bag's own directory is given by its real place; errors other than "not found" are not distinguished
from it; entries are listed in the order of the disk.
-/

namespace Verif

/-- An entry of a directory. -/
inductive SNode where
  | dir
  | file (content : Str)
  | link (target : Str)
deriving DecidableEq, Repr

/-- A disk from its root directory on. -/
abbrev SDisk := List (Path × SNode)

/-- How far a path can be followed before a symbolic link: not at all, to its end, or to a link in a directory, with the
components that remain. -/
inductive Leg where
  | gone
  | here (p : Path)
  | link (dir : Path) (target : Str) (rest : List Str)
deriving DecidableEq, Repr

namespace SDisk

/-- There is a directory, not a link to one, at `p`. -/
def realDir (d : SDisk) (p : Path) : Bool := p = [] || dget d p = some .dir

/-- Following components from a directory to the first link, as the operating system does for `os.stat` and `os.path.exists`
(access/extended.py:276, 287, 298, 309). -/
def leg (d : SDisk) : Path → List Str → Leg
  | cur, [] => .here cur
  | cur, c :: cs =>
    if d.realDir cur = false then .gone
    else if c = [] ∨ c = ['.'] then d.leg cur cs
    else if c = ['.', '.'] then d.leg cur.dropLast cs
    else match dget d (cur ++ [c]) with
      | none => .gone
      | some (.link t) => .link cur t cs
      | some _ => d.leg (cur ++ [c]) cs

/-- Where a link is continued from: the root directory or its own directory. -/
def linkStart (dir : Path) (target : Str) : Path := if startsWith ['/'] target then [] else dir

/-- Following components through at most `n` links (see `leg`). -/
def trace (d : SDisk) : Nat → Path → List Str → Option Path
  | 0, cur, cs =>
    match d.leg cur cs with
    | .here p => some p
    | _ => none
  | n + 1, cur, cs =>
    match d.leg cur cs with
    | .gone => none
    | .here p => some p
    | .link dir t rest => d.trace n (linkStart dir t) (splitOn '/' t ++ rest)

/-- What is at a place of the disk, the root being a directory. -/
def node (d : SDisk) (p : Path) : Option SNode := if p = [] then some .dir else dget d p

/-- `os.stat` (access/extended.py:309; also behind lines 276, 287 and 298): at most 40 links are followed, as on Linux. -/
def stat (d : SDisk) (p : Path) : Option SNode := (d.trace 40 [] p).bind d.node

/-- What `exists`, `isdir`, `isfile` and `sizeof` of a bag look at (access/extended.py:267-309). -/
def bagStat (d : SDisk) (bagdir p : Str) : Option SNode := (canonPath bagdir p).bind (fun q => d.stat (comps q))

/-- `isfile` of a bag (access/extended.py:289-298). -/
def bagIsfile (d : SDisk) (bagdir p : Str) : Bool :=
  match d.bagStat bagdir p with
  | some (.file _) => true
  | _ => false

/-- Names in a directory: `os.scandir` inside `os.walk` (access/extended.py:418). -/
def names (d : SDisk) (x : Path) : List Str := d.filterMap (fun e => if e.1.dropLast = x then e.1.getLast? else none)

/-- The `subdirs` that `os.walk` gives for a directory, with links to directories (access/extended.py:418). -/
def subdirs (d : SDisk) (x : Path) : List Str := (d.names x).filter (fun n => d.stat (x ++ [n]) = some .dir)

/-- The `files` that `os.walk` gives for a directory, with broken links (access/extended.py:418). -/
def files (d : SDisk) (x : Path) : List Str := (d.names x).filter (fun n => d.stat (x ++ [n]) ≠ some .dir)

/-- The directories that `os.walk` goes through: links to directories are not followed (access/extended.py:418). -/
def walked (d : SDisk) (start : Path) : List Path :=
  start :: (d.filter (fun e => e.2 = .dir && start.isPrefixOf e.1 && e.1 ≠ start)).map Prod.fst

/-- `nonstandard()` of the bag in directory `bag` (access/extended.py:153-172), which is `required()` of a split plan
(split.py:119-126). -/
def nonstandard (w : Char → Bool) (d : SDisk) (bag : Path) : List Str :=
  (d.walked bag).flatMap (fun x =>
    (if d.subdirs x = [] ∧ d.files x = [] then [joinPath (x.drop bag.length)] else []) ++
    ((d.files x).filter (fun f => !specialName w f)).map (fun f => joinPath (x.drop bag.length ++ [f])))

/-- The sum of the sizes of some entries: the first that cannot be found raises OSError (access/extended.py:100-102, 309,
458-459). -/
def sizes (size : SNode → Nat) (d : SDisk) : List Path → Except PyErr Nat
  | [] => .ok 0
  | p :: ps =>
    match d.stat p with
    | none => .error .osError
    | some n =>
      match d.sizes size ps with
      | .error e => .error e
      | .ok s => .ok (size n + s)

/-- The loop of `calc_bag_size()` (access/extended.py:456-459). -/
def rawSize (size : SNode → Nat) (d : SDisk) (bag : Path) : Except PyErr Nat :=
  d.sizes size ((d.walked bag).flatMap (fun x => (d.files x ++ d.subdirs x).map (fun n => x ++ [n])))

end SDisk

end Verif
