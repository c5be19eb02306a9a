import Verif.Model.Tree
import Verif.Spec.Tree
/-!
# Where a path leads
-/

namespace Verif.Spec

/-- The directory reached from `cur` by following the components `cs`, as the operating
system does in the absence of symbolic links: the empty component and `.` stay, `..` goes to
the parent, and the parent of the root is the root. -/
def follow (cur : Path) : List Str → Path
  | [] => cur
  | c :: cs =>
    if c = [] ∨ c = py!"." then follow cur cs
    else if c = py!".." then follow cur.dropLast cs
    else follow (cur ++ [c]) cs

/-- Where the path `p` leads when it is used in the directory `cwd`. -/
def leadsTo (cwd : Path) (p : Str) : Path :=
  follow (if p.head? = some '/' then [] else cwd) (splitOn '/' p)

/-- The directory itself or something below it. -/
def Inside (dir q : Path) : Prop := dir <+: q

instance (dir q : Path) : Decidable (Inside dir q) := inferInstanceAs (Decidable (dir <+: q))

/-- A directory whose name has the name of `dir` as a proper prefix, next to `dir`, or
something below such a directory. -/
def Lookalike (dir q : Path) : Prop :=
  ∃ parent name ext rest, dir = parent ++ [name] ∧ ext ≠ [] ∧ q = parent ++ [name ++ ext] ++ rest

/-- `s` is an absolute path string without `.`, `..` or doubled or trailing slashes for the
directory `dir`. -/
def AbsPath (s : Str) (dir : Path) : Prop := GoodPath dir ∧ s = '/' :: joinWith ['/'] dir

end Verif.Spec
