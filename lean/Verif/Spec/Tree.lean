import Verif.Model.Walk
/-!
# Well-formed directory trees
-/

namespace Verif.Spec

/-- A file name: not empty, no slash, neither `.` nor `..`. -/
structure GoodName (c : Str) : Prop where
  nonempty : c ≠ []
  noslash : '/' ∉ c
  nodot : c ≠ ['.']
  nodotdot : c ≠ ['.', '.']

/-- A relative path without empty, `.` or `..` components. -/
def GoodPath (p : Path) : Prop := p ≠ [] ∧ ∀ c ∈ p, GoodName c

/-- A directory tree: every entry has a good name, is listed once, and lies in a
directory. -/
structure WfTree (t : Tree) : Prop where
  nodup : (dkeys t).Nodup
  good : ∀ p ∈ dkeys t, GoodPath p
  parent : ∀ p ∈ dkeys t, t.isdir p.dropLast = true

end Verif.Spec
