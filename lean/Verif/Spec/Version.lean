import Verif.Py.IntLemmas
/-!
# What the ordering of versions should be
-/

namespace Verif.Spec

/-- The numbers of a dotted version string; a field that `int()` cannot read
counts as -1. -/
def versionNumbers (s : Str) : List Int := (splitOn '.' s).map (fun f => (pyInt f).getD (-1))

/-- Dictionary order on number lists. -/
inductive LexLt : List Int → List Int → Prop
  | nil (b bs) : LexLt [] (b :: bs)
  | head {a b} (as bs) : a < b → LexLt (a :: as) (b :: bs)
  | tail (a) {as bs} : LexLt as bs → LexLt (a :: as) (a :: bs)

end Verif.Spec
