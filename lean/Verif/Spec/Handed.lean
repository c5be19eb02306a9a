import Verif.Spec.SplitShared
/-!
# What a caller may do with the bags handed over
-/

namespace Verif.Spec

/-- What the caller may do to the file system: anything, but the output directory stays, the source is left alone, and
no name of a bag that is still to come (`later`) is taken. -/
structure CallerMay (src O : Path) (later : Str → Prop) (t t' : Tree) : Prop where
  wf : WfTree t'
  out : t'.isdir O = true
  source : LeftAlone src t t'
  free : ∀ n, later n → t.exists (O ++ [n]) = false → t'.exists (O ++ [n]) = false

end Verif.Spec
