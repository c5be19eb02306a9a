import Verif.Model.BagInfo
import Verif.Spec.TagFiles
/-!
# Bag metadata as label-value pairs
-/

namespace Verif.Spec

/-- The values given for a label in a list of label-value pairs, in order. -/
def valuesOf (fs : List (Str × Str)) (label : Str) : List Str :=
  (fs.filter (fun f => f.1 = label)).map Prod.snd

/-- A label that can be written to bag-info.txt. -/
structure CleanLabel (n : Str) : Prop where
  nonempty : n ≠ []
  nocolon : ':' ∉ n
  nobreak : ∀ c ∈ n, isBreak c = false
  noouter : Trimmed n

/-- A label and a one-line value. -/
structure CleanTag (f : Str × Str) : Prop where
  label : CleanLabel f.1
  nobreak : ∀ c ∈ f.2, isBreak c = false
  noouter : Trimmed f.2

end Verif.Spec
