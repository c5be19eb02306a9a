import Verif.Spec.Tree
import Verif.Model.Paths
/-!
# Files of a directory that are kept together
-/

namespace Verif.Spec

/-- The directory of a file, from its path. -/
def directoryOf (p : Str) : Path := (comps p).dropLast

/-- Between two files of a directory there are only files of this directory. -/
def Together (files : List Str) : Prop :=
  ∀ a b c x y, files = a ++ x :: b ++ y :: c → directoryOf x = directoryOf y → ∀ z ∈ b, directoryOf z = directoryOf x

/-- A file `g` is left over although files of its directory have been put in a bag with these `files`: it would not have fit
when the first file of another directory was put there after them. -/
def LeftForSize (size : Str → Nat) (max : Int) (files : List Str) (g : Str) : Prop :=
  ∀ before x after, files = before ++ x :: after → (∃ y ∈ before, directoryOf y = directoryOf g) → directoryOf x ≠ directoryOf g →
    (((before.map size).sum + size g : Nat) : Int) > max

end Verif.Spec
