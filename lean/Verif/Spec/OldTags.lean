import Verif.Spec.ReadBag
/-!
# The tag files of profile versions before 0.3
-/

namespace Verif.Spec

/-- `line` consists of the given words, with at least one blank between any two of them. -/
inductive Spaced : Str → List Str → Prop
  | last {w : Str} : Word w → Spaced w [w]
  | cons {w s : Str} {ws : List Str} (n : Nat) : Word w → Spaced s ws →
      Spaced (w ++ List.replicate (n + 1) ' ' ++ s) (w :: ws)

/-- A text file with the given lines. -/
def textOf (ls : List Str) : Str := (ls.map (fun l => l ++ ['\n'])).flatten

end Verif.Spec
