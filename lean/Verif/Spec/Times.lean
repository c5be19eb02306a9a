import Verif.Model.Times
import Verif.Spec.Restore
/-!
# Vocabulary for properties of modification times
-/

namespace Verif.Spec

/-- `s` is the last of the bags that has something at `p`. -/
def LastWith (bags : List RSource) (p : Path) (s : RSource) : Prop :=
  ∃ before after, bags = before ++ s :: after ∧ s.tree.exists p = true ∧ ∀ b ∈ after, b.tree.exists p = false

/-- The member bags in order, the head bag last. -/
def memberBags (H : RHead) (srcs : List RSource) : List RSource := srcs ++ [⟨H.path, H.tree⟩]

/-- The destination at the start: nothing, or the head bag itself with its times. -/
def StartsTimed (mt : Str → Path → Option Nat) (E : RestoreEnv) (H : RHead) (d : Timed) : Prop :=
  StartsFrom E H d.tree ∧
    (H.path = E.base.bagpath → ∀ p, H.tree.exists p = true → mt H.path p = some (d.time p))

/-- Everything in the bags has a modification time. -/
def TimesKnown (mt : Str → Path → Option Nat) (bags : List RSource) : Prop :=
  ∀ s ∈ bags, ∀ p, s.tree.exists p = true → (mt s.path p).isSome = true

/-- If `p` is a directory in one of the bags, its modification time there is not zero, 1 January 1970. -/
def AfterEpoch (mt : Str → Path → Option Nat) (bags : List RSource) (p : Path) : Prop :=
  ∀ s ∈ bags, s.tree.isdir p = true → mt s.path p ≠ some 0

end Verif.Spec
