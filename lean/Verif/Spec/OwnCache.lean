import Verif.Model.RestoreCall
import Verif.Spec.Restorer
/-!
# Where a restorer with a directory for fetched bags gets a member bag
-/

namespace Verif.Spec

/-- The member bag `n` can be had, as this bag at this path: it is in the directory `C`, to which `cache` leads, or it has to
be fetched, and is among `bags`. -/
inductive Supply (W : Tree) (archives : Path → Option Tree) (bags : Str → Option Tree) (cwd cache : Str) (C : Path) (n : Str) :
    RSource → Prop
  | unpacked : HasUnpacked W C n → Supply W archives bags cwd cache C n ⟨abspath cwd (pathJoin cache n), W.below (C ++ [n])⟩
  /-- there is one archive, and no directory -/
  | packed (e : Str) (t : Tree) : ¬ HasUnpacked W C n → HasArchive W C n e → (∀ e', HasArchive W C n e' → e' = e) →
      archives (C ++ [n ++ e]) = some t → Supply W archives bags cwd cache C n ⟨abspath cwd (pathJoin cache n ++ e), t⟩
  | fetched (t : Tree) : Absent W C n → W.exists (C ++ [n]) = false → bags n = some t →
      Supply W archives bags cwd cache C n ⟨abspath cwd (pathJoin cache n), t⟩

end Verif.Spec
