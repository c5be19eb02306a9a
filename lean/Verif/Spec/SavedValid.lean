import Verif.Spec.RestoreOk
import Verif.Model.Amend
/-!
# Bags that are saved after a change of their tag files
-/

namespace Verif.Spec

/-- An opened bag that can be updated: checksums are hexadecimal numbers and computed with the algorithms the bag uses,
the metadata file is `bag-info.txt`, the encoding is one of Unicode, payload manifests list payload files and tag
manifests other files. -/
structure Updatable (E : SaveEnv) (cfg : ReadCfg) (b : RBag) : Prop where
  algs : E.algs = b.algorithms
  sums : HexDigest E.sum
  tagFile : b.tagFile = py!"bag-info.txt"
  utf : startsWith py!"UTF" b.encoding = true
  nodup : cfg.algs.Nodup
  slash : ∀ a ∈ cfg.algs, '/' ∉ a
  payload : ∀ a ∈ cfg.algs, ∀ p h, Recorded py!"manifest" b.tree a p h → isPayload p = true
  tag : ∀ a ∈ cfg.algs, ∀ p h, Recorded py!"tagmanifest" b.tree a p h → isPayload p = false

/-- A path that can be listed in a manifest and does not lead out of the bag, as far as the library can tell. -/
def Listable (cfg : ReadCfg) (p : Str) : Prop := PlainPath p ∧ isDangerous cfg.env cfg.bagpath p = false

/-- What a change of tag files must leave alone: the payload, the payload manifests, `bagit.txt` and `fetch.txt`. -/
def Kept (p : Path) : Prop :=
  p.head? = some py!"data" ∨ p = [py!"bagit.txt"] ∨ p = [py!"fetch.txt"] ∨ ∃ a, p = [py!"manifest-" ++ a ++ py!".txt"]

end Verif.Spec
