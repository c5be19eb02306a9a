import Verif.Spec.Restore
/-!
# Bags that can be put together
-/

namespace Verif.Spec

/-- The manifests of one kind (`manifest` or `tagmanifest`) of a bag.  There is one for each of the checksum
algorithms `A` or none at all; they list the same paths, each one once, in lines that stay what they are when
written again; payload manifests list payload files and tag manifests other files. -/
structure TidyKind (safe : Str → Prop) (algs : List Str) (A : Str → Prop) (kind : Str) (pay : Bool) (t : Tree) : Prop where
  nodir : ∀ a ∈ algs, t.isdir [kind ++ '-' :: a ++ py!".txt"] = false
  only : ∀ a ∈ algs, t.isfile [kind ++ '-' :: a ++ py!".txt"] = true → A a
  all : ∀ a ∈ algs, ∀ a' ∈ algs, t.isfile [kind ++ '-' :: a ++ py!".txt"] = true → A a' →
    t.isfile [kind ++ '-' :: a' ++ py!".txt"] = true
  lines : ∀ a ∈ algs, ∀ p h, Recorded kind t a p h → isPayload p = pay ∧ PlainLine h p ∧ safe p
  once : ∀ a ∈ algs, ∀ text, t.read [kind ++ '-' :: a ++ py!".txt"] = some text →
    (manifestLines py!"UTF-8" text).Pairwise (fun l m => ∀ c c' p, Lists l c p → ¬ Lists m c' p)
  same : ∀ a ∈ algs, ∀ a' ∈ algs, A a' → ∀ p h, Recorded kind t a p h → ∃ h', Recorded kind t a' p h'

/-- Both kinds of manifests. -/
structure Tidy (safe : Str → Prop) (algs : List Str) (A : Str → Prop) (t : Tree) : Prop where
  payload : TidyKind safe algs A py!"manifest" true t
  tag : TidyKind safe algs A py!"tagmanifest" false t

/-- The path does not lead out of the destination directory, as far as the library can tell. -/
def AtDest (E : RestoreEnv) (p : Str) : Prop := isDangerous E.base.env E.base.bagpath p = false

/-- A bag that can be restored from: it opens, its metadata file is `bag-info.txt`, its manifests are tidy, and
the names of its tag files can be written into a manifest. -/
structure Fits (E : RestoreEnv) (A : Str → Prop) (s : RSource) : Prop where
  opens : ∃ b, openBag { E.base with bagpath := s.path } s.tree = .ok b ∧ b.tagFile = py!"bag-info.txt"
  tidy : Tidy (AtDest E) E.base.algs A s.tree
  names : ∀ p, s.tree.isfile p = true → p.head? ≠ some py!"data" → PlainPath (joinPath p) ∧ AtDest E (joinPath p)

/-- Checksums are hexadecimal numbers. -/
def HexDigest (sum : Str → Str → Str) : Prop := ∀ alg c, sum alg c ≠ [] ∧ ∀ x ∈ sum alg c, x ∈ py!"0123456789abcdef"

/-- The surroundings: encodings are those of Unicode, each checksum algorithm is named once, checksums are
hexadecimal numbers, and the names of BagIt's own files can be written into a manifest. -/
structure EnvFits (E : RestoreEnv) : Prop where
  utf : ∀ e, E.base.knownEncoding e = true → startsWith py!"UTF" e = true
  algs : E.base.algs.Nodup
  sums : HexDigest E.sum
  info : AtDest E py!"bag-info.txt"
  manifests : ∀ a ∈ E.base.algs, PlainPath (py!"manifest-" ++ a ++ py!".txt") ∧ AtDest E (py!"manifest-" ++ a ++ py!".txt")

end Verif.Spec
