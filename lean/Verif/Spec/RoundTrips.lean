import Verif.Props.RestoreCall
/-!
# Splitting and restoring a bag again and again
-/

namespace Verif.Spec

/-- What the library runs in, wherever the bags are: checksums are hexadecimal numbers, the names of checksum
algorithms are words that can be part of a listed file name, walks and listings cover the whole bag, and encodings are
those of Unicode. -/
structure Surroundings (X : SplitEnv) (E : RestoreEnv) (wd : Path) : Prop where
  cwd : AbsPath X.cwd wd
  cfg : E.base = X.cfg
  blen : E.blen = X.blen
  walks : EnvOk E
  utf : ∀ e, E.base.knownEncoding e = true → startsWith py!"UTF" e = true
  algs : E.base.algs.Nodup
  names : ∀ a ∈ E.base.algs, a ≠ [] ∧ (∀ c ∈ a, X.word c = true) ∧ ListablePath (py!"manifest-" ++ a ++ py!".txt") ∧
    ListablePath (py!"tagmanifest-" ++ a ++ py!".txt")
  sums : HexDigest E.sum
  sizes : ∀ t i, Trimmed (E.sizeText t i)
  word : X.word '/' = false
  listing : ∀ t, WfTree t → (X.listing t).Perm (treeListing (X.size t) t)

/-- A bag `b`, in the directory `path` of the disk `W`, that is valid, not part of an aggregation, without files to
fetch, with tidy manifests for the algorithms `A`, whose metadata file is `bag-info.txt`, and whose file names can be
listed and are not mistaken for those of BagIt's own files. -/
structure PlainBag (hostOk : Str → Bool) (X : SplitEnv) (E : RestoreEnv) (wd : Path) (A : Str → Prop) (W : Tree) (path : Str)
    (b : RBag) : Prop where
  place : leadsTo wd path ≠ [] ∧ W.isdir (leadsTo wd path) = true
  opens : openBag { E.base with bagpath := rstripBy (· = '/') path } (W.below (leadsTo wd path)) = .ok b
  valid : bagValidate hostOk E.sum E.blen { E.base with bagpath := rstripBy (· = '/') path } b = .ok ()
  ordinary : Ordinary (b.source { E.base with bagpath := rstripBy (· = '/') path })
  tagFile : b.tagFile = py!"bag-info.txt"
  tidy : Tidy Unexpanded E.base.algs A b.tree
  nohead : py!"Multibag-Head-Version" ∉ dkeys b.info
  notags : ∀ p, [py!"multibag"] <+: p → b.tree.exists p = false
  nofetch : b.tree.exists [py!"fetch.txt"] = false
  nobom : ∀ k ∈ dkeys b.info, k.head? ≠ some bom
  paths : ∀ p, b.tree.exists p = true → p ≠ [] → ListablePath (joinPath p)
  look : NoLookalike X.word b.tree
  odd : NoOddManifest X.word b.tree

/-- One round: how and where to split, and where to restore. -/
structure Round where
  splitter : Splitter
  outdir : Str
  basis : Option Str
  nopass : List Str
  dest : Str

/-- The disk `W` has room for the round `r` with the bag at `path`: the output directory is there, outside of the bag, with no
bag of a name that the split will choose; nothing is at the place for the restored bag.  No path that is asked
for the head bag ends in a name that BagIt reserves. -/
structure Room (X : SplitEnv) (wd : Path) (W : Tree) (path : Str) (r : Round) : Prop where
  out : leadsTo wd r.outdir ≠ [] ∧ W.isdir (leadsTo wd r.outdir) = true
  apart : ¬ Inside (leadsTo wd path) (leadsTo wd r.outdir)
  plain : '/' ∉ nameBase path r.basis
  clean : CleanStart (nameBase path r.basis)
  free : ∀ k, ∀ n ∈ numbered (nameBase path r.basis) k, W.exists (leadsTo wd r.outdir ++ [n]) = false
  local_ : contains py!"://" r.outdir = false
  single : ¬ py!"//" <+: r.outdir
  dest : NewPlace W wd r.dest
  elsewhere : ∀ k, ∀ n ∈ numbered (nameBase path r.basis) k, leadsTo wd r.dest ≠ leadsTo wd r.outdir ++ [n]
  head : ∀ d f, ('/' :: joinPath (d ++ [f])) ∈ r.splitter.forhead → ¬ TakenForReserved X.word f

/-- The bag at `path` is split, and restored from the head bag, whose path is the last that the split returns; the
restored bag is `b'`. -/
def SplitAndRestored (X : SplitEnv) (E : RestoreEnv) (exts : List Str) (archives : Path → Option Tree) (dirs : Tree → List Path)
    (W : Tree) (path : Str) (r : Round) (b' : RBag) (W'' : Tree) : Prop :=
  ∃ paths head W', splitCall X r.splitter path r.outdir r.basis r.nopass W = (.ok (paths ++ [head]), W') ∧
    restoreBag E X.cwd exts archives dirs head (some r.dest) none W' = .ok (b', W'')

/-- The path `q` is in the directory for the bag restored in round `r`, or in one of the numbered bags of its output directory,
which are named after the bag at `path`. -/
def NewIn (wd : Path) (path : Str) (r : Round) (q : Path) : Prop :=
  Inside (leadsTo wd r.dest) q ∨ ∃ k, ∃ n ∈ numbered (nameBase path r.basis) k, Inside (leadsTo wd r.outdir ++ [n]) q

/-- Rounds, one after the other, each with the bag that the one before has restored. -/
inductive Rounds (X : SplitEnv) (E : RestoreEnv) (exts : List Str) (archives : Path → Option Tree) (dirs : Tree → List Path)
    (wd : Path) : Tree → Str → List Round → Tree → Str → Prop
  | none (W : Tree) (path : Str) : Rounds X E exts archives dirs wd W path [] W path
  | next {W W' W'' : Tree} {path path' : Str} {r : Round} {rs : List Round} {b' : RBag} (room : Room X wd W path r)
      (ran : SplitAndRestored X E exts archives dirs W path r b' W')
      (rest : Rounds X E exts archives dirs wd W' (abspath X.cwd r.dest) rs W'' path') :
      Rounds X E exts archives dirs wd W path (r :: rs) W'' path'

/-- The bag `b'` has the files and directories of `b`, but for the metadata and the manifests, and the same fields of
metadata, line breaks in values aside, but for the sizes and those that make a bag part of an aggregation. -/
structure SameBag (b b' : RBag) : Prop where
  things : ∀ p, ¬ Special p → b'.tree.read p = b.tree.read p ∧ (b'.tree.isdir p = true ↔ b.tree.isdir p = true)
  fields : ∀ k, k ∉ multibagFields → k ≠ py!"Payload-Oxum" → k ≠ py!"Bag-Size" →
    (fields b'.info k).map unbroken = (fields b.info k).map unbroken

end Verif.Spec
