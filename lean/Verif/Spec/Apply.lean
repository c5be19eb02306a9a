import Verif.Model.Apply
import Verif.Spec.Tree
import Verif.Spec.TagFiles
/-!
# What the output of a split should be
-/

namespace Verif.Spec

/-- A payload or tag manifest in the root of a bag. -/
def ManifestFile (p : Path) : Prop :=
  ∃ alg, p = [py!"manifest-" ++ alg ++ py!".txt"] ∨ p = [py!"tagmanifest-" ++ alg ++ py!".txt"]

/-- The tag files in the root of every bag. -/
def Standard (p : Path) : Prop := p = [py!"bagit.txt"] ∨ p = [py!"bag-info.txt"] ∨ ManifestFile p

/-- The multibag tag files of a head bag. -/
def HeadFile (p : Path) : Prop :=
  p = [py!"multibag", py!"member-bags.tsv"] ∨ p = [py!"multibag", py!"file-lookup.tsv"] ∨
  p = [py!"multibag", py!"aggregation-info.txt"]

/-- An entry that a plan may contain: a clean relative path, not that of a standard
tag file.  It need not exist in the source. -/
def PlanEntry (f : Str) : Prop := ∃ p, GoodPath p ∧ f = joinPath p ∧ ¬ Standard p

/-- The entries of a manifest that are files of the source. -/
def copied (src : Tree) (contents : List Str) : List Str :=
  contents.filter (fun f => src.isfile (comps f))

/-- Is a payload file. -/
def isPayload (f : Str) : Bool := startsWith py!"data/" f

/-- The lines recorded for the files `fs` in the manifest at `p`, given the hashes of the
source.  Payload files belong into `manifest-ALG.txt`, others into
`tagmanifest-ALG.txt`. -/
def recorded (hashes : Str → List (Str × Str)) (fs : List Str) (p : Path) : List Str :=
  fs.flatMap (fun f => (hashes f).filterMap (fun ah =>
    if p = [(if isPayload f then py!"manifest-" else py!"tagmanifest-") ++ ah.1 ++ py!".txt"]
    then some (ah.2 ++ ' ' :: f ++ ['\n']) else none))

/-- The bag `t` made from the entries `contents` of the source: the files have the
source's contents, and nothing else is there but standard tag files, and in the head
bag its multibag tag files. -/
structure SplitBag (src : Tree) (contents : List Str) (ishead : Bool) (t : Tree) : Prop where
  wf : WfTree t
  files : ∀ f ∈ contents, ∀ c, src.read (comps f) = some c →
    ¬ (ishead = true ∧ HeadFile (comps f)) → t.read (comps f) = some c
  bagit : t.read [py!"bagit.txt"] = src.read [py!"bagit.txt"] ∧ (t.isfile [py!"bagit.txt"] = true)
  baginfo : t.isfile [py!"bag-info.txt"] = true
  head : ishead = true → ∀ p, HeadFile p → t.isfile p = true
  only : ∀ p, t.isfile p = true →
    (src.isfile p = true ∧ ∃ f ∈ contents, comps f = p) ∨ Standard p ∨ (ishead = true ∧ HeadFile p)
  dirs : ∀ p, t.isdir p = true ↔ p = [] ∨ p = [py!"data"] ∨ (ishead = true ∧ p = [py!"multibag"]) ∨
    ∃ f ∈ contents, (src.isdir (comps f) = true ∧ p <+: comps f) ∨
      (src.isfile (comps f) = true ∧ p <+: (comps f).dropLast)

/-- The payload of a bag: path and contents of the files below `data`. -/
def payload (t : Tree) : List (Path × Str) :=
  t.filterMap (fun e => match e.2 with
    | .file c => if e.1.head? = some py!"data" then some (e.1, c) else none
    | .dir => none)

/-- The names the output bags will get (split.py:261-269). -/
def chosenNames (plan : List Manifest) (names : List Str) : List (Option Str) :=
  match plan with
  | [] => []
  | m :: rest => (names.head?.or m.name) :: chosenNames rest names.tail

end Verif.Spec
