import Verif.Py.ListX
import Verif.Model.Restore
import Verif.Spec.Apply
import Verif.Spec.ReadBag
import Verif.Spec.BagInfo
import Verif.Spec.Tree
/-!
# What restoring should do
-/

namespace Verif.Spec

/-- `w` walks the tree `t`: every directory is visited once, after the directories it lies in,
with all its files and subdirectories.  The order is otherwise free. -/
structure IsWalk (t : Tree) (w : List WalkStep) : Prop where
  dirs : ∀ d, (∃ s ∈ w, s.1 = d) ↔ t.isdir d = true
  order : w.Pairwise (fun a b => ¬ b.1 <+: a.1)
  files : ∀ s ∈ w, ∀ f, f ∈ s.2.2 ↔ t.isfile (s.1 ++ [f]) = true
  subdirs : ∀ s ∈ w, ∀ f, f ∈ s.2.1 ↔ t.isdir (s.1 ++ [f]) = true

/-- `p` is listed as deleted, or lies below a path that is. -/
def Deleted (deleted : List Str) (p : Path) : Prop := ∃ q, q ≠ [] ∧ q <+: p ∧ joinPath q ∈ deleted

/-- The contents of the file at `p` in the last of the bags that has one: what is there after
copying the bags one over the other in the order of the list (docs/multibag-profile-spec.md,
Combining Multibags Into a Single Bag). -/
def overlay : List Tree → Path → Option Str
  | [], _ => none
  | t :: ts, p => (overlay ts p).or (t.read p)

/-- Files of the restored bag that do not come from the members as they are: the metadata,
the manifests, the fetch list, and the multibag tag files, which are removed. -/
def Special (p : Path) : Prop :=
  p = [py!"bag-info.txt"] ∨ p = [py!"package-info.txt"] ∨ p = [py!"fetch.txt"] ∨ ManifestFile p ∨
  [py!"multibag"] <+: p

/-- No path is a file in one tree and a directory in another. -/
def NoClash (ts : List Tree) : Prop :=
  ∀ t ∈ ts, ∀ t' ∈ ts, ∀ p, ¬ (t.isfile p = true ∧ t'.isdir p = true)

/-- The manifest `kind-alg.txt` of the bag `t` lists the path `p` with checksum `h`. -/
def Recorded (kind : Str) (t : Tree) (alg p h : Str) : Prop :=
  ∃ text line, t.read [kind ++ '-' :: alg ++ py!".txt"] = some text ∧
    line ∈ manifestLines py!"UTF-8" text ∧ Lists line h p

/-- Walks visit the whole tree, and algorithm names can be part of file names. -/
structure EnvOk (E : RestoreEnv) : Prop where
  walk : ∀ t, WfTree t → IsWalk t (E.walk t)
  algs : ∀ a ∈ E.base.algs, '/' ∉ a

/-- The member bags of the aggregation with head bag `H`, without the head bag, in the order of
the member list, whose last line is the head bag; if another name is last (the head bag was
renamed, say), all listed bags are members besides the head bag.  They lie outside the destination. -/
structure Aggregation (E : RestoreEnv) (H : RHead) (srcs : List RSource) : Prop where
  members : ∃ ms names, iterMembers H.mode H.tree H.info = .ok ms ∧
    (ms.map (fun m => m.name) = names ++ [H.name] ∨ ms.map (fun m => m.name) = names ∧ names.getLast? ≠ some H.name) ∧ Forall₂ (fun n s => E.find n = some s) names srcs
  head : WfTree H.tree
  wf : ∀ s ∈ srcs, WfTree s.tree
  outside : ∀ s ∈ srcs, s.path ≠ E.base.bagpath

/-- The trees of the member bags in order, the head bag last. -/
def memberTrees (H : RHead) (srcs : List RSource) : List Tree := srcs.map (fun s => s.tree) ++ [H.tree]

/-- The destination at the start: nothing, or the head bag itself. -/
def StartsFrom (E : RestoreEnv) (H : RHead) (dest : Tree) : Prop :=
  (H.path ≠ E.base.bagpath ∧ dest = []) ∨ (H.path = E.base.bagpath ∧ dest = H.tree)

/-- What the destination may hold if a restore into a directory other than the head bag's stops:
the bags in `pre` are copied, and some operations for the next bag are done, each completely.
Metadata, manifests, fetch list and multibag tag files may be in any state. -/
def Interrupted (E : RestoreEnv) (H : RHead) (skip : List Str) (srcs : List RSource) (dest d' : Tree) : Prop :=
  ∃ dest0 pre src post done later dm s,
    (∀ p, p ≠ [py!"bag-info.txt"] → dget dest0 p = dget dest p) ∧
    ⟨H.path, H.tree⟩ :: srcs.reverse = pre ++ src :: post ∧
    pre.foldlM (fun d s => restoreFrom E s skip false d) dest0 = .ok dm ∧
    actsOf skip (E.walk src.tree) = done ++ later ∧
    runActs false src.tree done ⟨dm, []⟩ = .ok s ∧
    ∀ p, ¬ Special p → dget d' p = dget s.dest p

/-- Two trees have the same at a path: the same file contents, a directory in both, or nothing. -/
def AlikeAt (t t' : Tree) (p : Path) : Prop :=
  t.read p = t'.read p ∧ t.exists p = t'.exists p ∧ t.isdir p = t'.isdir p

/-- Tags that can be written to a metadata file and read back. -/
def CleanTags (fs : List (Str × Str)) : Prop := ∀ f ∈ fs, CleanTag f ∧ f.1.head? ≠ some bom

/-- The labels of the fields that make a bag part of an aggregation (multibag profile). -/
def multibagFields : List Str :=
  [py!"Multibag-Version", py!"Multibag-Reference", py!"Multibag-Tag-Directory",
   py!"Multibag-Head-Version", py!"Multibag-Head-Deprecates"]

/-- A value without its line breaks. -/
def unbroken (v : Str) : Str := v.filter (fun c => c ≠ '\n' && c ≠ '\r')

/-- A checksum and a path that a written line preserves. -/
structure PlainLine (h p : Str) : Prop where
  word : Word h
  nocomment : h.head? ≠ some '#'
  nobom : h.head? ≠ some bom
  path : PlainPath p

/-- The manifests of a bag: payload manifests list payload files, tag manifests list other
files, in lines that are preserved when they are written again. -/
structure Orderly (algs : List Str) (t : Tree) : Prop where
  payload : ∀ a ∈ algs, ∀ p h, Recorded py!"manifest" t a p h → isPayload p = true ∧ PlainLine h p
  tag : ∀ a ∈ algs, ∀ p h, Recorded py!"tagmanifest" t a p h → isPayload p = false ∧ PlainLine h p

/-- The payload manifests of a bag: in order, listing every payload file of the bag for each
algorithm in `A`, and nothing for other algorithms. -/
structure Sums (algs : List Str) (A : Str → Prop) (t : Tree) : Prop where
  orderly : Orderly algs t
  only : ∀ a ∈ algs, ¬ A a → ∀ p v, ¬ Recorded py!"manifest" t a p v
  listed : ∀ p, GoodPath p → isPayload (joinPath p) = true → t.isfile p = true → ∀ a ∈ algs, A a →
    ∃ v, Recorded py!"manifest" t a (joinPath p) v

/-! ### Fetch lists -/

/-- An entry of a fetch list: where a file is, its size, and its path in the bag. -/
structure FetchEntry where
  url : Str
  size : Str
  path : Str
deriving DecidableEq

/-- The line of an entry. -/
def FetchEntry.line (e : FetchEntry) : Str := e.url ++ ' ' :: (e.size ++ ' ' :: e.path) ++ ['\n']

/-- No part of the entry is empty or contains whitespace. -/
def FetchEntry.Plain (e : FetchEntry) : Prop := Word e.url ∧ Word e.size ∧ Word e.path

/-- The fetch file with these entries. -/
def fetchText (es : List FetchEntry) : Str := (es.map FetchEntry.line).flatten

/-- The bag's fetch file has these entries; no file is the same as no entries. -/
def HasFetch (t : Tree) (es : List FetchEntry) : Prop :=
  (t.read [py!"fetch.txt"]).getD [] = fetchText es ∧ ∀ e ∈ es, e.Plain

/-- The last entry for a path. -/
def lastEntry : List FetchEntry → Str → Option FetchEntry
  | [], _ => none
  | e :: es, p => (lastEntry es p).or (if e.path = p then some e else none)

/-- What the fetch list of a restored bag should be, given those of the member bags in order:
for each path the entry of the last bag listing it, and nothing for deleted paths
(docs/multibag-profile-spec.md, Combining Multibags Into a Single Bag). -/
def MergedFetch (deleted : List Str) (lists : List (List FetchEntry)) (es : List FetchEntry) : Prop :=
  ∀ p, (Deleted deleted (comps p) → lastEntry es p = none) ∧
    (¬ Deleted deleted (comps p) → lastEntry es p = lastEntry lists.flatten p)

end Verif.Spec
