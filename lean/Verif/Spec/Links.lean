import Verif.Model.Links
import Verif.Spec.Tree
/-!
# Disks with symbolic links
-/

namespace Verif.Spec

/-- A disk: every entry has a good name, is listed once, and lies in a directory. -/
structure WfDisk (d : SDisk) : Prop where
  nodup : (dkeys d).Nodup
  good : ∀ p ∈ dkeys d, GoodPath p
  parent : ∀ p ∈ dkeys d, p.dropLast = [] ∨ dget d p.dropLast = some .dir

/-- A disk without links, as a disk. -/
def ofTree (t : Tree) : SDisk := t.map (fun e => (e.1, match e.2 with | .dir => .dir | .file c => .file c))

/-- The bag has an entry at `q`, which is not a directory, and is not a link that leads to one. -/
def PlainEntry (d : SDisk) (bag q : Path) : Prop :=
  q ≠ [] ∧ ∃ n, dget d (bag ++ q) = some n ∧ n ≠ .dir ∧ d.stat (bag ++ q) ≠ some .dir

/-- The bag has a directory at `q` with no entry at all. -/
def NoEntries (d : SDisk) (bag q : Path) : Prop :=
  d.realDir (bag ++ q) = true ∧ ∀ n, dget d (bag ++ q ++ [n]) = none

/-- No link in the bag leads to a directory. -/
def NoDirLinks (d : SDisk) (bag : Path) : Prop :=
  ∀ q t, dget d (bag ++ q) = some (.link t) → d.stat (bag ++ q) ≠ some .dir

/-- The links in the bag have relative targets without `..`. -/
def LinksInside (d : SDisk) (bag : Path) : Prop :=
  ∀ q t, dget d (bag ++ q) = some (.link t) → t.head? ≠ some '/' ∧ ['.', '.'] ∉ splitOn '/' t

/-- A link in the bag that leads nowhere. -/
def Broken (d : SDisk) (bag : Path) : Prop :=
  ∃ q t, dget d (bag ++ q) = some (.link t) ∧ d.stat (bag ++ q) = none

/-- Following the components of a path from a directory leads to a place, through a number of links. -/
inductive Leads (d : SDisk) : Nat → Path → List Str → Path → Prop
  | done (cur) : Leads d 0 cur [] cur
  | stay {k cur cs r} (c : Str) : c = [] ∨ c = ['.'] → d.realDir cur = true → Leads d k cur cs r → Leads d k cur (c :: cs) r
  | up {k cur cs r} : d.realDir cur = true → Leads d k cur.dropLast cs r → Leads d k cur (['.', '.'] :: cs) r
  | enter {k cur cs r} (c : Str) (n : SNode) : GoodName c → d.realDir cur = true → dget d (cur ++ [c]) = some n →
      (∀ t, n ≠ .link t) → Leads d k (cur ++ [c]) cs r → Leads d k cur (c :: cs) r
  | relative {k cur cs r} (c t : Str) : GoodName c → d.realDir cur = true → dget d (cur ++ [c]) = some (.link t) →
      t.head? ≠ some '/' → Leads d k cur (splitOn '/' t ++ cs) r → Leads d (k + 1) cur (c :: cs) r
  | absolute {k cur cs r} (c t : Str) : GoodName c → d.realDir cur = true → dget d (cur ++ [c]) = some (.link ('/' :: t)) →
      Leads d k [] (splitOn '/' t ++ cs) r → Leads d (k + 1) cur (c :: cs) r

/-- The sizes of all entries below the bag's directory, each that of what the entry leads to. -/
def entrySizes (size : SNode → Nat) (d : SDisk) (bag : Path) : List Nat :=
  (d.filter (fun e => bag.isPrefixOf e.1 && e.1 ≠ bag)).map (fun e => ((d.stat e.1).map size).getD 0)

end Verif.Spec
