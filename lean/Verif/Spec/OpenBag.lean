import Verif.Model.OpenBag
/-!
# Archives, independently of how they are opened
-/

namespace Verif.Spec

/-- Two directory trees have the same files, with the same contents, and the same directories. -/
def SameTree (t t' : Tree) : Prop := ∀ p, t.read p = t'.read p ∧ t.isdir p = t'.isdir p

/-- The directory `d` of `a` has the files and directories of `t`. -/
def Contains (a : Tree) (d : Path) (t : Tree) : Prop := ∀ p, a.read (d ++ p) = t.read p ∧ a.isdir (d ++ p) = t.isdir p

/-- A list of the directories of a tree other than its root, none before a less deep one. -/
structure BreadthFirst (t : Tree) (l : List Path) : Prop where
  mem : ∀ d, d ∈ l ↔ d ≠ [] ∧ t.isdir d = true
  order : l.Pairwise (fun a b => a.length ≤ b.length)

/-- A directory that is a bag. -/
def HasBagit (t : Tree) (d : Path) : Prop := t.isdir d = true ∧ t.isfile (d ++ [py!"bagit.txt"]) = true

end Verif.Spec
