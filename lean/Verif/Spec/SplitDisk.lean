import Verif.Spec.Apply
import Verif.Spec.Paths
/-!
# Bags in a file system
-/

namespace Verif.Spec

/-- The file system has, in the directory `dir`, the files and directories of `t`, and nothing else. -/
structure BagAt (disk : Tree) (dir : Path) (t : Tree) : Prop where
  isdir : disk.isdir dir = true
  files : ∀ p, p ≠ [] → disk.read (dir ++ p) = t.read p
  dirs : ∀ p, p ≠ [] → disk.isdir (dir ++ p) = t.isdir p

/-- What is at `q` is the same in both file systems. -/
def SameThing (a b : Tree) (q : Path) : Prop :=
  a.exists q = b.exists q ∧ a.read q = b.read q ∧ a.isdir q = b.isdir q

/-- Checksum algorithms with names that can be part of a file name. -/
def AlgNames (S : Source) : Prop := (∀ a ∈ S.algs, '/' ∉ a) ∧ ∀ f, ∀ ah ∈ S.hashes f, '/' ∉ ah.1

end Verif.Spec
