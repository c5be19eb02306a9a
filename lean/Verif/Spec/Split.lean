import Verif.Spec.Tree
/-!
# What a split plan must contain
-/

namespace Verif.Spec

/-- A directory with nothing in it. -/
def EmptyDir (t : Tree) (d : Path) : Prop := t.isdir d = true ∧ ∀ p, t.exists p = true → p ≠ [] → p.dropLast ≠ d

/-- The names BagIt reserves at the root of a bag; `w` are the characters of an
algorithm name. -/
def Reserved (w : Char → Bool) (f : Str) : Prop :=
  f = py!"bagit.txt" ∨ f = py!"bag-info.txt" ∨ f = py!"fetch.txt" ∨
  ∃ alg : Str, alg ≠ [] ∧ (∀ c ∈ alg, w c = true) ∧
    (f = py!"manifest-" ++ alg ++ py!".txt" ∨ f = py!"tagmanifest-" ++ alg ++ py!".txt")

/-- A name that the library takes for one that BagIt reserves: any character but a line end in place of the dot, and
possibly a line end after it. -/
def TakenForReserved (w : Char → Bool) (f : Str) : Prop :=
  ∃ (stem : Str) (c : Char), c ≠ '\n' ∧
    (stem = py!"bagit" ∨ stem = py!"bag-info" ∨ stem = py!"fetch" ∨
      ∃ alg : Str, alg ≠ [] ∧ (∀ x ∈ alg, w x = true) ∧ (stem = py!"manifest-" ++ alg ∨ stem = py!"tagmanifest-" ++ alg)) ∧
    (f = stem ++ c :: py!"txt" ∨ f = stem ++ c :: py!"txt" ++ ['\n'])

/-- What has to go to some output bag: the files of the source that are not BagIt's own,
and its empty directories. -/
def ToPlace (w : Char → Bool) (t : Tree) (p : Path) : Prop :=
  (t.isfile p = true ∧ ¬ ∃ f, p = [f] ∧ Reserved w f) ∨ EmptyDir t p

/-- How often a path is listed in a plan's contents. -/
def occurrences (contents : List (List Str)) (p : Str) : Nat := (contents.map (fun c => c.count p)).sum

end Verif.Spec
