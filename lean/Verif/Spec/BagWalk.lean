import Verif.Model.Walk
import Verif.Spec.Tree
/-!
# What a walk through a bag should list
-/

namespace Verif.Spec

/-- `l` lists each directory at or below `s` once: under its bag path, with exactly the names of the
directories and of the files in it. -/
structure Walked (t : Tree) (s : Path) (l : List (Str × List Str × List Str)) : Prop where
  once : (l.map (·.1)).Nodup
  dirs : ∀ b, b ∈ l.map (·.1) ↔ ∃ d, t.isdir d = true ∧ s <+: d ∧ b = joinPath d
  row : ∀ r ∈ l, ∃ d, t.isdir d = true ∧ r.1 = joinPath d ∧ r.2.1.Nodup ∧ r.2.2.Nodup ∧
    (∀ n, n ∈ r.2.1 ↔ t.isdir (d ++ [n]) = true) ∧ (∀ n, n ∈ r.2.2 ↔ t.isfile (d ++ [n]) = true)

/-- A part of a path that leads into a directory. -/
def isName (c : Str) : Bool := c ≠ [] && c ≠ py!"." && c ≠ py!".."

/-- The contents of the files below the directory `data`. -/
def payloadContents (t : Tree) : List Str :=
  t.filterMap (fun e => match e.2 with
    | .file c => if e.1.head? = some py!"data" && e.1.length > 1 then some c else none
    | .dir => none)

end Verif.Spec
