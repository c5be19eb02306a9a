import Verif.Spec.Split
import Verif.Spec.SplitDisk
/-!
# What a split makes, seen on disk
-/

namespace Verif.Spec

/-- A file name without its extension: what is before the last dot, if that is more than dots; otherwise all of it. -/
inductive Stem : Str → Str → Prop where
  | ext (r e : Str) (hr : ∃ c ∈ r, c ≠ '.') (he : '.' ∉ e) : Stem (r ++ '.' :: e) r
  | plain (s : Str) (h : ∀ r e, s = r ++ '.' :: e → '.' ∉ e → ∀ c ∈ r, c = '.') : Stem s s

/-- `base_1.mbag`, `base_2.mbag` and so on, `k` names. -/
def numbered (base : Str) (k : Nat) : List Str := (List.range k).map (fun i => base ++ py!"_" ++ natStr (i + 1) ++ py!".mbag")

/-- The directories `names` in `O`, on `disk`, are bags that together have the files of the bag `t`, the last of them
being the head bag. -/
structure SplitMade (w : Char → Bool) (t disk : Tree) (O : Path) (names : List Str) : Prop where
  /-- every file, but for BagIt's own and the multibag tag files, is in exactly one of the bags, with its contents -/
  files : ∀ p, t.isfile p = true → (¬ ∃ f, p = [f] ∧ Reserved w f) → ¬ HeadFile p →
    ∃ n ∈ names, disk.read (O ++ n :: p) = t.read p ∧ ∀ m ∈ names, disk.isfile (O ++ m :: p) = true → m = n
  /-- every empty directory is in one of them -/
  dirs : ∀ p, EmptyDir t p → ∃ n ∈ names, disk.isdir (O ++ n :: p) = true
  /-- they have nothing else but standard files and the head bag's multibag tag files -/
  only : ∀ n ∈ names, ∀ p, disk.isfile (O ++ n :: p) = true →
    (t.isfile p = true ∧ disk.read (O ++ n :: p) = t.read p) ∨ Standard p ∨ (names.getLast? = some n ∧ HeadFile p)
  bags : ∀ n ∈ names, disk.read (O ++ [n, py!"bagit.txt"]) = t.read [py!"bagit.txt"] ∧
    disk.isfile (O ++ [n, py!"bagit.txt"]) = true ∧ disk.isfile (O ++ [n, py!"bag-info.txt"]) = true
  head : ∀ n, names.getLast? = some n → ∀ p, HeadFile p → disk.isfile (O ++ n :: p) = true

end Verif.Spec
