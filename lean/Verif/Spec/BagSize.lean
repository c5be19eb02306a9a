import Verif.Model.Tree
import Verif.Spec.FormatBytes
/-!
# How large a bag is
-/

namespace Verif.Spec

/-- The number of bytes of the contents of a file; nothing for a directory. -/
def nodeBytes (blen : Str → Nat) : Node → Nat
  | .file c => blen c
  | .dir => 0

/-- The total number of bytes of the files in a directory. -/
def totalBytes (blen : Str → Nat) (t : Tree) : Nat := (t.map (fun e => nodeBytes blen e.2)).sum

/-- The sizes that the filesystem gives for the directories inside a directory. -/
def totalDirs (dlen : Path → Nat) (t : Tree) : Nat :=
  (t.map (fun e => match e.2 with | .file _ => 0 | .dir => dlen e.1)).sum

/-- Lengths in bytes add up, and a character of the ASCII range has one byte, as in UTF-8. -/
structure ByteLength (blen : Str → Nat) : Prop where
  append : ∀ a b, blen (a ++ b) = blen a + blen b
  ascii : ∀ s : Str, (∀ c ∈ s, c.toNat < 128) → blen s = s.length

/-- The number of bytes in UTF-8. -/
def utf8Bytes (s : Str) : Nat := (s.map Char.utf8Size).sum

/-- Checksums of one algorithm all have the same length. -/
def FixedLength (blen : Str → Nat) (sum : Str → Str → Str) : Prop :=
  ∀ a c c', blen (sum a c) = blen (sum a c')

/-- The text reads as a size that differs from `n` bytes by at most one part in two thousand and `slack` bytes. -/
def SizeAbout (text : Str) (n slack : Nat) : Prop :=
  ∃ w, sizeThousandths text = some w ∧
    2000 * w ≤ 2000 * (1000 * n) + 1000 * n + 2000 * (1000 * slack) ∧
    2000 * (1000 * n) ≤ 2000 * w + 1000 * n + 2000 * (1000 * slack)

end Verif.Spec
