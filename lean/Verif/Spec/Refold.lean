import Verif.Spec.BagInfo
/-!
# Metadata values of several lines
-/

namespace Verif.Spec

/-- A label as it is read from a metadata file. -/
structure LoadedLabel (n : Str) : Prop where
  nonempty : n ≠ []
  nocolon : ':' ∉ n
  nobreak : ∀ c ∈ n, isNl c = false
  noouter : Trimmed n

/-- A line that continues the value begun on an earlier line: it starts with whitespace and is
not blank. -/
structure Continuation (l : Str) : Prop where
  nobreak : ∀ c ∈ l, isNl c = false
  indent : (l.head?.map isSpace).getD false = true
  nonblank : ¬ Blank l

/-- A value that can be written to a metadata file such that the file stays readable: lines after
the first are continuation lines. -/
structure Foldable (v : Str) : Prop where
  lines : ∃ (l0 : Str) (ls : List Str), v = l0 ++ (ls.map ('\n' :: ·)).flatten ∧ (∀ c ∈ l0, isNl c = false) ∧ ∀ l ∈ ls, Continuation l
  trimmed : Trimmed v

/-- The value that is read back: the first line break is lost, with the whitespace before it. -/
def reread (v : Str) : Str :=
  match splitOn '\n' v with
  | [] => []
  | l0 :: ls => strip l0 ++ joinWith ['\n'] ls

/-- A value of one line. -/
def OneLineValue (s : Str) : Prop := (∀ c ∈ s, isNl c = false) ∧ Trimmed s

end Verif.Spec
