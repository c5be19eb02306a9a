import Verif.Py.Str
/-!
# Reading sizes

What a person reads in a text such as `12.34 kB`.
-/

namespace Verif.Spec

/-- A natural number nearest to `a / b`. -/
def Nearest (rnd : Nat → Nat → Nat) : Prop :=
  ∀ a b, b > 0 → 2 * (rnd a b * b) ≤ 2 * a + b ∧ 2 * a ≤ 2 * (rnd a b * b) + b

/-- The value of a string of decimal digits. -/
def digitsVal (s : Str) : Nat := s.foldl (fun v c => v * 10 + (c.toNat - '0'.toNat)) 0

/-- The value, in thousandths, of a decimal number with at most three digits after the point. -/
def decimalThousandths (s : Str) : Option Nat :=
  match splitOn '.' s with
  | [a] => some (digitsVal a * 1000)
  | [a, f] => if 1 ≤ f.length ∧ f.length ≤ 3 then some (digitsVal a * 1000 + digitsVal f * 10 ^ (3 - f.length)) else none
  | _ => none

/-- The size, in thousandths of a byte, that is written as a number, a space and a unit. -/
def sizeThousandths (s : Str) : Option Nat :=
  match splitOn ' ' s with
  | [num, unit] =>
    (decimalThousandths num).bind (fun v =>
      if unit = py!"B" then some v
      else if unit = py!"kB" then some (v * 1000)
      else if unit = py!"MB" then some (v * 1000 ^ 2)
      else if unit = py!"GB" then some (v * 1000 ^ 3)
      else if unit = py!"TB" then some (v * 1000 ^ 4)
      else none)
  | _ => none

end Verif.Spec
