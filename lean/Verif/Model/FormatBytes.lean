import Verif.Py.Str
/-!
# Sizes as text

`_format_bytes` (multibag/access/extended.py:478-494, with `{0:5f}`, and access/multibag.py:736-752, with
`{0:.3f}`).  The code computes with floating point numbers; the model computes with exact fractions, and `rnd`
stands for `round`: `rnd a b` is an integer nearest to `a / b`.  The product of a number rounded to three decimals
and a power of ten has at most three decimals, so both formats give the same text once the zeros are cut off.
-/

namespace Verif

/-- The first loop (access/extended.py:481-483): with `ordr` thousands divided out, and at most `left` more. -/
def thousands (n : Nat) : Nat → Nat → Nat
  | 0, ordr => ordr
  | left + 1, ordr => if n ≥ 1000 ^ (ordr + 1) then thousands n left (ordr + 1) else ordr

/-- The second loop (access/extended.py:486-488), where the number is `n / d`.  `fuel` bounds its steps; `n`
is enough. -/
def tens (n d : Nat) : Nat → Nat → Nat
  | 0, ordr => ordr
  | fuel + 1, ordr => if n ≥ d * 10 ^ (ordr + 1) then tens n d fuel (ordr + 1) else ordr

/-- `prefs` (access/extended.py:479). -/
def sizePrefix : Nat → Str
  | 0 => []
  | 1 => ['k']
  | 2 => ['M']
  | 3 => ['G']
  | _ => ['T']

/-- The number of `v` thousandths as a decimal without zeros at the end, nor a point there
(access/extended.py:489-493). -/
def thousandthsText (v : Nat) : Str :=
  let r := v % 1000
  let frac := rstripBy (· = '0') [Nat.digitChar (r / 100), Nat.digitChar (r % 100 / 10), Nat.digitChar (r % 10)]
  natStr (v / 1000) ++ (if frac = [] then [] else '.' :: frac)

/-- `_format_bytes` (access/extended.py:478-494; access/multibag.py:736-752). -/
def formatBytes (rnd : Nat → Nat → Nat) (n : Nat) : Str :=
  let k := thousands n 4 0
  let o := tens n (1000 ^ k) n 0
  let q := rnd (n * 1000) (1000 ^ k * 10 ^ o)
  thousandthsText (q * 10 ^ o) ++ ' ' :: (sizePrefix k ++ ['B'])

end Verif
