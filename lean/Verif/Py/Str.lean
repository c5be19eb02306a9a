import Verif.Py.Exc
/-!
# Python strings

`str` is modelled as a list of characters.  Only the methods used by the
modelled code are defined.
-/

namespace Verif

/-- A Python `str`. -/
abbrev Str := List Char

open Lean in
/-- `py!"abc"` is the string literal `"abc"` as an explicit list of characters. -/
macro:max "py!" s:str : term => do
  let cs := s.getString.toList.map (fun c => Syntax.mkCharLit c)
  `(([$(cs.toArray),*] : List Char))

/-- `str.isspace` for one character (Python 3.11, `unicodedata` 14). -/
def isSpace (c : Char) : Bool :=
  let n := c.toNat
  (9 ≤ n && n ≤ 13) || (28 ≤ n && n ≤ 32) || n == 0x85 || n == 0xa0 || n == 0x1680 ||
  (0x2000 ≤ n && n ≤ 0x200a) || n == 0x2028 || n == 0x2029 || n == 0x202f || n == 0x205f ||
  n == 0x3000

/-- The characters at which `str.splitlines` (hence `codecs.open` line
iteration) breaks a text. -/
def isBreak (c : Char) : Bool :=
  let n := c.toNat
  (10 ≤ n && n ≤ 13) || (28 ≤ n && n ≤ 30) || n == 0x85 || n == 0x2028 || n == 0x2029

/-- The characters at which universal-newline text files break lines. -/
def isNl (c : Char) : Bool := c == '\n' || c == '\r'

/-- `s.lstrip(chars)` for the characters satisfying `p`. -/
def lstripBy (p : Char → Bool) (s : Str) : Str := s.dropWhile p

/-- `s.rstrip(chars)`. -/
def rstripBy (p : Char → Bool) (s : Str) : Str := (s.reverse.dropWhile p).reverse

/-- `s.strip()`. -/
def strip (s : Str) : Str := rstripBy isSpace (lstripBy isSpace s)

/-- `s.split(c)` for a one-character separator. Never empty. -/
def splitOn (c : Char) : Str → List Str
  | [] => [[]]
  | x :: xs =>
    match splitOn c xs with
    | [] => [[]]     -- unreachable
    | h :: t => if x = c then [] :: h :: t else (x :: h) :: t

/-- `sep.join(parts)`. -/
def joinWith (sep : Str) : List Str → Str
  | [] => []
  | [x] => x
  | x :: y :: rest => x ++ sep ++ joinWith sep (y :: rest)

/-- `re.split(r' +', s)`: split at maximal runs of the character `c`; empty
leading and trailing fields are kept.  `inRun` tells whether the previous
character was a separator. -/
def splitRunsAux (c : Char) : Bool → Str → List Str
  | _, [] => [[]]
  | inRun, x :: xs =>
    if x = c then
      if inRun then splitRunsAux c true xs else [] :: splitRunsAux c true xs
    else
      match splitRunsAux c false xs with
      | [] => [[x]]     -- unreachable
      | h :: t => (x :: h) :: t

/-- `re.split(r' +', s)` with the character `c` in place of the blank. -/
def splitRuns (c : Char) (s : Str) : List Str := splitRunsAux c false s

/-- `s.split(None, n)`: up to `n` splits at runs of whitespace; leading
whitespace is dropped, the remainder keeps its own trailing whitespace unless
it is empty (as in CPython, where the remainder of `split(None, n)` is stripped
at the left only). Fuel-free: recursion on the number of splits. -/
def splitWsMax : Nat → Str → List Str
  | 0, s =>
    match lstripBy isSpace s with
    | [] => []
    | x :: xs => [x :: xs]
  | n + 1, s =>
    match lstripBy isSpace s with
    | [] => []
    | x :: xs =>
      (x :: xs).takeWhile (fun c => !isSpace c) ::
        splitWsMax n ((x :: xs).dropWhile (fun c => !isSpace c))

/-- `s.split()`: all the whitespace separated words. -/
def splitWs (s : Str) : List Str := splitWsMax s.length s

/-- `s.startswith(p)`. -/
def startsWith (p s : Str) : Bool := p.isPrefixOf s

/-- `s.endswith(p)`. -/
def endsWith (p s : Str) : Bool := p.isSuffixOf s

/-- `sub in s` for strings. -/
def contains (sub : Str) : Str → Bool
  | [] => sub.isEmpty
  | x :: xs => startsWith sub (x :: xs) || contains sub xs

/-- Iterating over the lines of a text file, keeping the line ends; `brk` gives
the line-breaking characters; `"\r\n"` is one line end. -/
def linesOf (brk : Char → Bool) : Str → List Str
  | [] => []
  | '\r' :: '\n' :: rest =>
    if brk '\r' then ['\r', '\n'] :: linesOf brk rest
    else match linesOf brk ('\n' :: rest) with
      | [] => [['\r']]
      | h :: t => ('\r' :: h) :: t
  | x :: xs =>
    if brk x then [x] :: linesOf brk xs
    else match linesOf brk xs with
      | [] => [[x]]
      | h :: t => (x :: h) :: t

/-- Translation of line ends when a text file is read in universal newline mode. -/
def translateNl : Str → Str
  | [] => []
  | '\r' :: '\n' :: rest => '\n' :: translateNl rest
  | '\r' :: rest => '\n' :: translateNl rest
  | c :: rest => c :: translateNl rest

/-- The byte order mark dropped by the `utf-8-sig` codec. -/
def bom : Char := '\ufeff'

/-- Decoding with `utf-8-sig`: a leading byte order mark is dropped. -/
def dropBom : Str → Str
  | [] => []
  | x :: xs => if x = bom then xs else x :: xs

/-- Zeros of the decimal digit ranges (`Nd`) of Unicode 14. -/
def digitZeros : List Nat :=
  [0x30, 0x660, 0x6f0, 0x7c0, 0x966, 0x9e6, 0xa66, 0xae6, 0xb66, 0xbe6, 0xc66, 0xce6, 0xd66,
   0xde6, 0xe50, 0xed0, 0xf20, 0x1040, 0x1090, 0x17e0, 0x1810, 0x1946, 0x19d0, 0x1a80, 0x1a90,
   0x1b50, 0x1bb0, 0x1c40, 0x1c50, 0xa620, 0xa8d0, 0xa900, 0xa9d0, 0xa9f0, 0xaa50, 0xabf0,
   0xff10, 0x104a0, 0x10d30, 0x11066, 0x110f0, 0x11136, 0x111d0, 0x112f0, 0x11450, 0x114d0,
   0x11650, 0x116c0, 0x11730, 0x118e0, 0x11950, 0x11c50, 0x11d50, 0x11da0, 0x16a60, 0x16ac0,
   0x16b50, 0x1d7ce, 0x1d7d8, 0x1d7e2, 0x1d7ec, 0x1d7f6, 0x1e140, 0x1e2f0, 0x1e950, 0x1fbf0]

/-- The value of a decimal digit character. -/
def digitVal (c : Char) : Option Nat :=
  (digitZeros.find? (fun z => z ≤ c.toNat && c.toNat ≤ z + 9)).map (fun z => c.toNat - z)

/-- Digits of an `int()` literal with single underscores between digits;
`acc` is the value so far, `needDigit` that an underscore or the start
precedes. -/
def parseDigits : Nat → Bool → Str → Option Nat
  | acc, needDigit, [] => if needDigit then none else some acc
  | acc, needDigit, c :: cs =>
    if c = '_' then
      if needDigit then none else parseDigits acc true cs
    else match digitVal c with
      | none => none
      | some d => parseDigits (acc * 10 + d) false cs

/-- `int(s)` (base 10); `none` is `ValueError`.  The length limit of CPython
3.11 (4300 digits) is not modelled. -/
def pyInt (s : Str) : Option Int :=
  match strip s with
  | '-' :: r => (parseDigits 0 true r).map (fun n => - (n : Int))
  | '+' :: r => (parseDigits 0 true r).map (fun n => (n : Int))
  | r => (parseDigits 0 true r).map (fun n => (n : Int))

/-- Decimal digits of a natural number, `str(n)`. -/
def natStr (n : Nat) : Str := (Nat.toDigits 10 n)

/-- Code-point order of strings, Python's `<` on `str`. -/
def strLt : Str → Str → Bool
  | [], [] => false
  | [], _ :: _ => true
  | _ :: _, [] => false
  | x :: xs, y :: ys => x.toNat < y.toNat || (x == y && strLt xs ys)

end Verif
