import Verif.Model.ReadBag
import Verif.Spec.TagFiles
import Verif.Spec.Tree
/-!
# What reading and validating a bag should mean
-/

namespace Verif.Spec

/-- A word: not empty and without whitespace. -/
def Word (w : Str) : Prop := w ≠ [] ∧ ∀ c ∈ w, isSpace c = false

/-- Whitespace between words. -/
def Gap (s : Str) : Prop := s ≠ [] ∧ Blank s

/-- A value without outer whitespace that may contain inner whitespace. -/
def Value (s : Str) : Prop := s ≠ [] ∧ Trimmed s

/-- The manifest line `line` records checksum `h` for the path `p`: checksum, whitespace, path,
with optional whitespace around.  Leading asterisks of the path are ignored, it is normalized
and its percent-encoded line ends are decoded. -/
def Lists (line h p : Str) : Prop :=
  ∃ a gap path b, line = a ++ (h ++ gap ++ path) ++ b ∧ Blank a ∧ Blank b ∧ Word h ∧ h.head? ≠ some '#' ∧
    Gap gap ∧ Value path ∧ p = decodeFilename (normpath (path.dropWhile (· = '*')))

/-- The line of a fetch file for `url`, `size` and `file`. -/
def FetchLine (line url size file : Str) : Prop :=
  ∃ a gap gap' b, line = a ++ (url ++ gap ++ size ++ gap' ++ file) ++ b ∧ Blank a ∧ Blank b ∧
    Word url ∧ Gap gap ∧ Word size ∧ Gap gap' ∧ Value file

/-- A path that a manifest line can hold as it is: clean, without outer whitespace, line end,
leading asterisk or percent sign. -/
structure PlainPath (p : Str) : Prop where
  path : ∃ q, GoodPath q ∧ p = joinWith ['/'] q
  trimmed : Trimmed p
  nobreak : ∀ c ∈ p, isNl c = false
  nostar : p.head? ≠ some '*'
  nopercent : '%' ∉ p

/-- The manifests of a bag in the order in which they are read, as lines with the algorithm:
the payload manifests, then (from BagIt 0.97 on) the tag manifests. -/
def manifestText (cfg : ReadCfg) (version : List Int) (encoding : Str) (t : Tree) : List (Str × Str) :=
  (cfg.algs.flatMap (fun alg =>
    match t.read [py!"manifest-" ++ alg ++ py!".txt"] with
    | some text => (manifestLines encoding text).map (fun l => (alg, l))
    | none => [])) ++
  (if tupLt version [0, 97] then []
   else cfg.algs.flatMap (fun alg =>
    match t.read [py!"tagmanifest-" ++ alg ++ py!".txt"] with
    | some text => (manifestLines encoding text).map (fun l => (alg, l))
    | none => []))

/-- `s` is a BagIt version: an integer, or two with a dot between. -/
inductive BagItVersion (s : Str) : Int → Option Int → Prop
  | one (n) : '.' ∉ s → pyInt s = some n → BagItVersion s n none
  | two (a b n m) : s = a ++ '.' :: b → '.' ∉ a → pyInt a = some n → pyInt b = some m →
      BagItVersion s n (some m)

end Verif.Spec
