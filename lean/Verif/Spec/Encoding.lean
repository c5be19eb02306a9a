import Verif.Model.Encoding
/-!
# What is said of encodings
-/

namespace Verif.Spec

/-- A text of ASCII characters. -/
def Ascii (s : Str) : Prop := ∀ c ∈ s, c.toNat < 128

/-- A codec that reads UTF-8, under any of its names. -/
def ReadsUtf8 (c : Codec) : Prop := ∀ s, c.decode (utf8 s) = some s

/-- A codec that has ASCII as a part: UTF-8, the ISO-8859 family, the Windows code pages and ASCII itself, but not
UTF-16. -/
def AsciiCompatible (c : Codec) : Prop := ∀ s, Ascii s → c.decode (s.map (fun x => UInt8.ofNat x.toNat)) = some s

/-- The metadata of a source, the names and versions given and the paths of the plan are ASCII. -/
structure AsciiSplit (info : Info) (o : ApplyOpts) (plan : List Manifest) (names : List Str) : Prop where
  paths : ∀ m ∈ plan, ∀ f ∈ m.contents, Ascii f
  info : ∀ e ∈ info, Ascii e.1 ∧ ∀ v ∈ e.2.values, Ascii v
  names : ∀ n ∈ names, Ascii n
  planned : ∀ m ∈ plan, ∀ n, m.name = some n → Ascii n
  version : Ascii o.headVersion
  deprecates : ∀ x ∈ o.deprecates, Ascii (deprecateValue x)

end Verif.Spec
