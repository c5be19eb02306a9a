import Verif.Model.TagFiles
/-!
# What the tag file formats should mean
-/

namespace Verif.Spec

/-- A value that can stand in one field of a line-oriented, tab-separated file:
not empty, without tab or line break, and without outer whitespace. -/
structure Clean (s : Str) : Prop where
  nonempty : s ≠ []
  notab : '\t' ∉ s
  nobreak : ∀ c ∈ s, isBreak c = false
  noouter : Trimmed s

/-- A member record that profile 0.4 files can express without extra fields:
a URI that looks like a comment must be followed by a real comment. -/
structure CleanMember (m : MemberInfo) : Prop where
  name : Clean m.name
  uri : ∀ u, m.uri = some u → Clean u
  comment : ∀ c, m.comment = some c → Clean c
  hash : ∀ u, m.uri = some u → m.comment = none → u.head? ≠ some '#'
  info : m.info = []

/-- A line that is empty or all whitespace. -/
def Blank (line : Str) : Prop := ∀ c ∈ line, isSpace c = true

/-- The field `k` is a comment with the given text: hash marks, then the text
with surrounding whitespace. -/
def Comment (k text : Str) : Prop :=
  ∃ (i : Nat) (a b : Str), k = List.replicate (i + 1) '#' ++ (a ++ text ++ b) ∧
    Blank a ∧ Blank b ∧ Trimmed text ∧ (a = [] → text.head? ≠ some '#')

/-- Meaning of the tab-separated fields of a member-bags.tsv line. -/
inductive MemberFields : List Str → MemberInfo → Prop
  | name (n) : n ≠ [] → MemberFields [n] ⟨n, none, none, []⟩
  | nameComment (n k text) : n ≠ [] → Comment k text →
      MemberFields [n, k] ⟨n, none, some text, []⟩
  | uri (n u info) : n ≠ [] → (∀ k ∈ (u :: info).getLast?, k.head? ≠ some '#') →
      MemberFields (n :: u :: info) ⟨n, some u, none, info⟩
  | uriComment (n u info k text) : n ≠ [] → Comment k text →
      MemberFields (n :: u :: info ++ [k]) ⟨n, some u, some text, info⟩

end Verif.Spec
