import Verif.Spec.Restore
/-!
# Vocabulary for collecting fetch entries
-/

namespace Verif.Spec

/-- Where the file of an entry is, and its size. -/
def FetchEntry.source (e : FetchEntry) : Str := e.url ++ ' ' :: e.size

/-- The collected lines: for each path the line of the first entry for it, and nothing else. -/
def FirstByPath (es : List FetchEntry) (fetch : List (Str × Str)) : Prop :=
  ∀ l, l ∈ fetch.map Prod.snd ↔ ∃ e ∈ es, es.find? (fun x => x.path = e.path) = some e ∧ l = e.line

end Verif.Spec
