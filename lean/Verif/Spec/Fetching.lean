import Verif.Model.Restorer
import Verif.Spec.Tree
/-!
# What a function to fetch bags is expected to do
-/

namespace Verif.Spec

/-- A bag with the contents `t` has been put at `q`, as a directory, and nothing else is changed. -/
structure Delivered (W W' : Tree) (q : Path) (t : Tree) : Prop where
  proper : WfTree W'
  dir : W'.isdir q = true
  contents : W'.below q = t
  rest : W'.filter (fun e => !q.isPrefixOf e.1) = W.filter (fun e => !q.isPrefixOf e.1)

/-- Asked for one of these bags, and given the path `dir` of a directory, `C`, in which there is nothing of its name, the
function puts the bag there under its name, and returns where. -/
def Delivers (f : Fetcher) (bags : Str → Option Tree) (dir : Str) (C : Path) : Prop :=
  ∀ n t W, bags n = some t → WfTree W → W.isdir C = true → W.exists (C ++ [n]) = false →
    ∃ W', f n dir W = .ok (some (pathJoin dir n), W') ∧ Delivered W W' (C ++ [n]) t

/-- A bag that does not get in the way of the place for fetched bags in a restored bag. -/
def FreeOfCache (t : Tree) : Prop :=
  t.exists [py!"multibag", py!"_membercache"] = false ∧ t.isfile [py!"multibag"] = false

/-- Names of member bags besides the head bag, from the member list `listed`: all that are listed, without the last one if
that is the head bag. -/
def BesidesHead (listed : List Str) (head : Str) (names : List Str) : Prop :=
  listed = names ++ [head] ∨ (listed = names ∧ names.getLast? ≠ some head)

end Verif.Spec
