import Verif.Model.Amend
import Verif.Spec.HeadBag
import Verif.Spec.Tree
/-!
# What amending an aggregation should do
-/

namespace Verif.Spec

/-- The records of a list without those whose bag comes again later: every bag once, at the place
where it was last named. -/
def keepLast : List MemberInfo → List MemberInfo
  | [] => []
  | m :: ms => if m.name ∈ ms.map (·.name) then keepLast ms else m :: keepLast ms

/-- A payload file of a bag, written as a path with slashes. -/
def Payload (t : Tree) (q : Str) : Prop :=
  ∃ p, t.isfile p = true ∧ [py!"data"] <+: p ∧ q = joinPath p

/-- The last of several bags that has the payload file `q` is called `n`. -/
def LastOwner (bags : List (Str × Tree)) (q n : Str) : Prop :=
  ∃ pre t post, bags = pre ++ (n, t) :: post ∧ Payload t q ∧ ∀ b ∈ post, ¬ Payload b.2 q

/-- The bag given on the last line for `q`. -/
def lastFor (es : List (Str × Str)) (q : Str) : Option Str :=
  (es.reverse.find? (fun e => e.1 = q)).map Prod.snd

/-- The record of an amending bag. -/
def record (b : Amending) : MemberInfo := ⟨b.name, b.uri, b.comment, b.extra⟩

/-- The record of the new head bag. -/
def headRecord (m : NewHead) : MemberInfo := ⟨m.name, m.uri, m.comment, m.extra⟩

/-- Records that the member list file can hold. -/
def Writable (ms : List MemberInfo) : Prop := ∀ m ∈ ms, CleanMember m ∧ m.name.head? ≠ some bom

end Verif.Spec
