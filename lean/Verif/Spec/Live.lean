import Verif.Model.Live
/-!
# What should hold of the lists that `member_bags()` hands out
-/

namespace Verif.Spec

/-- The second, fourth, sixth … entry. -/
def everySecond {α : Type} : List α → List α
  | _ :: b :: rest => b :: everySecond rest
  | _ => []

/-- The program without the changes that the caller makes to a list. -/
def withoutEdits (k : Nat) (l : List LiveOp) : List LiveOp :=
  l.filter (fun a => match a with | .call _ => true | .edit j _ => decide (j ≠ k))

/-- What the caller's changes make of a list. -/
def edited (k : Nat) (ms : List MemberInfo) : List LiveOp → List MemberInfo
  | [] => ms
  | .call _ :: rest => edited k ms rest
  | .edit j f :: rest => edited k (if j = k then f ms else ms) rest

end Verif.Spec
