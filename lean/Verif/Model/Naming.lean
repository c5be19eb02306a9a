import Verif.Model.SplitRun
/-!
# The naming iterator of `apply_iter` (multibag/split.py:197-272)

`apply_iter` asks its naming iterator for names by the method `next` (split.py:264), which iterators of Python 3 do
not have unless their class defines it, as `SimpleNamer` does (split.py:734-735).
-/

namespace Verif

/-- An object that is given as naming iterator. -/
structure Namer where
  /-- what `next(it)` yields until it raises `StopIteration` -/
  names : List Str
  /-- whether the object has a method called `next` -/
  hasNext : Bool

/-- `apply_iter` with a naming iterator or without (split.py:197-399), run until it ends or raises: `naming_iter.next()`
(split.py:264) raises `AttributeError` if there is no such method, before the first bag is made. -/
def applyNamedRun {σ : Type} (fs : OutFS σ) (S : Source) (blen : Str → Nat) (o : ApplyOpts) (plan : List Manifest)
    (namer : Option Namer) (d : σ) : Outcome Unit σ :=
  match namer with
  | none => applyRun fs S blen o plan [] d
  | some it =>
    if it.hasNext then applyRun fs S blen o plan it.names d
    else
      match initialIndex S with
      | .error e => (.error e, d)
      | .ok _ =>
        match plan with
        | [] => (.ok (), d)
        | _ :: _ => (.error .attributeError, d)

end Verif
