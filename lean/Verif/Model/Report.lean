import Verif.Model.Validate
/-!
# The text of a validation error (validate/base.py)

Simplification: the profile version and the explanation of a test (`profile_version`, `specification`) are not part of
the model's issues; they are given here by a constant and a function.
-/

namespace Verif

/-- What is said of a test besides its result. -/
structure Wording where
  version : Str
  spec : Issue → Str

/-- `type_labels[t].upper()` (validate/base.py:26). -/
def typeLabel (t : Nat) : Str :=
  if t = ERROR then py!"ERROR" else if t = WARN then py!"WARNING" else py!"RECOMMENDATION"

/-- `summary` (validate/base.py:132-142). -/
def Issue.summary (w : Wording) (i : Issue) : Str :=
  let out := (if i.passed then py!"PASSED" else typeLabel i.type) ++ py!": multibag " ++ w.version ++ py!" " ++ i.label
  if w.spec i = [] then out else out ++ py!": " ++ w.spec i

/-- `description` (validate/base.py:144-159). -/
def Issue.description (w : Wording) (i : Issue) : Str :=
  if i.comments = [] then i.summary w
  else i.summary w ++ py!"\n   " ++ (py!"\n   ").intercalate i.comments

/-- `__str__` of an issue (validate/base.py:161-165). -/
def Issue.str (w : Wording) (i : Issue) : Str :=
  match i.comments with
  | [] => i.summary w
  | c :: _ => if c = [] then i.summary w else i.summary w ++ py!" (" ++ c ++ py!")"

/-- `str(n)` of a number. -/
def decimal (n : Nat) : Str := Nat.toDigits 10 n

/-- The message and the details of a `MultibagValidationError` (validate/base.py:362-377). -/
def Results.message (w : Wording) (r : Results) : Str × List Str :=
  match r.failed with
  | [] => (py!"Unknown Multibag validation failure", [])
  | [i] => (i.summary w, i.comments)
  | _ => (decimal r.countFailed ++ py!" validation errors detected", r.failed.map (Issue.description w))

/-- `str` of a `BagValidationError` of the external `bagit` package. -/
def bagErrorStr (m : Str × List Str) : Str :=
  if m.2 = [] then m.1 else m.1 ++ py!": " ++ (py!"; ").intercalate m.2

/-- `__str__` of a `MultibagValidationError` (validate/base.py:379-390). -/
def Results.errorStr (w : Wording) (r : Results) : Str :=
  if r.countFailed < 2 then bagErrorStr (r.message w)
  else (r.message w).1 ++ (if r.countFailed > 3 then py!", including" else []) ++ py!":" ++
    ((r.failed.take 3).map (fun f => py!"\n\n * " ++ f.description w)).flatten

end Verif
