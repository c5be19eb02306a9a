/-!
# Python exceptions as values

The exceptions that the modelled code raises, as an enumeration.  The message
texts are not modelled.
-/

namespace Verif

/-- The exception classes that can leave the modelled functions.
`multibagError`, `missingFile`: multibag/access/exceptions.py;
`bagError`, `bagValidationError`, `fileMissing`: `bagit.BagError` and subclasses;
`validationError`: multibag/validate/base.py; the others are Python built-ins. -/
inductive PyErr where
  | multibagError | missingFile
  | bagError | bagValidationError | unsafePath
  | validationError
  | valueError | typeError | keyError | indexError | nameError | attributeError
  | runtimeError | unboundLocalError | assertionError | osError | stopIteration
  | zeroDivisionError
deriving DecidableEq, Repr

/-- Decidable equality of results, used to evaluate concrete cases. -/
instance {ε α : Type} [DecidableEq ε] [DecidableEq α] : DecidableEq (Except ε α) := fun a b =>
  match a, b with
  | .ok x, .ok y => if h : x = y then isTrue (by rw [h]) else isFalse (fun e => h (by cases e; rfl))
  | .error x, .error y =>
    if h : x = y then isTrue (by rw [h]) else isFalse (fun e => h (by cases e; rfl))
  | .ok _, .error _ => isFalse (by intro e; cases e)
  | .error _, .ok _ => isFalse (by intro e; cases e)

end Verif
