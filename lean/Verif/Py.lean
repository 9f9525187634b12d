/-
Python exceptions as values.
-/

namespace Celest

/-- The exception classes the modelled code can raise. -/
inductive PyErr
  | typeError
  | valueError
  | zeroDivisionError
  | arithmeticError
  | indexError
  | attributeError
  | keyError
  | unboundLocalError
  | overflowError
  | warning
  | exception
deriving DecidableEq, Repr

/-- Result of a Python call: a value or a raised exception. -/
abbrev Py (α : Type) := Except PyErr α

instance {α : Type} [DecidableEq α] : DecidableEq (Py α) := fun a b =>
  match a, b with
  | .ok x, .ok y => if h : x = y then isTrue (by rw [h]) else isFalse (by intro e; cases e; exact h rfl)
  | .error x, .error y => if h : x = y then isTrue (by rw [h]) else isFalse (by intro e; cases e; exact h rfl)
  | .ok _, .error _ => isFalse (by intro e; cases e)
  | .error _, .ok _ => isFalse (by intro e; cases e)

end Celest
