/-!
# Python results

Exceptions are values.  One constructor per exception class the modelled code can raise, plus two
outcomes that Python itself does not report:

* `oob`: an unchecked access outside an array inside a numba (`@njit`) kernel.  numba does no bounds
  checking, so the real effect is undefined behaviour; a theorem concluding `= .ok _` excludes it.
* `hang`: the fuel given to a `while` loop ran out.
-/

set_option autoImplicit false

namespace Micropol

inductive PyErr where
  | valueError
  | nameError
  | typeError
  | keyError
  | indexError
  | attributeError
  | zeroDivisionError
  | unboundLocalError
  | runtimeError
  | fileNotFoundError
  | notFinite      -- a float computation that would give NaN or infinity (not modelled further)
  | oob
  | hang
  deriving DecidableEq, Repr

/-- Result of running a Python function. -/
abbrev Py (α : Type) := Except PyErr α

namespace Py

@[simp] theorem ok_bind {α β} (a : α) (f : α → Py β) :
    (Except.ok a >>= f : Py β) = f a := rfl

@[simp] theorem error_bind {α β} (e : PyErr) (f : α → Py β) :
    ((Except.error e : Py α) >>= f : Py β) = Except.error e := rfl

@[simp] theorem pure_eq {α} (a : α) : (pure a : Py α) = Except.ok a := rfl

@[simp] theorem throw_eq {α} (e : PyErr) : (throw e : Py α) = Except.error e := rfl

@[simp] theorem map_ok {α β} (f : α → β) (a : α) :
    (f <$> (Except.ok a : Py α)) = Except.ok (f a) := rfl

@[simp] theorem map_error {α β} (f : α → β) (e : PyErr) :
    (f <$> (Except.error e : Py α)) = Except.error e := rfl

theorem bind_eq_ok {α β} {x : Py α} {f : α → Py β} {b : β} :
    (x >>= f) = Except.ok b ↔ ∃ a, x = Except.ok a ∧ f a = Except.ok b := by
  cases x with
  | error e => simp
  | ok a => simp

end Py

end Micropol
