import Mathlib.Data.Real.Basic

/-!
# Specification: numbers of 53 binary digits
-/

set_option autoImplicit false

namespace Micropol

/-- `x` is a number of at most 53 binary digits, as the doubles of the machine are. -/
def IsDouble (x : ℝ) : Prop := ∃ m e : ℤ, |m| ≤ 2 ^ 53 ∧ x = m * 2 ^ e

end Micropol
