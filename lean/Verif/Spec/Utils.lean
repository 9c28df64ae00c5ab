import Mathlib.Analysis.SpecialFunctions.Trigonometric.Basic

/-! # Specification of angle normalisation -/

set_option autoImplicit false

namespace Micropol

/-- `r` is the representative of `a` in `(-half, half]` modulo `2 * half`. -/
def IsRepresentative (half a r : ℝ) : Prop := -half < r ∧ r ≤ half ∧ ∃ k : ℤ, r = a + (2 * half) * k

end Micropol
