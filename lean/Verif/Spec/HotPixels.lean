import Mathlib.Data.Real.Basic
import Mathlib.Data.List.Basic

/-! # Vocabulary: the third smallest of four numbers, neighbours of the same polarizer -/

set_option autoImplicit false

namespace Micropol

/-- `v` is the third smallest of `a b c d`. -/
def ThirdOf (v a b c d : ℝ) : Prop := ∃ p q s, [p, q, v, s].Perm [a, b, c, d] ∧ p ≤ q ∧ q ≤ v ∧ v ≤ s

/-- The row (or column) of the pixel of the same polarizer before `y`; in the first superpixel, `y` itself. -/
def prevSame (y : Nat) : Nat := if 2 ≤ y then y - 2 else y

end Micropol
