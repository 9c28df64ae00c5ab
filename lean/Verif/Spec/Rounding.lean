import Verif.Model.Rounding
import Mathlib.Data.Int.Log

/-!
# Specification: rounding to 53 binary digits
-/

set_option autoImplicit false

namespace Micropol

/-- `R` rounds as a machine with 53 binary digits: a number of at most 53 digits stays what it is, any other changes by at most
the part `2⁻⁵³` of itself. -/
structure IsRounding (R : ℝ → ℝ) : Prop where
  exact : ∀ m e : ℤ, |m| ≤ 2 ^ 53 → R (m * 2 ^ e) = m * 2 ^ e
  near : ∀ x, |R x - x| ≤ 1 / 2 ^ 53 * |x|

/-- The nearest integer, the even one if there are two. -/
noncomputable def nearestEven (z : ℝ) : ℤ :=
  open Classical in
  if z - ⌊z⌋ < 1 / 2 then ⌊z⌋ else if 1 / 2 < z - ⌊z⌋ then ⌊z⌋ + 1 else if ⌊z⌋ % 2 = 0 then ⌊z⌋ else ⌊z⌋ + 1

/-- IEEE 754 "round to nearest, ties to even" with 53 digits (exponents without limits): `x` is divided by the power of 2 that makes it
a number of 53 digits before the point. -/
noncomputable def roundDouble (x : ℝ) : ℝ :=
  nearestEven (x / 2 ^ (Int.log 2 |x| - 52)) * 2 ^ (Int.log 2 |x| - 52)

/-- The real numbers that the pixels stand for. -/
noncomputable def Img.reals {R : ℝ → ℝ} (A : Img (Fl R)) : Img ℝ := A.map Fl.val

/-- All pixels are whole numbers of size at most `M`, as in frames of a camera. -/
def Img.Whole {R : ℝ → ℝ} (A : Img (Fl R)) (M : ℕ) : Prop :=
  ∀ y x, y < A.h → x < A.w → ∃ n : ℤ, |n| ≤ M ∧ (A.px y x).val = n

/-- `x` is `X` up to the error that `k` roundings can make in numbers of total size `S`. -/
def Within (k : ℕ) (S x X : ℝ) : Prop := |x - X| ≤ ((1 + 1 / 2 ^ 53) ^ k - 1) * S

end Micropol
