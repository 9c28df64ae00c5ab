import Verif.Model.Integer
import Verif.Spec.Shape

/-!
# Specification: the numbers of an integer type
-/

set_option autoImplicit false

namespace Micropol

/-- The number can be stored in the integer type: two's complement with sign, plain binary without. -/
def IntType.Holds (t : IntType) (v : Int) : Prop :=
  if t.signed then -2 ^ (t.bits - 1) ≤ v ∧ v < 2 ^ (t.bits - 1) else 0 ≤ v ∧ v < 2 ^ t.bits

/-- The array has this integer type: each of its elements can be stored in it. -/
def Img.OfType (A : Img Int) (t : IntType) : Prop := ∀ y x, y < A.h → x < A.w → t.Holds (A.px y x)

end Micropol
