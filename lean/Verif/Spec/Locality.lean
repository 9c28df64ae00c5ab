import Verif.Basic.Img

/-!
# Specification: two images that differ in some pixels only
-/

set_option autoImplicit false

namespace Micropol

/-- The images have one shape and agree at every pixel where `P` does not hold. -/
def Img.DiffersOnlyAt {α : Type} [Zero α] (A B : Img α) (P : Nat → Nat → Prop) : Prop :=
  A.h = B.h ∧ A.w = B.w ∧ ∀ y x, y < A.h → x < A.w → ¬ P y x → A.px y x = B.px y x

end Micropol
