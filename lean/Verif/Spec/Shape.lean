import Verif.Basic.Img

/-! # Shapes -/

set_option autoImplicit false

namespace Micropol

/-- Same height and width. -/
def Img.SameShape {α β : Type} [Zero α] [Zero β] (A : Img α) (B : Img β) : Prop := A.h = B.h ∧ A.w = B.w

/-- Height `h` and width `w`. -/
def Img.HasShape {α : Type} [Zero α] (A : Img α) (h w : Nat) : Prop := A.h = h ∧ A.w = w

end Micropol
