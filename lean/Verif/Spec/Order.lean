import Verif.Basic.Img

/-!
# Specification: comparing two processed images
-/

set_option autoImplicit false

namespace Micropol

/-- No pixel of `r` is brighter than the same pixel of `s`. -/
def Img.AtMost {K : Type} [Zero K] [LE K] (r s : Img K) : Prop :=
  r.h = s.h ∧ r.w = s.w ∧ ∀ y x, y < r.h → x < r.w → r.px y x ≤ s.px y x

end Micropol
