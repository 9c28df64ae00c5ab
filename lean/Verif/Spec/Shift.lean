import Verif.Basic.Img

/-! # What "shifted by (y, x)" means, independently of the implementation -/

set_option autoImplicit false

namespace Micropol

variable {α : Type} [Zero α]

/-- `r` is `d` moved by `y` rows and `x` columns, with `m` where nothing was moved in:
the source pixel `(j', i')` is found at `(j' + y, i' + x)` whenever that is inside the frame, and a pixel that
receives no source pixel is `m`. -/
def IsShiftOf (d r : Img α) (y x : Int) (m : α) : Prop :=
  r.h = d.h ∧ r.w = d.w ∧
  (∀ j i j' i' : Nat, j < d.h → i < d.w → j' < d.h → i' < d.w → (j : Int) = j' + y → (i : Int) = i' + x →
    r.px j i = d.px j' i') ∧
  (∀ j i : Nat, j < d.h → i < d.w →
    (¬ ∃ j' i' : Nat, j' < d.h ∧ i' < d.w ∧ (j : Int) = j' + y ∧ (i : Int) = i' + x) → r.px j i = m)

end Micropol
