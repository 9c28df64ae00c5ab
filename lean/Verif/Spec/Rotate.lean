import Verif.Basic.Img

/-! # Specification of quarter turns and flips of an array -/

set_option autoImplicit false

namespace Micropol

variable {α : Type} [Zero α]

/-- A counterclockwise quarter turn: the right column becomes the top row. -/
def Img.quarterTurn (A : Img α) : Img α := Img.ofFn A.w A.h (fun y x => A.px x (A.w - 1 - y))

/-- Upside down. -/
def Img.flipRows (A : Img α) : Img α := Img.ofFn A.h A.w (fun y x => A.px (A.h - 1 - y) x)

/-- Left to right. -/
def Img.flipCols (A : Img α) : Img α := Img.ofFn A.h A.w (fun y x => A.px y (A.w - 1 - x))

end Micropol
