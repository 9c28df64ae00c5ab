import Verif.Model.Occulter
import Verif.Spec.Units

/-!
# Images seen otherwise, for the search of the occulter
-/

set_option autoImplicit false

namespace Micropol

noncomputable section

/-- Rows and columns exchanged. -/
def Img.turned (A : Img ℝ) : Img ℝ := Img.ofFn A.w A.h fun y x => A.px x y

/-- The rows in reverse order. -/
def Img.upsideDown (A : Img ℝ) : Img ℝ := Img.ofFn A.h A.w fun y x => A.px (A.h - 1 - y) x

/-- The images have the same size, the same middle row and the same middle column. -/
structure SameCross (A B : Img ℝ) : Prop where
  height : B.h = A.h
  width : B.w = A.w
  row : ∀ x, x < A.w → B.px (A.h / 2) x = A.px (A.h / 2) x
  column : ∀ y, y < A.h → B.px y (A.w / 2) = A.px y (A.w / 2)

/-- A fit that works in every unit: for values and first guess in a unit `c` times smaller (levels `max`, `min`, not slope and
position), it returns the same answer in that unit. -/
def SigmoidFit.AnyUnit (fit : SigmoidFit) : Prop :=
  ∀ (c : ℝ) (call : SigmoidCall), 0 < c →
    fit ⟨call.xs, call.ys.map (c * ·), ![c * call.p0 0, c * call.p0 1, call.p0 2, call.p0 3]⟩ =
      (fit call).map fun p => ![c * p 0, c * p 1, p 2, p 3]

end

end Micropol
