import Verif.Spec.Object
import Verif.Spec.Shape
import Mathlib.Analysis.SpecialFunctions.Trigonometric.Basic

/-!
# Specification: turning a picture

Points of a picture have real coordinates; the pixel in row `y` and column `x` is the unit square with centre `(x + 1/2, y + 1/2)`.
Rows are counted downwards.
-/

set_option autoImplicit false

namespace Micropol

noncomputable section

/-- The horizontal coordinate of the point that a counterclockwise turn by `angle` degrees about the centre brings to the centre of
pixel `(y, x)`. -/
def cameFromX (angle : ℝ) (h w y x : Nat) : ℝ :=
  w / 2 + Real.cos (angle * Real.pi / 180) * (x + 1 / 2 - w / 2) - Real.sin (angle * Real.pi / 180) * (y + 1 / 2 - h / 2)

/-- The vertical coordinate of that point. -/
def cameFromY (angle : ℝ) (h w y x : Nat) : ℝ :=
  h / 2 + Real.sin (angle * Real.pi / 180) * (x + 1 / 2 - w / 2) + Real.cos (angle * Real.pi / 180) * (y + 1 / 2 - h / 2)

/-- How far positions may be off in pixel `(y, x)`: half a unit of a 16 bit fraction for each step. -/
def offBy (y x : Nat) : ℝ := (1 + y + x) / 2 ^ 17

/-- `src` says which pixel goes where when a picture of `h` × `w` pixels is turned by `angle` degrees: the pixel in which the point
lies that is turned to the centre of `(y, x)`, nothing if that point lies outside of the picture, both up to `offBy`. -/
structure TurnsBy (angle : ℝ) (h w : Nat) (src : Nat → Nat → Option (Nat × Nat)) : Prop where
  inside : ∀ y x r c, y < h → x < w → src y x = some (r, c) → r < h ∧ c < w ∧
    |c + 1 / 2 - cameFromX angle h w y x| ≤ 1 / 2 + offBy y x ∧ |r + 1 / 2 - cameFromY angle h w y x| ≤ 1 / 2 + offBy y x
  outside : ∀ y x, y < h → x < w → src y x = none →
    cameFromX angle h w y x < offBy y x ∨ w - offBy y x ≤ cameFromX angle h w y x ∨
    cameFromY angle h w y x < offBy y x ∨ h - offBy y x ≤ cameFromY angle h w y x

/-- A number with at most 24 binary digits. -/
def IsSingle (v : ℝ) : Prop := ∃ m e : ℤ, |m| ≤ 2 ^ 24 ∧ v = m * 2 ^ e

/-- All pixels are numbers with at most 24 binary digits. -/
def Img.Singles (A : Img ℝ) : Prop := ∀ y x, y < A.h → x < A.w → IsSingle (A.px y x)

/-- `v` is `u` rounded to 24 digits. -/
def IsRounded (u v : ℝ) : Prop := |v - u| ≤ 1 / 2 ^ 24 * |u| ∧ (IsSingle u → v = u)

/-- The pixels of `B` are those of `A` that `src` names, rounded to 24 digits, and 0 where it names none. -/
def Img.MovedBy (src : Nat → Nat → Option (Nat × Nat)) (A B : Img ℝ) : Prop :=
  B.SameShape A ∧ ∀ y x, y < A.h → x < A.w →
    (∀ r c, src y x = some (r, c) → IsRounded (A.px r c) (B.px y x)) ∧ (src y x = none → B.px y x = 0)

end

end Micropol
