import Verif.Model.Object
import Verif.Spec.Rounding
import Mathlib.Analysis.SpecialFunctions.Trigonometric.Basic

/-!
# The rotation of one plane: `PILImage.fromarray(plane).rotate(angle)`

Pillow 10.3.0 is not part of the repository; what is written here is its Python `Image.fromarray`, `Image.rotate` and its C
`ImagingTransformAffine` for nearest neighbours.  Simplifications: the sine, the cosine and the six coefficients are exact (Pillow
rounds them to 15 decimals and to doubles); planes are smaller than 32768 pixels a side, so that Pillow takes its fixed point path.
-/

set_option autoImplicit false

namespace Micropol

noncomputable section

/-- A number as a 32 bit float: nearest with 24 binary digits, ties to even (exponents without limits).
Models: `PILImage.fromarray` of micropol_image.py:899 and :906, which turns an array of doubles into an image of mode "F". -/
def roundSingle (x : ℝ) : ℝ :=
  nearestEven (x / 2 ^ (Int.log 2 |x| - 23)) * 2 ^ (Int.log 2 |x| - 23)

/-- Pillow's 16.16 fixed point numbers, `FLOOR(v * 65536.0 + 0.5)`.
Models: the calls of micropol_image.py:900 and :907. -/
def pilFix (v : ℝ) : ℤ := ⌊v * 65536 + 0.5⌋

/-- A coordinate that is inside `0 .. n - 1`.
Models: the calls of micropol_image.py:900 and :907. -/
def pilInside (n : Nat) (i : ℤ) : Option Nat := if 0 ≤ i ∧ i < n then some i.toNat else none

/-- Row and column of the pixel that an affine transformation puts on row `y` and column `x`, or nothing; the coefficients are those of
a rotation by `angle` degrees about the centre.
Models: the calls of micropol_image.py:900 and :907. -/
def pilAffine (angle : ℝ) (h w y x : Nat) : Option (Nat × Nat) :=
  let t := -(angle * Real.pi / 180)
  let a := Real.cos t
  let b := Real.sin t
  let d := -Real.sin t
  let e := Real.cos t
  let c := a * (-(w / 2)) + b * (-(h / 2)) + w / 2
  let f := d * (-(w / 2)) + e * (-(h / 2)) + h / 2
  let xx := pilFix (c + a * 0.5 + b * 0.5) + y * pilFix b + x * pilFix a
  let yy := pilFix (f + d * 0.5 + e * 0.5) + y * pilFix e + x * pilFix d
  match pilInside w (xx / 65536), pilInside h (yy / 65536) with
  | some col, some row => some (row, col)
  | _, _ => none

open Classical in
/-- Row and column of the pixel that `rotate(angle)` puts on row `y` and column `x`, or nothing (the pixel becomes 0).  Multiples of a
half turn, and of a quarter turn on squares, are transpositions.
Models: the calls of micropol_image.py:900 and :907. -/
def pilSource (angle : ℝ) (h w y x : Nat) : Option (Nat × Nat) :=
  let angle := angle - 360 * ⌊angle / 360⌋
  if angle = 0 then some (y, x)
  else if angle = 180 then some (h - 1 - y, w - 1 - x)
  else if angle = 90 ∧ w = h then some (x, w - 1 - y)
  else if angle = 270 ∧ w = h then some (h - 1 - x, y)
  else pilAffine angle h w y x

/-- `np.asarray(PILImage.fromarray(A).rotate(angle), dtype=float)`.
Models: micropol_image.py:899-901, :906-908. -/
def pilRotate (angle : ℝ) (A : Img ℝ) : Py (Img ℝ) :=
  .ok (Img.ofFn A.h A.w fun y x =>
    match pilSource angle A.h A.w y x with
    | some (r, c) => roundSingle (A.px r c)
    | none => 0)

end

end Micropol
