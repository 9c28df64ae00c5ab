import Verif.Basic.Img
import Mathlib.Data.Real.Basic
import Mathlib.Data.List.Sort

/-!
# Model of `scipy.ndimage.median_filter`

`Model/Corrections.lean` takes the filter of `clean_hot_pixels` as a parameter.  Here is what scipy 1.13.0 (the pinned version)
does for `median_filter(image, size=n)`: `mode='reflect'`, `origin=0`, the window is a square of `n * n` pixels whose
element `n // 2, n // 2` is on the pixel, and the filter takes the element with rank `n * n // 2` of the sorted window.
-/

set_option autoImplicit false

namespace Micropol

noncomputable section

/-- The index that `mode='reflect'` uses for index `i` of an axis of length `n`: `(d c b a | a b c d | d c b a)`.
Models: the call of micropol_image.py:992. -/
def reflectIndex (n : Nat) (i : ℤ) : Nat :=
  if i % (2 * n) < n then (i % (2 * n)).toNat else (2 * n - 1 - i % (2 * n)).toNat

/-- The pixels under the window of `size * size` pixels at row `y` and column `x`, row by row.
Models: the call of micropol_image.py:992. -/
def filterWindow (size : Nat) (A : Img ℝ) (y x : Nat) : List ℝ :=
  (List.range size).flatMap fun (a : Nat) => (List.range size).map fun (b : Nat) =>
    A.px (reflectIndex A.h ((y : ℤ) + (a : ℤ) - (size / 2 : Nat))) (reflectIndex A.w ((x : ℤ) + (b : ℤ) - (size / 2 : Nat)))

open Classical in
/-- The element of the given rank in sorted order.
Models: the call of micropol_image.py:992. -/
def ofRank (rank : Nat) (l : List ℝ) : ℝ := (l.insertionSort (fun a b => a ≤ b)).getD rank 0

/-- `scipy.ndimage.median_filter(A, size=size)`.
Models: the call of micropol_image.py:992. -/
def medianFilter (size : Nat) (A : Img ℝ) : Img ℝ :=
  Img.ofFn A.h A.w fun y x => ofRank (size * size / 2) (filterWindow size A y x)

end

end Micropol
