import Verif.Model.Demosaic
import Mathlib.Data.Real.Basic
import Mathlib.Data.Finset.Card
import Mathlib.Data.Finset.Range
import Mathlib.Data.Fin.VecNotation

/-!
# Model of `congrid` (`micropolarray/processing/congrid.py`) and `MicropolImage.congrid`

`scipy.interpolate.interp1d(kind="linear", fill_value="extrapolate")` on the grid 0, 1, ..., n-1 is modelled from its
source: the index is `searchsorted(x, x_new).clip(1, n - 1)`.
-/

set_option autoImplicit false

namespace Micropol

noncomputable section

open Classical Finset

/-- `interp1d(np.arange(n), f)(x)`, for `n >= 2`.
Models: scipy 1.13 `interp1d._call_linear` as used by processing/congrid.py:56-70. -/
def interpLinear (n : Nat) (f : Nat → ℝ) (x : ℝ) : ℝ :=
  let idx := ((range n).filter (fun i : Nat => (i : ℝ) < x)).card
  let idx := min (max idx 1) (n - 1)
  let lo := idx - 1
  let hi := idx
  let slope := (f hi - f lo) / ((hi : ℝ) - (lo : ℝ))
  slope * (x - lo) + f lo

/-- Interpolation along the last axis at the given positions.
Models: processing/congrid.py:57-60, :65-68. -/
def interpRows (A : Img ℝ) (m : Nat) (pos : Nat → ℝ) : Img ℝ :=
  Img.ofFn A.h m (fun y X => interpLinear A.w (fun x => A.px y x) (pos X))

/-- `newa.transpose([1, 0])`.
Models: processing/congrid.py:62-64, :69-70. -/
def transposeImg (A : Img ℝ) : Img ℝ := Img.ofFn A.w A.h (fun y x => A.px x y)

/-- `congrid(a, [newH, newW])` for a 2D array.  A target side equal to 1 divides 0 or more by 0; an input side less
than 2 leaves the interpolation without an interval: both outcomes are lumped together as `notFinite`.
Models: processing/congrid.py:43-72. -/
def congrid (a : Img ℝ) (newH newW : Nat) : Py (Img ℝ) :=
  if a.h < 2 ∨ a.w < 2 ∨ newH = 1 ∨ newW = 1 then .error .notFinite
  else
    let dim0 : Nat → ℝ := fun k => ((a.h : ℝ) - 1) / ((newH : ℝ) - 1) * k
    let dim1 : Nat → ℝ := fun k => ((a.w : ℝ) - 1) / ((newW : ℝ) - 1) * k
    let newa := interpRows a newW dim1
    let newa := interpRows (transposeImg newa) newH dim0
    .ok (transposeImg newa)

/-- The data part of `MicropolImage.congrid(newdim_y, newdim_x)` (non negative dimensions): odd dimensions are
decremented, every family is resized, the families are merged.
Models: micropol_image.py:873-886. -/
def congridData (data : Img ℝ) (newY newX : Nat) : Py (Img ℝ) :=
  let newY := if newY % 2 = 1 then newY - 1 else newY
  let newX := if newX % 2 = 1 then newX - 1 else newX
  splitPolarizations data >>= fun s =>
  congrid (s 0) (newY / 2) (newX / 2) >>= fun c0 =>
  congrid (s 1) (newY / 2) (newX / 2) >>= fun c1 =>
  congrid (s 2) (newY / 2) (newX / 2) >>= fun c2 =>
  congrid (s 3) (newY / 2) (newX / 2) >>= fun c3 =>
  mergePolarizations ![c0, c1, c2, c3]

end

end Micropol
