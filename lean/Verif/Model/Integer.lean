import Verif.Model.Corrections
import Mathlib.Algebra.Order.Ring.Int

/-!
# Model of images whose data are integers

An image made from an array keeps the integer type of the array (image.py:36); an image made from files is always of
floats (image.py:55, :67 divide).  This file models the operations whose result on integers differs from the one on
floats: the ones of numpy on two arrays of one integer type stay in that type and drop the bits that do not fit.  The
other operations convert to float first (demosaic.py:38 `dtype=float`, :97 `1.0 *`, rebin.py and image.py:167
`dtype=float`, micropol_image.py:405 true division), or run in numba kernels that compute in 64 bits.
-/

set_option autoImplicit false

namespace Micropol

/-- An integer type of numpy: `bits` bits, with or without sign.
Models: the type of `self.data` in image.py:279-293, micropol_image.py:390, :1006-1050. -/
structure IntType where
  bits : Nat
  signed : Bool

namespace IntType

/-- Smallest number of the type.
Models: the type of `self.data` in image.py:279-293, micropol_image.py:390, :1006-1050. -/
def lo (t : IntType) : Int := if t.signed then -2 ^ (t.bits - 1) else 0

/-- Arithmetic of numpy on arrays of one integer type: bits that do not fit are dropped.
Models numpy itself (trusted base), as used by image.py:279, :286, :293 and micropol_image.py:390, :1006, :1028, :1050. -/
def wrap (t : IntType) (v : Int) : Int := (v - t.lo) % 2 ^ t.bits + t.lo

end IntType

/-- The type `uint16` of the raw frames of the camera.
Models: processing/convert.py:204 (`"<u2"`). -/
def uint16 : IntType := ⟨16, false⟩

/-- The type `int16`.
Models: image.py:222. -/
def int16 : IntType := ⟨16, true⟩

/-- Data of `self + second` for two images of the same integer type.
Models: image.py:279, micropol_image.py:1006. -/
def addInt (t : IntType) (data second : Img Int) : Py (Img Int) := npBin (fun a b => t.wrap (a + b)) data second

/-- Data of `self - second` for two images of the same integer type.
Models: image.py:286, micropol_image.py:1028. -/
def subInt (t : IntType) (data second : Img Int) : Py (Img Int) := npBin (fun a b => t.wrap (a - b)) data second

/-- Data of `self * second` for two images of the same integer type.
Models: image.py:293, micropol_image.py:1050. -/
def mulInt (t : IntType) (data second : Img Int) : Py (Img Int) := npBin (fun a b => t.wrap (a * b)) data second

/-- Pixel data after `subtract_dark(dark)` for an image and a dark of the same integer type.
Models: micropol_image.py:390-391. -/
def subtractDarkInt (t : IntType) (data dark : Img Int) : Py (Img Int) := do
  let data ← npBin (fun a b => t.wrap (a - b)) data dark
  pure (data.map (fun v => if v ≥ 0 then v else 0))

/-- `images[0] + images[1] + …` for images of the same integer type, starting from `first`.
Models: repeated use of image.py:279 and micropol_image.py:1006. -/
def sumInt (t : IntType) (first : Img Int) (rest : List (Img Int)) : Py (Img Int) :=
  rest.foldlM (fun acc B => addInt t acc B) first

section
variable {K : Type} [Field K] [LinearOrder K]

/-- `chen_wan_liang_calibration(data, dir)` of integer data: `corrected_data` has the type of the data (line 275), so
numpy converts each corrected value to that type when it is assigned (lines 300-302); `toInt` is this conversion.
Models: processing/chen_wan_liang_calibration.py:260-305 for integer data. -/
def chenWanLiangInt (toInt : K → Int) (C : Fin 4 → Fin 4 → Img K) (dij : Img K) (data : Img Int) : Py (Img K) :=
  chenWanLiangStored (fun v => (toInt v : K)) C dij (data.map (fun v : Int => (v : K)))

end

end Micropol
