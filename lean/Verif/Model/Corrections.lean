import Verif.Model.NumPy
import Verif.Model.Stokes
import Verif.Basic.Loop
import Mathlib.Order.Defs.LinearOrder

/-!
# Model of the data corrections and of image arithmetic (pixel data only)

The bookkeeping of the image objects (copies, shared arrays, headers, Stokes update) is in `Model/Object.lean`.
-/

set_option autoImplicit false

namespace Micropol

section
variable {K : Type} [Zero K] [Sub K] [LE K] [DecidableLE K]

/-- Pixel data after `subtract_dark(dark)`.
Models: micropol_image.py:390-391. -/
def subtractDarkData (data dark : Img K) : Py (Img K) := do
  let data ← npBin (fun a b => a - b) data dark
  pure (data.map (fun v => if v ≥ 0 then v else 0))

end

section
variable {K : Type} [Zero K] [One K] [Add K] [Mul K] [Div K] [OfNat K 4]

/-- `_ifov_jitcorrect(data, height, width)`: a numba kernel.
Models: processing/chen_wan_liang_calibration.py:308-322. -/
def ifovJitcorrect (data : Img K) (height width : Nat) : Py (Img K) :=
  forRange 2 height 2 (Img.zeros height width) fun superY corrected =>
    forRange 2 width 2 corrected fun superX corrected =>
      forRange 0 2 1 corrected fun i corrected =>
        forRange 0 2 1 corrected fun j corrected => do
          let a ← data.read (superY + j - 2) (superX + i - 2)
          let b ← data.read (superY + j - 2) (superX + i)
          let c ← data.read (superY + j) (superX + i - 2)
          let d ← data.read (superY + j) (superX + i)
          corrected.write (superY + j) (superX + i) ((1 / 4) * (a + b + c + d))

/-- Pixel data after `correct_ifov()`.
Models: micropol_image.py:425-427. -/
def correctIfovData (data : Img K) : Py (Img K) := ifovJitcorrect data data.h data.w

end

section
variable {K : Type} [Field K] [LinearOrder K]

/-- Pixel data after `correct_flat(flat)`; `junk` is the uninitialised result buffer of `np.divide`.
Models: micropol_image.py:405-411.  A zero mean would make the normalised flat NaN or infinite. -/
def correctFlatData (junk : Nat → Nat → K) (data flat : Img K) : Py (Img K) := do
  let mean ← npMean flat
  if mean = 0 then .error .notFinite
  else do
    let normalizedFlat := flat.map (fun v => v / mean)
    npDivideNoOut junk data normalizedFlat

/-- Pixel data of `clean_hot_pixels(flagged_hot_pix_map)`; `medianFilter` is scipy's `median_filter(·, size=2)`.
Models: micropol_image.py:990-998. -/
def cleanHotPixelsData (medianFilter : Img K → Img K) (data flags : Img K) : Py (Img K) := do
  let subimages ← splitPolarizations data
  let blurred := fun k => medianFilter (subimages k)
  let flagged ← splitPolarizations flags
  let mask := fun k => (flagged k).map (fun v => decide (v = 1))
  let s0 ← npWhere (mask 0) (blurred 0) (subimages 0)
  let s1 ← npWhere (mask 1) (blurred 1) (subimages 1)
  let s2 ← npWhere (mask 2) (blurred 2) (subimages 2)
  let s3 ← npWhere (mask 3) (blurred 3) (subimages 3)
  mergePolarizations ![s0, s1, s2, s3]

/-- `get_hot_pixels(image, threshold)`.
Models: processing/image_cleaning.py:9-22.  `MicropolImage` has no attribute `_set_data_and_Stokes` (it is not
defined in micropol_image.py or image.py), so line 20 raises. -/
def getHotPixels (data : Img K) : Py (Img K) := do
  let _subimages ← splitPolarizations data
  .error .attributeError

end

section
variable {K : Type} [Zero K] [Add K] [Sub K] [Mul K] [Div K] [DecidableEq K]

/-- Second operand of `+ - * /`: an image or a number.
Models: image.py:277-303; micropol_image.py:1004-1010, :1026-1032, :1048-1054, :1070-1076. -/
inductive Operand (K : Type) [Zero K] where
  | image (data : Img K)
  | number (c : K)

/-- Data of `self + second`.  Models: image.py:278-281, micropol_image.py:1005-1010. -/
def addData (data : Img K) : Operand K → Py (Img K)
  | .image d => npBin (fun a b => a + b) data d
  | .number c => .ok (data.map (fun v => v + c))

/-- Data of `self - second`.  Models: image.py:285-288, micropol_image.py:1027-1032. -/
def subData (data : Img K) : Operand K → Py (Img K)
  | .image d => npBin (fun a b => a - b) data d
  | .number c => .ok (data.map (fun v => v - c))

/-- Data of `self * second`.  Models: image.py:292-295, micropol_image.py:1049-1054. -/
def mulData (data : Img K) : Operand K → Py (Img K)
  | .image d => npBin (fun a b => a * b) data d
  | .number c => .ok (data.map (fun v => v * c))

/-- Data of `self / second`.  Models: image.py:299-302, micropol_image.py:1071-1076. -/
def divData (junk : Nat → Nat → K) (data : Img K) : Operand K → Py (Img K)
  | .image d => npDivideNoOut junk data d
  | .number c => .ok (npDivideScalarNoOut junk data c)

end

section
variable {K : Type} [Field K] [LinearOrder K]

/-- `chen_wan_liang_calibration(data, dir)` once the sixteen files `Cij.fits` and `d_ij.fits` have been read.
Models: processing/chen_wan_liang_calibration.py:287 (broadcast of each component into a (h, w) plane is restricted
here to components of the right shape, other shapes being an error), :291-305.  `store` is the conversion done when a
value is assigned into `corrected_data`, which has the type of the given data (line 275): nothing for float data. -/
def chenWanLiangStored (store : K → K) (C : Fin 4 → Fin 4 → Img K) (dij data : Img K) : Py (Img K) := do
  if ¬ (∀ i j, (C i j).h = data.h ∧ (C i j).w = data.w) then .error .valueError
  else do
    let pMinusD ← npBin (fun a b => a - b) data dij
    let corrected ← forRange 0 data.h 2 (Img.zeros data.h data.w) fun superY corrected =>
      forRange 0 data.w 2 corrected fun superX corrected =>
        -- reshape(4, 1) of the slice needs four elements
        if superY + 2 ≤ data.h ∧ superX + 2 ≤ data.w ∧ superY + 2 ≤ pMinusD.h ∧ superX + 2 ≤ pMinusD.w then do
          let v (k : Fin 4) : K := pMinusD.px (superY.toNat + k.val / 2) (superX.toNat + k.val % 2)
          let m (i : Fin 4) : K := store ((C i 0).px superY.toNat superX.toNat * v 0 + (C i 1).px superY.toNat superX.toNat * v 1
            + (C i 2).px superY.toNat superX.toNat * v 2 + (C i 3).px superY.toNat superX.toNat * v 3)
          pure (Img.ofFn corrected.h corrected.w (fun y x =>
            if superY ≤ y ∧ (y : Int) < superY + 2 ∧ superX ≤ x ∧ (x : Int) < superX + 2 then
              m ⟨2 * ((y - superY.toNat) % 2) + (x - superX.toNat) % 2, by omega⟩
            else corrected.px y x))
        else .error .valueError
    ifovJitcorrect corrected data.h data.w

/-- `chen_wan_liang_calibration(data, dir)` of float data.
Models: processing/chen_wan_liang_calibration.py:260-305. -/
def chenWanLiang (C : Fin 4 → Fin 4 → Img K) (dij data : Img K) : Py (Img K) := chenWanLiangStored id C dij data

end

end Micropol
