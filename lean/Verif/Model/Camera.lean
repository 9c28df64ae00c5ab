import Verif.Model.Roi

/-!
# Model of `micropolarray/cameras.py`

Only the attributes used by the methods are kept.  An attribute a class does not set is `none`; reading it raises
`AttributeError`.
-/

set_option autoImplicit false

namespace Micropol

noncomputable section

open Classical

/-- Attributes of a camera: sides of the sensor, and occulter row, column and radius.
Models: cameras.py:8-10. -/
structure Camera where
  hImage : Nat
  wImage : Nat
  occulterPosLast : Option (Int × Int × Int)

/-- `Kasi()`.
Models: cameras.py:55-64. -/
def kasi : Camera := ⟨3000, 4096, none⟩

/-- `PolarCam()`.
Models: cameras.py:67-92. -/
def polarCam : Camera := ⟨1952, 1952, some (919, 941, 536)⟩

/-- `occulter_roi(data, fill, overoccult)`.
Models: cameras.py:12-28. -/
def cameraOcculterRoi (cam : Camera) (data : Img ℝ) (fill : ℝ) (overoccult : Int) : Py (Img ℝ) :=
  match cam.occulterPosLast with
  | none => .error .attributeError
  | some (y, x, r) =>
    roiFromPolar data (some ((y : ℝ), (x : ℝ))) (some (((r + overoccult : Int) : ℝ), 5000)) (0, 360) fill true

/-- `occulter_mask(overoccult, rmax)`.
Models: cameras.py:30-52. -/
def cameraOcculterMask (cam : Camera) (overoccult : Int) (rmax : Option Int) : Py (Img Bool) :=
  match cam.occulterPosLast with
  | none => .error .attributeError
  | some (y, x, r) => do
    let r : Int := r + overoccult
    let rmax : Int := match rmax with
      | none => min y x
      | some m => m
    let roi ← roiFromPolar (Img.const cam.hImage cam.wImage 1) (some ((y : ℝ), (x : ℝ))) (some ((r : ℝ), (rmax : ℝ)))
      (0, 360) 0 true
    pure (roi.map (fun v => if v ≠ 0 then true else false))

end

end Micropol
