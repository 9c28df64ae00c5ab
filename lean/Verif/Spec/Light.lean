import Verif.Model.Object
import Verif.Model.PilRotate
import Verif.Spec.Stokes

/-! # Vocabulary for images that light can have made -/

set_option autoImplicit false

namespace Micropol

/-- No pixel is negative. -/
def Img.NonNeg (A : Img ℝ) : Prop := ∀ y x, y < A.h → x < A.w → 0 ≤ A.px y x

/-- No number of uninitialised memory is negative. -/
def JunkNonNeg (junk : Nat → Nat → ℝ) : Prop := ∀ y x, 0 ≤ junk y x

/-- Four different pixels of the superpixel carry the four orientations. -/
def ProperDic (dic : AngleDic) : Prop := ∃ L : Layout, L.Proper ∧ L.Describes dic

/-- A call that brings in no negative numbers: arrays, fill values, factors and summands are not negative, no image is subtracted with
`-` (dark frames may be subtracted), hot pixels are replaced by a filter that makes no negative numbers of others, and rotations are PIL's. -/
def Op.AddsNoNegative : Op → Prop
  | .setDefault _ => True
  | .fromArray d _ _ _ junk => d.NonNeg ∧ JunkNonNeg junk
  | .fromImage _ _ _ _ junk => JunkNonNeg junk
  | .rebin _ _ => True
  | .congrid _ _ _ => True
  | .rotate _ rot => ∃ angle, rot = pilRotate angle
  | .demodulate _ _ _ => True
  | .shift _ _ _ missing => 0 ≤ missing
  | .cleanHotPixels _ _ median => ∀ A : Img ℝ, A.NonNeg → (median A).NonNeg
  | .arithImage op _ _ junk => op ≠ .sub ∧ JunkNonNeg junk
  | .arithNumber .add _ c _ => 0 ≤ c
  | .arithNumber .sub _ c _ => c ≤ 0
  | .arithNumber .mul _ c _ => 0 ≤ c
  | .arithNumber .div _ c junk => 0 ≤ c ∧ JunkNonNeg junk
  | .demosaic _ _ => True
  | .subtractDark _ _ => True
  | .correctFlat _ _ junk => JunkNonNeg junk
  | .correctIfov _ => True
  | .maskOcculter _ _ _ _ _ fill => 0 ≤ fill

/-- A call whose Stokes maps come from pixels: no demodulation, no rotation of maps, and dictionaries with four different pixels. -/
def Op.MapsFromPixels : Op → Prop
  | .demodulate _ _ _ => False
  | .rotate _ _ => False
  | .setDefault dic => ∀ d, dic = some d → ProperDic d
  | .fromArray _ dic _ _ _ => ∀ d, dic = some d → ProperDic d
  | _ => True

end Micropol
