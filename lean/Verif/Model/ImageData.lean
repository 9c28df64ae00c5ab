import Verif.Model.Rebin
import Verif.Model.Shift

/-!
# Data-level effect of `Image.rebin` and `MicropolImage.rebin`

The bookkeeping around them (copies, headers, Stokes vector) is in the object-level model.
-/

set_option autoImplicit false

namespace Micropol

variable {K : Type} [AddCommMonoid K]

/-- Data computed by `Image.rebin(binning)`.
Models: image.py:163-169. -/
noncomputable def imageRebinData (d : Img K) (binning : Int) : Py (Img K) :=
  if binning ≤ 0 then .error .valueError else standardRebin d binning

/-- Data computed by `MicropolImage.rebin(binning)`.
Models: micropol_image.py:836-842. -/
noncomputable def micropolRebinData (d : Img K) (binning : Int) : Py (Img K) :=
  if binning ≤ 0 then .error .valueError else micropolarrayRebin d binning

end Micropol
