import Verif.Spec.Normalisation
import Verif.Spec.Units

/-! # Specification of a change of unit of the calibration frames -/

set_option autoImplicit false

namespace Micropol

noncomputable section

/-- The same files with all pixel values in the other unit. -/
def filesInUnit (c : ℝ) (fs : Name → Option (Img ℝ)) : Name → Option (Img ℝ) := fun n => (fs n).map (inUnit c)

/-- The same prescribed signal in the other unit. -/
def signalInUnit (c : ℝ) : NormArg → NormArg
  | .missing => .missing
  | .number s => .number (c * s)
  | .image A => .image (inUnit c A)
  | .series L => .series (L.map (inUnit c))

/-- The same arguments: the prescribed signal and the gain (electrons for one unit of the frames) for the other unit. -/
def argsInUnit (c : ℝ) (a : CalibArgs) : CalibArgs := { a with gain := a.gain / c, normS := signalInUnit c a.normS }

/-- The caller prescribes the signal, and no value of it is negative. -/
def PrescribedNonneg : NormArg → Prop
  | .missing => False
  | .number s => 0 ≤ s
  | .image A => ∀ y x, 0 ≤ A.px y x
  | .series L => ∀ A ∈ L, ∀ y x, 0 ≤ A.px y x

/-- The fit of a gaussian (height, centre, width) does not depend on the unit of the abscissae. -/
def FitUnitFree (c : ℝ) (fit : GaussFit) : Prop :=
  ∀ (xs ys : List ℝ) (height centre width : ℝ),
    fit (xs.map (c * ·)) ys ![height, c * centre, c * width] =
      (fit xs ys ![height, centre, width]).map (fun p => ![p 0, c * p 1, c * p 2])

/-- Centre plus four widths of a fitted gaussian is never negative. -/
def FitNonneg (fit : GaussFit) : Prop := ∀ xs ys p0 p, fit xs ys p0 = some p → 0 ≤ p 1 + 4 * p 2

/-- The files with the same image `B` added to all of them. -/
def filesPlus (B : Img ℝ) (fs : Name → Option (Img ℝ)) : Name → Option (Img ℝ) :=
  fun n => (fs n).map fun A => Img.ofFn A.h A.w fun y x => A.px y x + B.px y x

end

end Micropol
