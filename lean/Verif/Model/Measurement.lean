import Verif.Model.Prepare
import Verif.Model.Folder
import Verif.Model.Disk

/-!
# Model of the whole of `calculate_demodulation_tensor`, and of the program that measures with it

Simplifications: those of `Model/Prepare`, `Model/Calibration` and `Model/Folder`.
-/

set_option autoImplicit false

namespace Micropol

noncomputable section

/-- The maps that are written.
Models: processing/demodulation.py:722-754. -/
def CalibMaps.output (m : CalibMaps) : CalibOutput ℝ := ⟨m.mij, m.cov, m.tk, m.eff, m.phase, m.fitFound, m.chisq⟩

/-- `calculate_demodulation_tensor` with the writing of the files: the output folder afterwards.
Models: processing/demodulation.py:269-754. -/
def calibrateInto (fs : Name → Option (Img ℝ)) (fit : GaussFit) (env : CalibEnv) (a : CalibArgs) (ny nx : Nat) (schedule : List Nat)
    (f : CalibFolder ℝ) : Py (CalibFolder ℝ) := do
  let maps ← calculateDemodulationTensor fs fit env a ny nx schedule
  pure (saveCalibration maps.output f)

end

end Micropol
