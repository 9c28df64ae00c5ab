import Verif.Model.Calibration
import Verif.Model.PolFunctions
import Mathlib.Algebra.BigOperators.Fin

/-!
# Model of the reduced chi square of a calibration fit
-/

set_option autoImplicit false

namespace Micropol

/-- The value assigned to `chisq[pixel_num]` after a fit with parameters `p`; a zero `dof` divides by zero.
Models: processing/demodulation.py:913-920. -/
noncomputable def reducedChisq (call : FitCall) (p : Fin 3 → ℝ) (dof : Int) : Py ℝ :=
  let residuals := fun i => Malus (call.xdata i) (p 0) (p 1) (p 2) - call.ydata i
  if dof = 0 then .error .notFinite
  else .ok ((∑ i, (residuals i * residuals i) / call.sigma i) / (dof : ℝ))

/-- The environment of a calibration computes the reduced chi square with the expression above wherever that is finite.
Models: processing/demodulation.py:917-920. -/
def CalibEnv.ComputesChisq (env : CalibEnv) : Prop :=
  ∀ call p dof v, reducedChisq call p dof = .ok v → env.chisq call p dof = v

end Micropol
