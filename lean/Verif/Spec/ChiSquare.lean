import Verif.Spec.Calibration
import Mathlib.Algebra.BigOperators.Fin

/-!
# Specification: quality of a fit
-/

set_option autoImplicit false

namespace Micropol

/-- Light behind a micropolarizer of throughput `p 0`, efficiency `p 1` and orientation `p 2`, for a polarizer at angle `θ`
(radians). -/
noncomputable def malusCurve (p : Fin 3 → ℝ) (θ : ℝ) : ℝ := p 0 / 2 * (1 + p 1 * Real.cos (2 * (p 2 - θ)))

/-- Distance of sample `i` from the fitted curve. -/
noncomputable def misfit (call : FitCall) (p : Fin 3 → ℝ) (i : Fin call.n) : ℝ := call.ydata i - malusCurve p (call.xdata i)

/-- The chi square of a fit: squares of the distances in units of the errors. -/
noncomputable def chiSquare (call : FitCall) (p : Fin 3 → ℝ) : ℝ := ∑ i, (misfit call p i / call.sigma i) ^ 2

end Micropol
