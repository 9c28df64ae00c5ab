import Verif.Spec.Prepare

/-! # Vocabulary for the zero of the polarizer angles -/

set_option autoImplicit false

namespace Micropol

noncomputable section

/-- The Stokes vector of the same light when angles are counted from a direction that is `δ` (radians) further back. -/
def turnedStokes (δ : ℝ) (v : Fin 3 → ℝ) : Fin 3 → ℝ :=
  ![v 0, Real.cos (2 * δ) * v 1 - Real.sin (2 * δ) * v 2, Real.sin (2 * δ) * v 1 + Real.cos (2 * δ) * v 2]

/-- The same calibration, when every polarizer orientation is read as `d` degrees more, with other predicted phases. -/
def CalibArgs.turned (a : CalibArgs) (d : ℝ) (previsions : Fin 4 → ℝ) : CalibArgs :=
  { a with orientations := a.orientations.map (· + d), previsions := previsions }

end

end Micropol
