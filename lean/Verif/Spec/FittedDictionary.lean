import Verif.Spec.AngleDic
import Verif.Model.Calibration

/-! # Specification of the angle dictionary of a calibration -/

set_option autoImplicit false

namespace Micropol

/-- The third parameter that a fit returns, the phase, is between its bounds if the first guess is, as scipy documents. -/
def CalibEnv.KeepsPhaseBounds (env : CalibEnv) : Prop :=
  ∀ c p cov, c.lower 2 ≤ c.p0 2 → c.p0 2 ≤ c.upper 2 → env.curveFit c = some (p, cov) → c.lower 2 ≤ p 2 ∧ p 2 ≤ c.upper 2

/-- The fit returns the first guess of the phase, or raises. -/
def CalibEnv.KeepsPhaseGuess (env : CalibEnv) : Prop := ∀ c p cov, env.curveFit c = some (p, cov) → p 2 = c.p0 2

/-- The orientation `p` is within 7.5 degrees (exclusive) of the nominal angle, modulo 180 degrees. -/
def CloseToNominal (nominal p : ℝ) : Prop := ∃ n : ℤ, |p - nominal - 180 * n| < 7.5

/-- The predicted phases `p` (degrees) are close to the nominal angles of the layout. -/
def Layout.Predicted (L : Layout) (p : Fin 4 → ℝ) : Prop :=
  CloseToNominal 0 (p L.p0) ∧ CloseToNominal 45 (p L.p45) ∧ CloseToNominal (-45) (p L.pm45) ∧ CloseToNominal 90 (p L.p90)

end Micropol
