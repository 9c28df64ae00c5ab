import Verif.Spec.Stokes
import Mathlib.Analysis.SpecialFunctions.Trigonometric.Basic

/-! # Specification of the fitted angle dictionary -/

set_option autoImplicit false

namespace Micropol

/-- The orientation `p` is within 22.5 degrees (exclusive) of the nominal angle `nominal`, modulo 180 degrees. -/
def NearNominal (nominal p : ℝ) : Prop := ∃ n : ℤ, |p - nominal - 180 * n| < 22.5

/-- Every nominal angle is approached by the phase at its position of the layout. -/
def Layout.Fits (L : Layout) (p : Fin 4 → ℝ) : Prop :=
  NearNominal 0 (p L.p0) ∧ NearNominal 45 (p L.p45) ∧ NearNominal (-45) (p L.pm45) ∧ NearNominal 90 (p L.p90)

/-- The mean of the values of `phi` at place `(k / 2, k % 2)` of the `m × n` superpixels. -/
noncomputable def placeMean (phi : Img ℝ) (m n : Nat) (k : Fin 4) : ℝ :=
  (∑ y ∈ Finset.range m, ∑ x ∈ Finset.range n, phi.px (2 * y + k.val / 2) (2 * x + k.val % 2)) / ((m * n : Nat) : ℝ)

end Micropol
