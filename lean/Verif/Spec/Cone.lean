import Verif.Model.Object
import Verif.Spec.Stokes
import Mathlib.Algebra.BigOperators.Fin

/-! # Specification: conditions on light that adding light keeps -/

set_option autoImplicit false

namespace Micropol

/-- The four pixels of superpixel `(Y, X)`, row by row. -/
def Img.four (A : Img ℝ) (Y X : Nat) : Fin 4 → ℝ := fun q => A.px (2 * Y + q.val / 2) (2 * X + q.val % 2)

/-- A condition on the four pixels of a superpixel that darkness meets and that is kept when light is added or scaled. -/
structure IsCone (C : (Fin 4 → ℝ) → Prop) : Prop where
  zero : C fun _ => 0
  add : ∀ v w, C v → C w → C fun q => v q + w q
  scale : ∀ (c : ℝ) v, 0 ≤ c → C v → C fun q => c * v q

/-- Every superpixel meets the condition. -/
def Img.AllMeet (A : Img ℝ) (C : (Fin 4 → ℝ) → Prop) : Prop :=
  ∀ Y X, Y < A.h / 2 → X < A.w / 2 → C (A.four Y X)

/-- Calls that give a new array meeting the condition, or add up, move or scale light: copies, rebinning, shifts that fill with 0,
field-of-view correction, adding images, multiplying by a number ≥ 0 and dividing by one > 0; and `demosaic` and `demodulate`,
which leave the pixels alone. -/
def Op.AddsLight (C : (Fin 4 → ℝ) → Prop) : Op → Prop
  | .setDefault _ => True
  | .fromArray d _ none none _ => d.AllMeet C
  | .fromImage _ _ none none _ => True
  | .rebin _ _ => True
  | .shift _ _ _ m => m = 0
  | .correctIfov _ => True
  | .arithImage .add _ _ _ => True
  | .arithNumber .mul _ c _ => 0 ≤ c
  | .arithNumber .div _ c _ => 0 < c
  | .demosaic _ _ => True
  | .demodulate _ _ _ => True
  | _ => False

/-- The polarized part of the light of a superpixel is at most `M` times its intensity. -/
noncomputable def PolarizedAtMost (L : Layout) (M : ℝ) (v : Fin 4 → ℝ) : Prop :=
  Real.sqrt ((v L.p0 - v L.p90) ^ 2 + (v L.p45 - v L.pm45) ^ 2) ≤ M * ((∑ q, v q) / 2)

end Micropol
