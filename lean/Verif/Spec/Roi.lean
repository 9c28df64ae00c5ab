import Verif.Basic.Img
import Mathlib.Analysis.SpecialFunctions.Trigonometric.Basic

/-! # Specification of polar selections -/

set_option autoImplicit false

namespace Micropol

/-- `ρ` and `φ` (degrees in [0, 360)) are the polar coordinates of the vector `(dx, dy)`; the angle of the zero
vector is 0. -/
def IsPolar (dy dx ρ φ : ℝ) : Prop :=
  0 ≤ ρ ∧ dx = ρ * Real.cos (φ * Real.pi / 180) ∧ dy = ρ * Real.sin (φ * Real.pi / 180) ∧ 0 ≤ φ ∧ φ < 360 ∧
    (ρ = 0 → φ = 0)

/-- The grid point `(y, x)` lies in the ring `(r.1, r.2]` and the sector `[t.1, t.2)` around `c`. -/
def InRegion (c r t : ℝ × ℝ) (y x : ℝ) : Prop :=
  ∃ ρ φ, IsPolar (y - c.1) (x - c.2) ρ φ ∧ r.1 < ρ ∧ ρ ≤ r.2 ∧ t.1 ≤ φ ∧ φ < t.2

/-- `n` is `x` without its fractional part. -/
def IsTrunc (x : ℝ) (n : ℤ) : Prop := |(n : ℝ)| ≤ |x| ∧ |x| < |(n : ℝ)| + 1 ∧ 0 ≤ (n : ℝ) * x

/-- `B` is `A` inside the region described by `sel` and `fill` outside. -/
def IsSelection (A : Img ℝ) (sel : Nat → Nat → Prop) (fill : ℝ) (B : Img ℝ) : Prop :=
  B.h = A.h ∧ B.w = A.w ∧
  ∀ y x, y < A.h → x < A.w → (sel y x → B.px y x = A.px y x) ∧ (¬ sel y x → B.px y x = fill)

end Micropol
