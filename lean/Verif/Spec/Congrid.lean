import Verif.Basic.Img
import Mathlib.Data.Real.Basic

/-! # Specification of resampling -/

set_option autoImplicit false

namespace Micropol

/-- `v` is the bilinear interpolation of `A` at the point `(u, w)` of the rectangle spanned by its pixels. -/
def IsBilinear (A : Img ℝ) (u w v : ℝ) : Prop :=
  ∃ (y x : Nat) (s t : ℝ), y + 1 < A.h ∧ x + 1 < A.w ∧ 0 ≤ s ∧ s ≤ 1 ∧ 0 ≤ t ∧ t ≤ 1 ∧ u = y + s ∧ w = x + t ∧
    v = (1 - s) * ((1 - t) * A.px y x + t * A.px y (x + 1)) + s * ((1 - t) * A.px (y + 1) x + t * A.px (y + 1) (x + 1))

/-- `B` is `A` resampled to `h × w` so that the corners coincide. -/
def IsResampled (A : Img ℝ) (h w : Nat) (B : Img ℝ) : Prop :=
  B.h = h ∧ B.w = w ∧ ∀ Y X, Y < h → X < w →
    IsBilinear A (((A.h : ℝ) - 1) * Y / ((h : ℝ) - 1)) (((A.w : ℝ) - 1) * X / ((w : ℝ) - 1)) (B.px Y X)

end Micropol
