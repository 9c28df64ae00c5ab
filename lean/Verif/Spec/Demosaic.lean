import Verif.Basic.Img
import Mathlib.Algebra.BigOperators.Group.Finset.Basic
import Mathlib.Algebra.Field.Defs

/-! # Specification of demosaicing -/

set_option autoImplicit false

namespace Micropol

open Finset

variable {K : Type} [Field K]

/-- Bilinear interpolation of the samples `s` (one per superpixel) at pixel `(2Y+a, 2X+b)`, `a, b ∈ {0,1}`, with
the last row/column of samples repeated beyond the border: the average of the samples at rows `Y .. Y+a` and
columns `X .. X+b`. -/
def bilinear (s : Img K) (Y X a b : Nat) : K :=
  (∑ a' ∈ range (a + 1), ∑ b' ∈ range (b + 1), s.px (min (Y + a') (s.h - 1)) (min (X + b') (s.w - 1)))
    / (((a + 1) * (b + 1) : Nat) : K)

end Micropol
