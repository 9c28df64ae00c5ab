import Verif.Spec.Rebin
import Mathlib.Algebra.Field.Defs

/-! # Specification of a demodulation tensor averaged over blocks -/

set_option autoImplicit false

namespace Micropol

open Finset

variable {K : Type} [Field K]

/-- `r` holds the means of the complete `b × b` blocks of `d`. -/
def IsBlockMeanOf (d r : Img K) (b : Nat) : Prop :=
  r.h = d.h / b ∧ r.w = d.w / b ∧
  ∀ Y X, Y < r.h → X < r.w →
    r.px Y X = (∑ u ∈ range b, ∑ v ∈ range b, d.px (b * Y + u) (b * X + v)) / ((b : K) * (b : K))

/-- All pixels of a complete `b × b` block of `d` are equal. -/
def BlockwiseConstant (d : Img K) (b : Nat) : Prop :=
  ∀ Y X u v, Y < d.h / b → X < d.w / b → u < b → v < b → d.px (b * Y + u) (b * X + v) = d.px (b * Y) (b * X)

end Micropol
