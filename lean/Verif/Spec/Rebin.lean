import Verif.Basic.Img
import Mathlib.Algebra.BigOperators.Group.Finset.Basic

/-! # Specification of binning -/

set_option autoImplicit false

namespace Micropol

open Finset

/-- `r` is the largest multiple of `m` that does not exceed `n`. -/
def IsLargestMultiple (m n r : Nat) : Prop :=
  m ∣ r ∧ r ≤ n ∧ ∀ q, m ∣ q → q ≤ n → q ≤ r

variable {K : Type} [AddCommMonoid K]

/-- Total of the pixels in the upper left `h × w` corner. -/
def Img.totalOn (A : Img K) (h w : Nat) : K := ∑ y ∈ range h, ∑ x ∈ range w, A.px y x

/-- Total of all pixels. -/
def Img.total (A : Img K) : K := A.totalOn A.h A.w

/-- `r` is `d` binned `b × b`: each pixel of `r` is the sum of the corresponding block of `d`, and there are as
many pixels as complete blocks. -/
def IsBinningOf (d r : Img K) (b : Nat) : Prop :=
  r.h = d.h / b ∧ r.w = d.w / b ∧
  ∀ Y X, Y < r.h → X < r.w → r.px Y X = ∑ u ∈ range b, ∑ v ∈ range b, d.px (b * Y + u) (b * X + v)

end Micropol
