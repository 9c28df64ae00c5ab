import Verif.Model.Occulter
import Mathlib.Order.Bounds.Basic

/-! # Specification of the search for the occulter -/

set_option autoImplicit false

namespace Micropol

noncomputable section

/-- On the given positions the values lie exactly on a logistic curve (a smooth step from one level to another) with the middle of
the step at `e`. -/
def IsLogisticOn (s : Nat → Prop) (f : Nat → ℝ) (e : ℝ) : Prop :=
  ∃ lo hi rate : ℝ, lo ≠ hi ∧ rate ≠ 0 ∧ ∀ k : Nat, s k → f k = lo + (hi - lo) / (1 + Real.exp (-(rate * (k - e))))

/-- `curve_fit` does its work: given at least four points that lie exactly on a curve, and started from the greatest and the least
value, the slope 1/2 and the middle of the points, it returns parameters of a curve through all the points. -/
def SigmoidFit.FindsExact (fit : SigmoidFit) : Prop :=
  ∀ c : SigmoidCall, 4 ≤ c.ys.length → c.xs.length = c.ys.length →
    IsGreatest {v | v ∈ c.ys} (c.p0 0) → IsLeast {v | v ∈ c.ys} (c.p0 1) → c.p0 2 = 1 / 2 → c.p0 3 = (c.ys.length : ℝ) / 2 →
    (∃ p : Fin 4 → ℝ, ∀ i, i < c.ys.length → c.ys.getD i 0 = sigmoid (c.xs.getD i 0) (p 0) (p 1) (p 2) (p 3)) →
    ∃ p : Fin 4 → ℝ, fit c = some p ∧
      ∀ i, i < c.ys.length → c.ys.getD i 0 = sigmoid (c.xs.getD i 0) (p 0) (p 1) (p 2) (p 3)

/-- The middle column and the middle row of the image show the edges of a dark object: rows `top` and `bottom`, columns `left` and
`right` (as real numbers; pixel `(y, x)` is the point `(y, x)`). -/
structure HasEdges (A : Img ℝ) (top bottom left right : ℝ) : Prop where
  top : IsLogisticOn (fun y => y < A.h / 2) (fun y => A.px y (A.w / 2)) top
  bottom : IsLogisticOn (fun y => A.h / 2 ≤ y ∧ y < A.h) (fun y => A.px y (A.w / 2)) bottom
  left : IsLogisticOn (fun x => x < A.w / 2) (fun x => A.px (A.h / 2) x) left
  right : IsLogisticOn (fun x => A.w / 2 ≤ x ∧ x < A.w) (fun x => A.px (A.h / 2) x) right

/-- The circle of radius `R` around `(cy, cx)` crosses the middle column at rows `top < bottom` and the middle row at columns
`left < right`. -/
structure CircleCrosses (A : Img ℝ) (cy cx R top bottom left right : ℝ) : Prop where
  pos : 0 < R
  onCircle : (top - cy) ^ 2 + (((A.w / 2 : Nat) : ℝ) - cx) ^ 2 = R ^ 2 ∧ (bottom - cy) ^ 2 + (((A.w / 2 : Nat) : ℝ) - cx) ^ 2 = R ^ 2 ∧
    (left - cx) ^ 2 + (((A.h / 2 : Nat) : ℝ) - cy) ^ 2 = R ^ 2 ∧ (right - cx) ^ 2 + (((A.h / 2 : Nat) : ℝ) - cy) ^ 2 = R ^ 2
  order : top + 1 ≤ bottom ∧ left + 1 ≤ right

/-- The circles found with accumulator threshold `10 + 5 k` in the image that `find_occulter_hough` hands to the detector. -/
def circlesAt (env : HoughEnv) (B : Img Nat) (side : Nat) (minr maxr : ℝ) (k : Nat) : Option (List (ℝ × ℝ × ℝ)) :=
  env.circles B side (10 + 5 * k) minr maxr

end

end Micropol
