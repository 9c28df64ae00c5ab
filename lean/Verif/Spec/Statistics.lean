import Verif.Basic.Img
import Mathlib.Algebra.Order.Archimedean.Real.Basic

/-! # Specification of medians, outliers and Otsu's threshold -/

set_option autoImplicit false

namespace Micropol

/-- The values of all pixels. -/
def pixelValues (A : Img ℝ) : List ℝ := (List.range A.h).flatMap (fun y => (List.range A.w).map (fun x => A.px y x))

/-- `m` is the median of the values `l`: half the sum of the two middle values (which coincide when their number is odd). -/
def IsMedian (l : List ℝ) (m : ℝ) : Prop :=
  ∃ s : List ℝ, s.Perm l ∧ s.Pairwise (· ≤ ·) ∧ ∃ a b, s[(s.length - 1) / 2]? = some a ∧ s[s.length / 2]? = some b ∧
    m = (a + b) / 2

/-- `m` is the median of `l` and `d` the median distance of the values from it. -/
def IsMedianDeviation (l : List ℝ) (m d : ℝ) : Prop := IsMedian l m ∧ IsMedian (l.map (fun v => |v - m|)) d

/-- Sum of the squared distances of the values from their mean. -/
noncomputable def scatter (l : List ℝ) : ℝ := (l.map (fun v => (v - l.sum / (l.length : ℝ)) ^ 2)).sum

open Classical in
/-- The values not below, and below, a threshold. -/
noncomputable def upper (l : List ℝ) (t : ℝ) : List ℝ := l.filter (fun v => decide (t ≤ v))
open Classical in
noncomputable def lower (l : List ℝ) (t : ℝ) : List ℝ := l.filter (fun v => decide (v < t))

/-- Otsu's criterion: total scatter of the two classes made by the threshold. -/
noncomputable def withinClasses (l : List ℝ) (t : ℝ) : ℝ := scatter (upper l t) + scatter (lower l t)

/-- Otsu's criterion in its other form: product of the sizes of the classes and of the squared distance of their means. -/
noncomputable def betweenClasses (l : List ℝ) (t : ℝ) : ℝ :=
  ((upper l t).length : ℝ) * ((lower l t).length : ℝ) *
    ((upper l t).sum / ((upper l t).length : ℝ) - (lower l t).sum / ((lower l t).length : ℝ)) ^ 2

/-- `c` is one of `n ≥ 2` equally spaced numbers from `a` to `b`. -/
def IsStep (a b : ℝ) (n : Nat) (c : ℝ) : Prop := ∃ i : Nat, i < n ∧ c * ((n : ℝ) - 1) = a * ((n : ℝ) - 1 - i) + b * i

end Micropol
