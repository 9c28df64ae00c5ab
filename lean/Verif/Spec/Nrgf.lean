import Verif.Spec.Roi
import Mathlib.Algebra.BigOperators.Group.Finset.Basic

/-! # Specification of ring statistics and of the occulter search -/

set_option autoImplicit false

namespace Micropol

open Classical Finset in
/-- The pixels of an `h × w` image that lie in a region. -/
noncomputable def regionPixels (h w : Nat) (c r t : ℝ × ℝ) : Finset (Nat × Nat) :=
  (range h ×ˢ range w).filter (fun q => InRegion c r t q.1 q.2)

/-- `μ` is the mean of `f` over the nonempty set `S`. -/
def IsMean (S : Finset (Nat × Nat)) (f : Nat → Nat → ℝ) (μ : ℝ) : Prop :=
  S.Nonempty ∧ μ * (S.card : ℝ) = ∑ q ∈ S, f q.1 q.2

/-- `σ` is the (population) standard deviation of `f` over the nonempty set `S`. -/
def IsStd (S : Finset (Nat × Nat)) (f : Nat → Nat → ℝ) (σ : ℝ) : Prop :=
  0 ≤ σ ∧ ∃ μ, IsMean S f μ ∧ σ ^ 2 * (S.card : ℝ) = ∑ q ∈ S, (f q.1 q.2 - μ) ^ 2

/-- `M` is the largest distance of a pixel of an `h × w` image from `c`. -/
def IsFarthest (h w : Nat) (c : ℝ × ℝ) (M : ℝ) : Prop :=
  (∃ y x, y < h ∧ x < w ∧ 0 ≤ M ∧ M ^ 2 = ((y : ℝ) - c.1) ^ 2 + ((x : ℝ) - c.2) ^ 2) ∧
  ∀ y x, y < h → x < w → ((y : ℝ) - c.1) ^ 2 + ((x : ℝ) - c.2) ^ 2 ≤ M ^ 2

/-- `i` is the first index after 5 whose value exceeds `t` times the mean of all earlier values of `n` values. -/
def IsFirstJump (n : Nat) (f : Nat → ℝ) (t : ℝ) (i : Nat) : Prop :=
  let jumps := fun i => 5 < i ∧ i < n ∧ t * ((∑ k ∈ Finset.range i, f k) / (i : ℝ)) < f i
  jumps i ∧ ∀ j, j < i → ¬ jumps j

end Micropol
