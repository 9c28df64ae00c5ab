import Verif.Basic.Img
import Mathlib.Algebra.BigOperators.Group.Finset.Basic
import Mathlib.Data.Real.Basic

/-! # Specification: light added up -/

set_option autoImplicit false

namespace Micropol

open Finset

/-- Every pixel of the Stokes maps `T` shows light of pixels of the Stokes maps `S` added up with non-negative weights (the same
weights for I, Q and U). -/
def IsBlend (S T : Fin 3 → Img ℝ) : Prop :=
  ∀ y x, y < (T 0).h → x < (T 0).w → ∃ (P : Finset (Nat × Nat)) (w : Nat × Nat → ℝ),
    (∀ p ∈ P, p.1 < (S 0).h ∧ p.2 < (S 0).w ∧ 0 ≤ w p) ∧ ∀ q, (T q).px y x = ∑ p ∈ P, w p * (S q).px p.1 p.2

end Micropol
