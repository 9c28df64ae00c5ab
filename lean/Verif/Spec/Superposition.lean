import Verif.Basic.Img
import Mathlib.Algebra.BigOperators.Fin
import Mathlib.Algebra.Field.Defs

/-!
# Specification: weighted sums of frames
-/

set_option autoImplicit false

namespace Micropol

/-- `m` is the sum of the frames `f i` with the weights `c i`, pixel by pixel: all weights 1 for the sum of `n` frames, `1 / n` for
their average. -/
def Img.IsMixOf {K : Type} [Field K] (m : Img K) {n : Nat} (c : Fin n → K) (f : Fin n → Img K) : Prop :=
  (∀ i, (f i).h = m.h ∧ (f i).w = m.w) ∧ ∀ y x, y < m.h → x < m.w → m.px y x = ∑ i, c i * (f i).px y x

end Micropol
