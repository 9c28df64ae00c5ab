import Verif.Spec.Object
import Mathlib.Data.Nat.Choose.Basic

/-!
# Specification: corrections made more than once
-/

set_option autoImplicit false

namespace Micropol

/-- The calls `image_i.subtract_dark(d)` for the images `d` of a list, one after the other. -/
def darkCalls (i : Nat) (ds : List (Nat × Nat)) : List Op := ds.map fun q => .subtractDark i q.1

/-- The calls `image_i.correct_flat(f)` for the images `f` of a list, one after the other. -/
def flatCalls (i : Nat) (fs : List (Nat × Nat × (Nat → Nat → ℝ))) : List Op := fs.map fun q => .correctFlat i q.1 q.2.2

/-- In how many ways `n` steps, each either staying or going up by one superpixel, lead from row `Y` to row `Y - a` without
being in row 0 before the last of them. -/
def ifovWays (n Y a : Nat) : Nat := if a < Y then n.choose a else if a = Y ∧ 1 ≤ Y then (n - 1).choose (Y - 1) else 0

end Micropol
