import Verif.Basic.Img
import Mathlib.Algebra.BigOperators.Fin
import Mathlib.Algebra.Field.Defs

/-! # Specification of angle dictionaries and Stokes maps -/

set_option autoImplicit false

namespace Micropol

/-- Position (0..3) of each nominal orientation in the superpixel. -/
structure Layout where
  p0 : Fin 4
  p45 : Fin 4
  pm45 : Fin 4
  p90 : Fin 4

/-- The dictionary `{0: p0, 45: p45, -45: pm45, 90: p90}` (possibly with other entries, which are ignored). -/
def Layout.Describes (L : Layout) (dic : Int → Option Int) : Prop :=
  dic 0 = some (L.p0.val : Int) ∧ dic 45 = some (L.p45.val : Int) ∧ dic (-45) = some (L.pm45.val : Int) ∧
  dic 90 = some (L.p90.val : Int)

/-- The four orientations sit on four different pixels. -/
def Layout.Proper (L : Layout) : Prop :=
  L.p0 ≠ L.p45 ∧ L.p0 ≠ L.pm45 ∧ L.p0 ≠ L.p90 ∧ L.p45 ≠ L.pm45 ∧ L.p45 ≠ L.p90 ∧ L.pm45 ≠ L.p90

/-- `S` are the theoretical Stokes maps of the four (equally shaped) families `s`:
half the sum, 0° minus 90°, 45° minus -45°. -/
def IsStokesOf {K : Type} [Field K] (s : Fin 4 → Img K) (L : Layout) (S : Fin 3 → Img K) : Prop :=
  (∀ i, (S i).h = (s 0).h ∧ (S i).w = (s 0).w) ∧
  ∀ y x, y < (s 0).h → x < (s 0).w →
    (S 0).px y x = (∑ k, (s k).px y x) / 2 ∧
    (S 1).px y x = (s L.p0).px y x - (s L.p90).px y x ∧
    (S 2).px y x = (s L.p45).px y x - (s L.pm45).px y x

end Micropol
