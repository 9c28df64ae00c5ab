import Verif.Spec.Shape
import Mathlib.Data.List.Basic

/-!
# Specification: what "not a number" does

The theorems of C119 hold for all numbers that have a value `n` with these rules.
-/

set_option autoImplicit false

namespace Micropol

/-- `n` is "not a number": an operation with it gives it again. -/
structure IsNaN {K : Type} [Zero K] [One K] [Add K] [Sub K] [Mul K] [Div K] (n : K) : Prop where
  add_left : ∀ a, n + a = n
  add_right : ∀ a, a + n = n
  sub_left : ∀ a, n - a = n
  sub_right : ∀ a, a - n = n
  mul_left : ∀ a, n * a = n
  mul_right : ∀ a, a * n = n
  div_left : ∀ a, n / a = n
  div_right : ∀ a, a / n = n
  ne_zero : n ≠ 0
  ne_one : n ≠ 1

/-- `A'` is `A` with the pixels at the positions `S` replaced by `n`. -/
def Spoiled {K : Type} [Zero K] (n : K) (S : Nat → Nat → Prop) (A A' : Img K) : Prop :=
  A'.SameShape A ∧ ∀ y x, y < A.h → x < A.w → (S y x → A'.px y x = n) ∧ (¬ S y x → A'.px y x = A.px y x)

/-- `s` is a result of adding up the numbers of the list, in whatever order and with whatever brackets. -/
inductive AddsUp {K : Type} [Add K] : List K → K → Prop
  | single (a : K) : AddsUp [a] a
  | plus {l l' : List K} {a b : K} : AddsUp l a → AddsUp l' b → AddsUp (l ++ l') (a + b)
  | reorder {l l' : List K} {a : K} : l.Perm l' → AddsUp l a → AddsUp l' a

end Micropol
