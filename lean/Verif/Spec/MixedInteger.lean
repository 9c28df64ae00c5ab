import Verif.Spec.Integer

/-!
# Specification: the integer types of numpy and their common type
-/

set_option autoImplicit false

namespace Micropol

/-- The eight integer types of numpy. -/
def IntType.Numpy (t : IntType) : Prop := t.bits = 8 ∨ t.bits = 16 ∨ t.bits = 32 ∨ t.bits = 64

/-- Every number of type `t` is a number of type `v`. -/
def IntType.Within (t v : IntType) : Prop := ∀ n, t.Holds n → v.Holds n

/-- `v` is the smallest type of numpy that holds all numbers of both types. -/
def IsCommonType (t u v : IntType) : Prop :=
  v.Numpy ∧ t.Within v ∧ u.Within v ∧ ∀ v' : IntType, v'.Numpy → t.Within v' → u.Within v' → v.bits ≤ v'.bits

/-- `v` is the smallest type of numpy that holds all numbers of type `t` and the number `n`. -/
def IsTypeWith (t : IntType) (n : Int) (v : IntType) : Prop :=
  v.Numpy ∧ t.Within v ∧ v.Holds n ∧ ∀ v' : IntType, v'.Numpy → t.Within v' → v'.Holds n → v.bits ≤ v'.bits

end Micropol
