import Verif.Basic.Img
import Mathlib.Algebra.Field.Defs
import Mathlib.Algebra.BigOperators.Group.Finset.Basic
import Mathlib.Data.Nat.Cast.Defs

/-!
# numpy elementwise operations with broadcasting

These definitions model numpy itself (part of the trusted base), as far as the library uses it on 2D arrays.
-/

set_option autoImplicit false

namespace Micropol

/-- Broadcasting of one axis: equal sides, or one side equal to 1.
Models: numpy broadcasting as used by image.py:279, :286, :293, :300 and micropol_image.py:377, :390, :407. -/
def bdim (a b : Nat) : Py Nat :=
  if a = b then .ok a else if a = 1 then .ok b else if b = 1 then .ok a else .error .valueError

/-- Index into an axis that may have been broadcast.
Models: numpy's broadcasting in image.py:279-302, micropol_image.py:377, :390, :407, :1006-1076. -/
def bidx (side i : Nat) : Nat := if side = 1 then 0 else i

variable {α β γ : Type} [Zero α] [Zero β] [Zero γ]

/-- Elementwise binary operation with broadcasting (the operation may look at the position, which is used for
uninitialised memory).
Models: numpy binary ufuncs as used by image.py:279-302 and micropol_image.py:390, :407, :1006-1076. -/
def npBinAt (f : Nat → Nat → α → β → γ) (A : Img α) (B : Img β) : Py (Img γ) := do
  let h ← bdim A.h B.h
  let w ← bdim A.w B.w
  pure (Img.ofFn h w (fun y x =>
    f y x (A.px (bidx A.h y) (bidx A.w x)) (B.px (bidx B.h y) (bidx B.w x))))

/-- Elementwise binary operation with broadcasting.
Models: image.py:279-302; micropol_image.py:390, :407, :1006-1076. -/
def npBin (f : α → β → γ) (A : Img α) (B : Img β) : Py (Img γ) := npBinAt (fun _ _ => f) A B

/-- `np.where(mask, A, B)` with broadcasting.
Models: numpy's `where` as used by micropol_image.py:377, :995. -/
def npWhere (M : Img Bool) (A B : Img α) : Py (Img α) := do
  let h ← bdim A.h B.h
  let w ← bdim A.w B.w
  let h ← bdim M.h h
  let w ← bdim M.w w
  pure (Img.ofFn h w (fun y x =>
    if M.px (bidx M.h y) (bidx M.w x) then A.px (bidx A.h y) (bidx A.w x) else B.px (bidx B.h y) (bidx B.w x)))

section
variable {K : Type} [Zero K] [Div K] [DecidableEq K]

/-- `np.divide(A, B, where=B != 0)` without `out=`: where the mask is false the result keeps whatever the freshly
allocated buffer contained; `junk` is that content.
Models: image.py:300, micropol_image.py:407-411, :1072. -/
def npDivideNoOut (junk : Nat → Nat → K) (A B : Img K) : Py (Img K) :=
  npBinAt (fun y x a b => if b ≠ 0 then a / b else junk y x) A B

/-- `np.divide(A, c, where=c != 0)` for a number `c`.
Models: image.py:302, micropol_image.py:1076. -/
def npDivideScalarNoOut (junk : Nat → Nat → K) (A : Img K) (c : K) : Img K :=
  Img.ofFn A.h A.w (fun y x => if c ≠ 0 then A.px y x / c else junk y x)

end

section
variable {K : Type} [Field K]

open Finset in
/-- `np.mean(A)`; the mean of an empty array is NaN.
Models: numpy's `mean` as used by micropol_image.py:405. -/
def npMean (A : Img K) : Py K :=
  if A.h = 0 ∨ A.w = 0 then .error .notFinite
  else .ok ((∑ y ∈ range A.h, ∑ x ∈ range A.w, A.px y x) / ((A.h * A.w : Nat) : K))

end

end Micropol
