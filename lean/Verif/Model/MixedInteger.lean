import Verif.Model.Integer

/-!
# Model of operations on images of different number types

`self.data + second.data` on two arrays of different types, and `self.data + second` on an array and a Python number.  numpy
(1.26, the pinned version) first converts to a common type.
-/

set_option autoImplicit false

namespace Micropol

/-- The common type of two integer types; `none` is `float64`.
Models numpy itself (`np.promote_types`, trusted base), as used by image.py:279, :286, :293 and micropol_image.py:390, :1006,
:1028, :1050. -/
def promoteInt (a b : IntType) : Option IntType :=
  if a.signed = b.signed then some ⟨max a.bits b.bits, a.signed⟩
  else
    let s := if a.signed then a.bits else b.bits
    let u := if a.signed then b.bits else a.bits
    if u < s then some ⟨s, true⟩
    else if u < 64 then some ⟨2 * u, true⟩
    else none

/-- Bits of the smallest unsigned type of numpy for a number that is not negative; `none` if there is no such type.
Models numpy itself (`np.min_scalar_type`, trusted base). -/
def unsignedBits (v : Int) : Option Nat :=
  if v < 2 ^ 8 then some 8 else if v < 2 ^ 16 then some 16 else if v < 2 ^ 32 then some 32 else if v < 2 ^ 64 then some 64 else none

/-- Bits of the smallest signed type of numpy for a negative number; `none` if there is no such type.
Models numpy itself (`np.min_scalar_type`, trusted base). -/
def signedBits (v : Int) : Option Nat :=
  if -2 ^ 7 ≤ v then some 8 else if -2 ^ 15 ≤ v then some 16 else if -2 ^ 31 ≤ v then some 32 else if -2 ^ 63 ≤ v then some 64
  else none

/-- What becomes of an array of integers and a Python number.
Models numpy itself (`np.result_type`, trusted base). -/
inductive NumType where
  | int (t : IntType)
  | float
  | object

/-- The common type as a result.
Models numpy itself (`np.result_type`, trusted base). -/
def NumType.ofCommon : Option IntType → NumType
  | some t => .int t
  | none => .float

/-- Common type of an array of integers of type `t` and the Python integer `v`: numpy looks at the value of the number, and a
number that fits in one bit less counts as signed or unsigned, whatever suits the array.
Models numpy itself (`np.result_type`, trusted base), as used by image.py:281, :288, :295 and micropol_image.py:1010, :1032,
:1054. -/
def scalarType (t : IntType) (v : Int) : NumType :=
  if 0 ≤ v then
    match unsignedBits v with
    | none => .object
    | some b => if v < 2 ^ (b - 1) then .int ⟨max t.bits b, t.signed⟩ else .ofCommon (promoteInt t ⟨b, false⟩)
  else
    match signedBits v with
    | none => .object
    | some b => .ofCommon (promoteInt t ⟨b, true⟩)

section
variable {K : Type} [Ring K]

/-- Pixels of an image with their type.  Numbers converted from 64 bit integers to `float64` are exact here; numpy rounds those of
more than 53 bits.
Models: the values of `self.data` in image.py:277-303 and micropol_image.py:390, :1004-1060. -/
inductive NumArray (K : Type) [Zero K] where
  | ints (t : IntType) (data : Img Int)
  | floats (data : Img K)

/-- The pixels as floats.
Models: numpy's conversion, as used by image.py:279-302. -/
def NumArray.asFloats : NumArray K → Img K
  | .ints _ d => d.map (fun v : Int => (v : K))
  | .floats d => d

/-- An elementwise operation of numpy (`+`, `-`, `*`; `f` on integers, `g` on floats) on two arrays.
Models: image.py:279, :286, :293 and micropol_image.py:390, :1006, :1028, :1050. -/
def mixedOp (f : Int → Int → Int) (g : K → K → K) (a b : NumArray K) : Py (NumArray K) :=
  match a, b with
  | .ints t A, .ints u B =>
    match promoteInt t u with
    | some v => do
      let r ← npBin (fun x y => v.wrap (f (v.wrap x) (v.wrap y))) A B
      pure (.ints v r)
    | none => do
      let r ← npBin g (a.asFloats) (b.asFloats)
      pure (.floats r)
  | _, _ => do
    let r ← npBin g (a.asFloats) (b.asFloats)
    pure (.floats r)

/-- Result of an operation with a Python number: an array of a number type, or an array of Python integers, which have no bounds.
Models: image.py:281, :288, :295 and micropol_image.py:1010, :1032, :1054. -/
inductive ScalarResult (K : Type) [Zero K] where
  | typed (a : NumArray K)
  | objects (data : Img Int)

/-- An elementwise operation of an array of integers and a Python integer.
Models: image.py:281, :288, :295 and micropol_image.py:1010, :1032, :1054. -/
def mixedScalarOp (f : Int → Int → Int) (g : K → K → K) (t : IntType) (A : Img Int) (v : Int) : ScalarResult K :=
  match scalarType t v with
  | .int u => .typed (.ints u (A.map (fun x => u.wrap (f (u.wrap x) (u.wrap v)))))
  | .float => .typed (.floats (A.map (fun x : Int => g (x : K) (v : K))))
  | .object => .objects (A.map (fun x => f x v))

/-- Pixel data after `subtract_dark(dark)` for any two number types: `np.where(data >= 0, data, 0)` keeps the type.
Models: micropol_image.py:390-391. -/
def mixedDark [LinearOrder K] (data dark : NumArray K) : Py (NumArray K) := do
  let d ← mixedOp (fun a b => a - b) (fun a b => a - b) data dark
  match d with
  | .ints t r => pure (.ints t (r.map (fun v => if v ≥ 0 then v else 0)))
  | .floats r => pure (.floats (r.map (fun v => if v ≥ 0 then v else 0)))

end

end Micropol
