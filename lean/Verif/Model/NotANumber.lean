import Verif.Model.Rounding
import Verif.Model.Demosaic

/-!
# Numbers of the machine with infinities and "not a number"

The definitions of `Model/Demosaic`, `Model/Rebin`, `Model/Stokes`, `Model/Demodulate` and `Model/Corrections` (corrections without
means) ask nothing of the numbers but the operations, so they can be used at `Fp`, the numbers of IEEE 754 with overflow, infinities
and "not a number" (NaN).  Negative zero is left out.
-/

set_option autoImplicit false

namespace Micropol

/-- A number of the machine.  `round` is the rounding; `none` is overflow.
Models: the pixels of image.py:54-69 (float arrays). -/
inductive Fp (round : ℝ → Option ℝ) where
  | num (v : ℝ)
  | inf (negative : Bool)
  | nan

namespace Fp

variable {round : ℝ → Option ℝ}

noncomputable section

open Classical

/-- The result of an operation with exact result `v`.
Models: the float operations of micropol_image.py:390, :405-411, :364-372. -/
def ofReal (v : ℝ) : Fp round :=
  match round v with
  | some w => .num w
  | none => .inf (decide (v < 0))

/-- Change of sign.  Models: the float operations of micropol_image.py:390. -/
def neg : Fp round → Fp round
  | .num v => .num (-v)
  | .inf s => .inf (!s)
  | .nan => .nan

/-- Addition: opposite infinities give NaN.  Models: the float operations of micropol_image.py:364-372, :1005-1010. -/
def add : Fp round → Fp round → Fp round
  | .nan, _ => .nan
  | .inf _, .nan => .nan
  | .num _, .nan => .nan
  | .num a, .num b => ofReal (a + b)
  | .inf s, .num _ => .inf s
  | .num _, .inf s => .inf s
  | .inf s, .inf t => if s = t then .inf s else .nan

/-- Multiplication: zero times infinity is NaN.  Models: the float operations of micropol_image.py:364-372, :1049-1054. -/
def mul : Fp round → Fp round → Fp round
  | .nan, _ => .nan
  | .inf _, .nan => .nan
  | .num _, .nan => .nan
  | .num a, .num b => ofReal (a * b)
  | .inf s, .num b => if b = 0 then .nan else .inf (xor s (decide (b < 0)))
  | .num a, .inf s => if a = 0 then .nan else .inf (xor s (decide (a < 0)))
  | .inf s, .inf t => .inf (xor s t)

/-- Division: 0/0 and infinity/infinity are NaN; other divisions by 0 give infinities.
Models: the float operations of micropol_image.py:405-411, :1071-1076. -/
def div : Fp round → Fp round → Fp round
  | .nan, _ => .nan
  | .inf _, .nan => .nan
  | .num _, .nan => .nan
  | .num a, .num b => if b = 0 then (if a = 0 then .nan else .inf (decide (a < 0))) else ofReal (a / b)
  | .inf s, .num b => .inf (xor s (decide (b < 0)))
  | .num _, .inf _ => .num 0
  | .inf _, .inf _ => .nan

/-- `a <= b`: false if one of them is NaN.  Models: the comparison of micropol_image.py:391. -/
def le : Fp round → Fp round → Prop
  | .nan, _ => False
  | .inf _, .nan => False
  | .num _, .nan => False
  | .num a, .num b => a ≤ b
  | .inf s, .num _ => s = true
  | .num _, .inf s => s = false
  | .inf s, .inf t => s = true ∨ t = false

/-- `a < b`: false if one of them is NaN.  Models: the comparisons of utils.py:59-60. -/
def lt (a b : Fp round) : Prop := le a b ∧ ¬ le b a

instance : Zero (Fp round) := ⟨.num 0⟩
instance : One (Fp round) := ⟨.num 1⟩
instance : OfNat (Fp round) 2 := ⟨.num 2⟩
instance : OfNat (Fp round) 4 := ⟨.num 4⟩
instance : NatCast (Fp round) := ⟨fun n => .num n⟩
instance : Add (Fp round) := ⟨add⟩
instance : Sub (Fp round) := ⟨fun a b => add a (neg b)⟩
instance : Mul (Fp round) := ⟨mul⟩
instance : Div (Fp round) := ⟨div⟩
instance : LE (Fp round) := ⟨le⟩
instance : LT (Fp round) := ⟨lt⟩
instance : DecidableLE (Fp round) := fun a b => propDecidable (a ≤ b)
instance : DecidableLT (Fp round) := fun a b => propDecidable (a < b)
instance : DecidableEq (Fp round) := fun a b => propDecidable (a = b)

/-- `np.sqrt`: NaN for negative numbers.
Models: polarization_functions.py:53-62. -/
def sqrt : Fp round → Fp round
  | .num v => if v < 0 then .nan else ofReal (Real.sqrt v)
  | .inf s => if s then .nan else .inf false
  | .nan => .nan

end

end Fp

section
variable {K : Type} [Zero K]

/-- The pixels of an array in a list, row by row.
Models: the order in which numpy holds the array of micropol_image.py:405. -/
def Img.pixels (A : Img K) : List K := (List.range A.h).flatMap (fun y => (List.range A.w).map (fun x => A.px y x))

variable [Add K] [Mul K] [Div K] [NatCast K] [DecidableEq K]

/-- Pixel data after `correct_flat(flat)`, for any numbers; `sumAll` is numpy's way of adding all pixels (the order of the additions is
an internal matter of numpy), `junk` is the uninitialised result buffer of `np.divide`.
Models: micropol_image.py:405-411. -/
def correctFlatWith (sumAll : List K → K) (junk : Nat → Nat → K) (data flat : Img K) : Py (Img K) :=
  let mean := sumAll flat.pixels / ((flat.h * flat.w : Nat) : K)
  npDivideNoOut junk data (flat.map (fun v => v / mean))

/-- `pB(Stokes_vec_components)`, for any numbers with a square root.
Models: polarization_functions.py:59-62. -/
def pBWith (sqrt : K → K) (S : Fin 3 → Img K) : Img K := Img.zipWith (fun q u => sqrt ((q * q) + (u * u))) (S 1) (S 2)

/-- `DoLP(Stokes_vec_components)`, for any numbers with a square root, for maps of one shape.
Models: polarization_functions.py:47-56. -/
def dolpWith (sqrt : K → K) (S : Fin 3 → Img K) : Img K :=
  Img.zipWith (fun i p => if i ≠ 0 then p / i else 0) (S 0) (pBWith sqrt S)

/-- `AoLP(Stokes_vec_components)`, for any numbers; `half` is 0.5 and `arctan2` is numpy's.
Models: polarization_functions.py:29. -/
def aolpWith (half : K) (arctan2 : K → K → K) [One K] (S : Fin 3 → Img K) : Img K :=
  Img.zipWith (fun u q => half * arctan2 (1 * u) (1 * q)) (S 2) (S 1)

/-- `fix_data(data, min, max)`, for any numbers.
Models: utils.py:55-61. -/
def fixDataWith [LT K] [DecidableLT K] (data : Img K) (min max : K) : Img K :=
  if ¬ (min ≠ 0 ∧ max ≠ 0) then data
  else
    let fixed := data.map (fun v => if v > min then v else min)
    fixed.map (fun v => if v < max then v else max)

end

end Micropol
