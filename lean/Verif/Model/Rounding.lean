import Verif.Model.Rebin
import Verif.Model.Stokes
import Verif.Model.Demodulate
import Verif.Model.Corrections
import Mathlib.Analysis.Real.Sqrt

/-!
# The computations in rounded arithmetic

The definitions of `Model/Demosaic`, `Model/Rebin`, `Model/Stokes`, `Model/Demodulate` and (as far as they divide by no
pixel) `Model/Corrections` ask nothing of the numbers but the operations.  Here is the type of numbers whose operations round:
the value of each operation is the exact result, rounded by `R`.  `R` stands for the rounding of the machine (IEEE 754 doubles,
to nearest); overflow, underflow, infinities and NaN are left out.  The computation is then the same definition at this type.
-/

set_option autoImplicit false

namespace Micropol

/-- A number of the machine.
Models: the floats of polarization_functions.py:47-62 and image.py:54-69. -/
@[ext] structure Fl (R : ℝ → ℝ) where
  val : ℝ

namespace Fl

variable {R : ℝ → ℝ}

noncomputable section

instance : Zero (Fl R) := ⟨⟨0⟩⟩
instance : One (Fl R) := ⟨⟨1⟩⟩
instance : OfNat (Fl R) 2 := ⟨⟨2⟩⟩
instance : OfNat (Fl R) 4 := ⟨⟨4⟩⟩
instance : NatCast (Fl R) := ⟨fun n => ⟨n⟩⟩
instance : Add (Fl R) := ⟨fun a b => ⟨R (a.val + b.val)⟩⟩
instance : Sub (Fl R) := ⟨fun a b => ⟨R (a.val - b.val)⟩⟩
instance : Mul (Fl R) := ⟨fun a b => ⟨R (a.val * b.val)⟩⟩
instance : Div (Fl R) := ⟨fun a b => ⟨R (a.val / b.val)⟩⟩
instance : LinearOrder (Fl R) := LinearOrder.lift' Fl.val (fun _ _ h => Fl.ext h)

/-- `np.sqrt`.
Models: polarization_functions.py:62. -/
def sqrt (a : Fl R) : Fl R := ⟨R (Real.sqrt a.val)⟩

end

end Fl

noncomputable section

/-- `pB(Stokes_vec_components)` in rounded arithmetic.
Models: polarization_functions.py:59-62. -/
def pBRounded {R : ℝ → ℝ} (S : Fin 3 → Img (Fl R)) : Img (Fl R) :=
  Img.zipWith (fun q u => Fl.sqrt ((q * q) + (u * u))) (S 1) (S 2)

/-- `DoLP(Stokes_vec_components)` in rounded arithmetic, for maps of one shape.
Models: polarization_functions.py:47-56. -/
def dolpRounded {R : ℝ → ℝ} (S : Fin 3 → Img (Fl R)) : Img (Fl R) :=
  Img.zipWith (fun i p => if i ≠ 0 then p / i else 0) (S 0)
    (Img.zipWith (fun q u => Fl.sqrt ((q * q) + (u * u))) (S 1) (S 2))

end

section
variable {K : Type} [Zero K] [Add K] [Div K] [NatCast K]

/-- Pixel data of an image made from files with the given frames: every frame is divided by `1 + average * (n - 1)`, the
quotients are added one after the other.
Models: image.py:54-69. -/
def combineFrames (average : Bool) : List (Img K) → Py (Img K)
  | [] => .error .nameError
  | f :: rest =>
    let scale (g : Img K) : Img K := g.map (fun v => v / ((1 + average.toNat * rest.length : Nat) : K))
    rest.foldlM (fun acc g => npBin (fun a b => a + b) acc (scale g)) (scale f)

end

end Micropol
