import Verif.Basic.Img
import Mathlib.Data.Real.Basic
import Mathlib.Algebra.BigOperators.Group.Finset.Basic
import Mathlib.Data.Finset.Prod

/-!
# Specification: mean, spread and number of pixels of an array
-/

set_option autoImplicit false

namespace Micropol

open Finset in
/-- `m` is the arithmetic mean of the pixels. -/
def PixelMean (A : Img ℝ) (m : ℝ) : Prop := m * (A.h * A.w : ℝ) = ∑ y ∈ range A.h, ∑ x ∈ range A.w, A.px y x

open Finset in
/-- `s` is the root mean square deviation of the pixels from `m`. -/
def PixelSpread (A : Img ℝ) (m s : ℝ) : Prop :=
  0 ≤ s ∧ s ^ 2 * (A.h * A.w : ℝ) = ∑ y ∈ range A.h, ∑ x ∈ range A.w, (A.px y x - m) ^ 2

open Classical in
open Finset in
/-- Number of pixels with the property. -/
noncomputable def pixelsWith (A : Img ℝ) (P : ℝ → Prop) : Nat :=
  ((range A.h ×ˢ range A.w).filter (fun p => P (A.px p.1 p.2))).card

/-- The value belongs to bin `i` of the `n` bins of equal width between `lo` and `hi`; only the last bin contains its right end. -/
def InBin (lo hi : ℝ) (n i : Nat) (v : ℝ) : Prop :=
  lo + i * ((hi - lo) / n) ≤ v ∧
    (if i + 1 = n then v ≤ lo + (i + 1 : ℕ) * ((hi - lo) / n) else v < lo + (i + 1 : ℕ) * ((hi - lo) / n))

end Micropol
