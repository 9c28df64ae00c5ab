import Verif.Spec.Prepare
import Mathlib.Data.Finset.Prod
import Mathlib.Data.Fin.VecNotation

/-! # Specification of the automatic normalisation -/

set_option autoImplicit false

namespace Micropol

noncomputable section

open Classical Finset

/-- The reference orientations used: 0, 45, 90 and 135 degrees if these are all available, otherwise -45 for 135. -/
def References (available R : List ℝ) : Prop :=
  (R = [0, 45, 90, 135] ∧ ∀ o ∈ R, o ∈ available) ∨
  (R = [0, 45, 90, -45] ∧ (∀ o ∈ R, o ∈ available) ∧ (135 : ℝ) ∉ available)

/-- Half the sum of the frames at the reference orientations. -/
def halfSum (R : List ℝ) (L : List (ℝ × Name)) (F : Name → Img ℝ) (D : Option (Img ℝ)) (b y x : Nat) : ℝ :=
  (L.map (fun q => if q.1 ∈ R then lit (F q.2) D b y x / 2 else 0)).sum

/-- Smallest and largest of the values `T y x` of an image of `h` rows and `w` columns. -/
structure Extremes (T : Nat → Nat → ℝ) (h w : Nat) (lo hi : ℝ) : Prop where
  least : IsLeast {v | ∃ y x, y < h ∧ x < w ∧ v = T y x} lo
  greatest : IsGreatest {v | ∃ y x, y < h ∧ x < w ∧ v = T y x} hi

/-- Left end of bin `i` of a histogram with 1000 equal bins from `lo` to `hi` (from `lo - 1/2` to `lo + 1/2` if these are equal). -/
def binStart (lo hi : ℝ) (i : Nat) : ℝ := if lo = hi then lo - 1 / 2 + i / 1000 else lo + (hi - lo) * i / 1000

/-- Number of values in bin `i`; the last bin includes its right end. -/
def binCount (T : Nat → Nat → ℝ) (h w : Nat) (lo hi : ℝ) (i : Nat) : Nat :=
  ((range h ×ˢ range w).filter (fun p => binStart lo hi i ≤ T p.1 p.2 ∧
    (T p.1 p.2 < binStart lo hi (i + 1) ∨ (i = 999 ∧ T p.1 p.2 = binStart lo hi 1000)))).card

/-- `m` is the first of the bins with the largest number of values. -/
def FullestBin (T : Nat → Nat → ℝ) (h w : Nat) (lo hi : ℝ) (m : Nat) : Prop :=
  m < 1000 ∧ (∀ j, j < 1000 → binCount T h w lo hi j ≤ binCount T h w lo hi m) ∧
    ∀ j, j < m → binCount T h w lo hi j < binCount T h w lo hi m

/-- The points of the fit of a gaussian around bin `m`: the centres of the 20 bins from `m - 10` on, and the share of each of them. -/
def fitCentres (lo hi : ℝ) (m : Nat) : List ℝ :=
  (List.range 20).map (fun i => (binStart lo hi (m - 10 + i) + binStart lo hi (m - 10 + i + 1)) / 2)
def fitShares (T : Nat → Nat → ℝ) (h w : Nat) (lo hi : ℝ) (m : Nat) : List ℝ :=
  (List.range 20).map (fun i => (binCount T h w lo hi (m - 10 + i) : ℝ) /
    ∑ j ∈ range 20, (binCount T h w lo hi (m - 10 + j) : ℝ))

/-- First guess of the fit: height and position of bin `m`, and a width of five bins. -/
def firstGuess (T : Nat → Nat → ℝ) (h w : Nat) (lo hi : ℝ) (m : Nat) : Fin 3 → ℝ :=
  ![(binCount T h w lo hi m : ℝ) / ∑ j ∈ range 20, (binCount T h w lo hi (m - 10 + j) : ℝ),
    (binStart lo hi m + binStart lo hi (m + 1)) / 2,
    binStart lo hi (m + 5) - binStart lo hi m]

end

end Micropol
