import Verif.Model.Measurement
import Verif.Spec.Disk
import Verif.Spec.Observation

/-!
# Specification: a measurement from files
-/

set_option autoImplicit false

namespace Micropol

noncomputable section

/-- The program that measures: it loads the dark and the flat, loads the exposures (their mean) with this dark and this flat, and demodulates
the result.  The program has `m` images before, so the dark is number `m`, the flat `m + 1`, the corrected exposure `m + 2`. -/
def measurement (m : Nat) (darkName flatName : Name) (names : List Name) (dic : AngleDic) (dates : FoundDates) (junk : Nat → Nat → ℝ)
    (D : Demodulator ℝ) : List DiskOp :=
  [.load (.single darkName) (some dic) none none true dates junk,
   .load (.single flatName) (some dic) none none true dates junk,
   .load (.list names) (some dic) (some m) (some (m + 1)) true dates junk,
   .call (.demodulate (m + 2) D false)]

/-- The light averaged over the exposures. -/
def meanLight {M : Nat} (light : Fin (M + 1) → Nat → Nat → Fin 3 → ℝ) : Nat → Nat → Fin 3 → ℝ :=
  fun Y X i => (∑ j, light j Y X i) / ((M + 1 : Nat) : ℝ)

/-- The disk holds the exposures (under different names), the dark and the flat, with readable dates. -/
def MeasurementFiles (cwd : List Name) (c : Clock) (disk : FileSystem) (dates : FoundDates) {M : Nat} (names : Fin (M + 1) → Name)
    (raws : Fin (M + 1) → Img ℝ) (darkName : Name) (dark : Img ℝ) (flatName : Name) (flat : Img ℝ) (h w : Nat) : Prop :=
  (∀ j, names j ≠ rawExt ∧ disk.file (abspath cwd (names j)) = some (.fits (raws j)) ∧ (raws j).HasShape h w) ∧
  Function.Injective names ∧
  (darkName ≠ rawExt ∧ disk.file (abspath cwd darkName) = some (.fits dark)) ∧
  (flatName ≠ rawExt ∧ disk.file (abspath cwd flatName) = some (.fits flat)) ∧
  ∀ name, ReadableDate c (dates name)

end

end Micropol
