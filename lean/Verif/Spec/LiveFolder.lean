import Verif.Model.LiveFolder
import Verif.Spec.Folder

/-! # Vocabulary for folders that are loaded while they are written -/

set_option autoImplicit false

namespace Micropol

section
variable {K : Type} [Field K]

/-- `names` lists the `.fits` files of the folder, in any order. -/
def IsGlob (f : LiveFolder K) (names : List Name) : Prop := names.Nodup ∧ ∀ n, n ∈ names ↔ f n ≠ none ∧ ListedFits n

/-- No file of the folder could be taken for a part of a calibration: there is no `.fits` file with two consecutive digits in its name
and no `fit_found_flag.fits`. -/
def LiveFolder.Fresh (f : LiveFolder K) : Prop :=
  (∀ n, f n ≠ none → ListedFits n → ¬ HasDigitPair n) ∧ f "fit_found_flag.fits".toList = none

/-- The number of actions of the saving program before it begins with calibration number `c`. -/
def startOf (os : List (CalibOutput K)) (c : Nat) : Nat := ((os.take c).flatMap calibActs).length

/-- At moment `k` calibration number `c` is being saved, or is the last one that was: its saving has begun, and the saving of the next
one has not yet ended. -/
def CurrentAt (os : List (CalibOutput K)) (c k : Nat) : Prop :=
  startOf os c < k ∧ (c + 1 < os.length → k < startOf os (c + 2))

/-- A load by another program: `k 0` is the moment of the listing (the number of actions that the saving program has done), `k 1` when
the sample is read, `k (m + 2)` when the `m`-th name is looked at. -/
structure LoadsAt (f : LiveFolder K) (os : List (CalibOutput K)) (k : Nat → Nat) (names : List Name) : Prop where
  forward : Monotone k
  listed : IsGlob (folderAfter f os (k 0)) names

/-- What the constructor gives. -/
def loadResult (f : LiveFolder K) (os : List (CalibOutput K)) (k : Nat → Nat) (names : List Name) : Py (Demodulator K) :=
  loadLive names (fun m => folderAfter f os (k (m + 1)))

end

end Micropol
