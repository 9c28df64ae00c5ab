import Verif.Model.LiveFolder
import Verif.Spec.Folder
import Mathlib.Data.Real.Basic

/-! # Vocabulary for the files of a Chen-Wang-Liang calibration -/

set_option autoImplicit false

namespace Micropol

/-- `C00.fits` … `C33.fits`. -/
def matrixFile (i j : Fin 4) : Name := 'C' :: digitChar i :: digitChar j :: ".fits".toList

/-- `d_ij.fits`. -/
def offsetFile : Name := "d_ij.fits".toList

/-- The folder holds the matrices `C` and the offsets `d`, completely written. -/
def LiveFolder.HoldsChen (f : LiveFolder ℝ) (C : Fin 4 → Fin 4 → Img ℝ) (d : Img ℝ) : Prop :=
  (∀ i j, f (matrixFile i j) = some (.complete (C i j))) ∧ f offsetFile = some (.complete d)

/-- None of the seventeen files is there. -/
def LiveFolder.NoChen (f : LiveFolder ℝ) : Prop := (∀ i j, f (matrixFile i j) = none) ∧ f offsetFile = none

/-- A program that writes seventeen files one after the other, with three actions for each (remove, create, complete), has done `k`
actions: it has not begun with file number `m`. -/
def NotBegun (m k : Nat) : Prop := k ≤ 3 * m

/-- It has completed file number `m`. -/
def Completed (m k : Nat) : Prop := 3 * (m + 1) ≤ k

end Micropol
