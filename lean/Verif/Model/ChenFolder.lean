import Verif.Model.LiveFolder
import Verif.Model.ChenCalculate
import Verif.Model.Corrections

/-!
# Model of the files of a Chen-Wang-Liang calibration

`calculate_chen_wan_lian_calibration` ends by writing seventeen files to a folder; `chen_wan_liang_calibration` reads them again.
Another program, or the same one stopped anywhere, may be between the two.

Simplifications: those of `Model/LiveFolder` (one `writeto` is three actions, an incomplete file cannot be opened, here
`FileNotFoundError`).
-/

set_option autoImplicit false

namespace Micropol

noncomputable section

/-- `d_ij.fits`.
Models: processing/chen_wan_liang_calibration.py:219, :288. -/
def dijName : Name := ['d', '_', 'i', 'j'] ++ fitsExt

/-- The files that are written, in order.
Models: processing/chen_wan_liang_calibration.py:214-219. -/
def chenWrites (C : Fin 4 → Fin 4 → Img ℝ) (d : Img ℝ) : Listing ℝ :=
  [(cName 0 0, C 0 0), (cName 0 1, C 0 1), (cName 0 2, C 0 2), (cName 0 3, C 0 3),
   (cName 1 0, C 1 0), (cName 1 1, C 1 1), (cName 1 2, C 1 2), (cName 1 3, C 1 3),
   (cName 2 0, C 2 0), (cName 2 1, C 2 1), (cName 2 2, C 2 2), (cName 2 3, C 2 3),
   (cName 3 0, C 3 0), (cName 3 1, C 3 1), (cName 3 2, C 3 2), (cName 3 3, C 3 3),
   (dijName, d)]

/-- The actions of these seventeen `writeto(name, overwrite=True)`.
Models: processing/chen_wan_liang_calibration.py:214-219. -/
def chenActs (C : Fin 4 → Fin 4 → Img ℝ) (d : Img ℝ) : List (FolderAct ℝ) :=
  (chenWrites C d).flatMap fun e => [.remove e.1, .create e.1, .finish e.1 e.2]

/-- The folder after the first `k` of these actions.
Models: processing/chen_wan_liang_calibration.py:213-219, stopped anywhere. -/
def chenFolderAfter (f : LiveFolder ℝ) (C : Fin 4 → Fin 4 → Img ℝ) (d : Img ℝ) (k : Nat) : LiveFolder ℝ :=
  ((chenActs C d).take k).foldl FolderAct.run f

/-- Reading the matrices for data of `h` rows and `w` columns; `f m` is the folder when the `m`-th of the seventeen files is opened.
`C_ij[i, j] = data` broadcasts.
Models: processing/chen_wan_liang_calibration.py:273, :282-289. -/
def readChen (f : Nat → LiveFolder ℝ) (h w : Nat) : Py ((Fin 4 → Fin 4 → Img ℝ) × Img ℝ) := do
  let C ← chenFour fun i => chenFour fun j =>
    readLive (f (4 * i.val + j.val)) (cName i j) >>= fun A => assignPlane h w A
  let d ← readLive (f 16) dijName
  pure (C, d)

/-- `chen_wan_liang_calibration(data, dir)` of float data.
Models: processing/chen_wan_liang_calibration.py:260-305. -/
def applyChen (f : Nat → LiveFolder ℝ) (data : Img ℝ) : Py (Img ℝ) := do
  let r ← readChen f data.h data.w
  chenWanLiang r.1 r.2 data

/-- The same writes into a folder that is listed afterwards; stopped after `k` complete files.
Models: processing/chen_wan_liang_calibration.py:214-219. -/
def chenSaveUntil (C : Fin 4 → Fin 4 → Img ℝ) (d : Img ℝ) (k : Nat) (f : CalibFolder ℝ) : CalibFolder ℝ :=
  (((chenWrites C d).map fun e => FileOp.top e.1 e.2).take k).foldl FileOp.run f

end

end Micropol
