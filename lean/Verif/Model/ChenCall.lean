import Verif.Model.ChenFolder
import Verif.Model.Save

/-!
# Model of a call of `calculate_chen_wan_lian_calibration`, with the folder it saves to

Simplifications: those of `Model/Save` (`..` in a path is resolved by its text; all failures of the operating system are
`FileNotFoundError`) and of `Model/ChenCalculate`; every FITS file has one image.
-/

set_option autoImplicit false

namespace Micropol

noncomputable section

/-- What `fits.open(name)` finds on the disk, for a program that runs in the directory `cwd`.
Models: processing/chen_wan_liang_calibration.py:62, :89, :93, :106. -/
def FileSystem.images (cwd : List Name) (fs : FileSystem) : Name → Option (Img ℝ) := fun n =>
  match fs.file (abspath cwd n) with
  | some (.fits d) => some d
  | _ => none

/-- `calculate_chen_wan_lian_calibration(...)`: the folder is made after the calculation, and the files are written to it.
Models: processing/chen_wan_liang_calibration.py:15-219. -/
def chenCall (env : ChenEnv) (cwd : List Name) (fs : FileSystem) (a : ChenArgs) (outputDir : Name) : Trace :=
  match calculateChen env (fs.images cwd) a with
  | .error e => ⟨.error e, [fs]⟩
  | .ok (C, d) =>
    match makeAbsAndCreateDir cwd fs outputDir with
    | .error e => ⟨.error e, [fs]⟩
    | .ok (path, fs') =>
      let t := writeMany fs' ((chenWrites C d).map fun e => (pathString path ++ '/' :: e.1, e.2))
      ⟨t.result, fs :: t.states⟩

/-- The files `dir + "/" + name`; one that is not a complete FITS file cannot be opened.
Models: processing/chen_wan_liang_calibration.py:282-289. -/
def FileSystem.folderAt (cwd : List Name) (fs : FileSystem) (dir : Name) : LiveFolder ℝ := fun n =>
  match fs.file (abspath cwd (dir ++ '/' :: n)) with
  | none => none
  | some (.fits d) => some (.complete d)
  | some _ => some .incomplete

/-- `chen_wan_liang_calibration(data, dir)`.
Models: processing/chen_wan_liang_calibration.py:260-305. -/
def chenApply (cwd : List Name) (fs : FileSystem) (dir : Name) (data : Img ℝ) : Py (Img ℝ) :=
  applyChen (fun _ => fs.folderAt cwd dir) data

end

end Micropol
