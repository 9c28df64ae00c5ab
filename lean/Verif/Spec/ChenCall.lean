import Verif.Model.ChenCall
import Verif.Spec.Save
import Verif.Spec.ChenFolder

/-! # Vocabulary for the folder of a Chen-Wang-Liang calibration -/

set_option autoImplicit false

namespace Micropol

/-- The seventeen files with their contents. -/
def calibrationFiles (C : Fin 4 → Fin 4 → Img ℝ) (d : Img ℝ) : List (Name × Img ℝ) :=
  ((List.finRange 4).flatMap fun i => (List.finRange 4).map fun j => (matrixFile i j, C i j)) ++ [(offsetFile, d)]

/-- The path of a file in the folder `dir`. -/
def fileIn (cwd : List Name) (dir name : Name) : Name := abspath cwd (dir ++ '/' :: name)

/-- A folder is only in a folder. -/
def Rooted (fs : FileSystem) : Prop := ∀ l, fs.dir (pathString l) → fs.dir (pathString l.dropLast)

/-- `dir` is there. -/
def IsFolder (cwd : List Name) (fs : FileSystem) (dir : Name) : Prop := fs.dir (abspath cwd dir)

/-- `dir` is not there, the folder above it is, and its name has no extension. -/
def CanBeMade (cwd : List Name) (fs : FileSystem) (dir : Name) : Prop :=
  ¬ fs.dir (abspath cwd dir) ∧ fs.file (abspath cwd dir) = none ∧ fs.dir (dirName cwd dir) ∧ pathSuffix (absoluteName cwd dir) = []

end Micropol
