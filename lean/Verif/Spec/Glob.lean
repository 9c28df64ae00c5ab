import Verif.Model.Glob
import Verif.Spec.ChenCall
import Verif.Spec.Calibration

/-! # Vocabulary for the folder of a demodulation tensor -/

set_option autoImplicit false

namespace Micropol

/-- The files of a calibration in its folder. -/
def tensorFiles (o : CalibOutput ℝ) : List (Name × Img ℝ) :=
  ((List.finRange 3).flatMap fun i : Fin 3 => (List.finRange 4).map fun j : Fin 4 =>
    ('M' :: digitChar i :: digitChar j :: ".fits".toList, o.mij i j)) ++
  [("transmittancies.fits".toList, o.tk), ("efficiences.fits".toList, o.eff), ("phases.fits".toList, o.phase),
   ("fit_found_flag.fits".toList, o.fitFound)]

/-- Those in the subfolder. -/
def tensorCovFiles (o : CalibOutput ℝ) : List (Name × Img ℝ) :=
  ((List.finRange 3).flatMap fun i : Fin 3 => (List.finRange 3).map fun j : Fin 3 =>
    ('C' :: digitChar i :: digitChar j :: ".fits".toList, o.cov i j)) ++ [("reduced_chisquare.fits".toList, o.chisq)]

/-- All of them by their paths, for the folder `dir`. -/
noncomputable def diskFiles (cwd : List Name) (dir : Name) (o : CalibOutput ℝ) : List (Name × Img ℝ) :=
  ((tensorFiles o).map fun e => (fileIn cwd dir e.1, e.2)) ++
  (tensorCovFiles o).map fun e => (fileIn cwd (dir ++ "/covariance_tensor".toList) e.1, e.2)

/-- No regular file stands where the folder `dir`, its subfolder, or a folder above it, has to be. -/
def OpenWay (cwd : List Name) (fs : FileSystem) (dir : Name) : Prop :=
  ∀ a, a <+: resolveDots (absComponents cwd (dir ++ "/covariance_tensor".toList)) → fs.file (pathString a) = none

/-- None of the characters that `glob` gives a meaning. -/
def PlainName (dir : Name) : Prop := ∀ c ∈ dir, c ≠ '*' ∧ c ≠ '?' ∧ c ≠ '['

/-- Apart from the component files, no listed file of the folder has two digits in its name. -/
def CleanAt (cwd : List Name) (fs : FileSystem) (dir : Name) : Prop :=
  ∀ n, fs.file (fileIn cwd dir n) ≠ none → '/' ∉ n → ListedFits n → HasDigitPair n → IsComponentName n

end Micropol
