import Verif.Model.DemodObject
import Verif.Spec.Glob

/-! # Vocabulary for the properties of a `Demodulator` -/

set_option autoImplicit false

namespace Micropol

/-- The history changes no file of the calibration `o` in the folder `dir`. -/
def LeavesAlone (cwd : List Name) (dir : Name) (o : CalibOutput ℝ) (l : List DiskStep) : Prop :=
  ∀ p c, DiskStep.change p c ∈ l → p ∉ (diskFiles cwd dir o).map Prod.fst

/-- The name of the folder means the same in the two current directories; an absolute name does in all. -/
def SameMeaning (dir : Name) (cwd cwd' : List Name) : Prop := dir.head? = some '/' ∨ cwd' = cwd

/-- In the subfolder of `dir` there are no (visible) files but those of a calibration. -/
def CleanCov (cwd : List Name) (fs : FileSystem) (dir : Name) : Prop :=
  ∀ n, '/' ∉ n → n ≠ [] → n.head? ≠ some '.' → fs.file (fileIn cwd (dir ++ "/covariance_tensor".toList) n) ≠ none →
    (∃ i j : Fin 3, n = 'C' :: digitChar i :: digitChar j :: ".fits".toList) ∨ n = "reduced_chisquare.fits".toList

/-- The four maps of the object are those of the calibration: whatever the order of the listing for `Cij`. -/
def Shows (d : DemodObject) (s : DiskState) (o : CalibOutput ℝ) : Prop :=
  d.tensor.mij = o.mij ∧ d.eff s = .ok o.eff ∧ d.tk s = .ok o.tk ∧ d.phi s = .ok o.phase ∧
  ∀ L, IsCovListing s.cwd s.fs d.path L → d.Cij L = .ok (some o.cov)

end Micropol
