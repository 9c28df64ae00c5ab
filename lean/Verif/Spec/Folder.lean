import Verif.Model.Folder

/-! # Specification of the file names and contents of a calibration folder -/

set_option autoImplicit false

namespace Micropol

/-- A character `'0'` … `'9'`. -/
def IsDigitChar (c : Char) : Prop := '0' ≤ c ∧ c ≤ '9'

/-- The name contains two consecutive digits. -/
def HasDigitPair (n : Name) : Prop := ∃ pre a b post, n = pre ++ a :: b :: post ∧ IsDigitChar a ∧ IsDigitChar b

/-- The first two consecutive digits in the name are `i` and `j`. -/
def FirstDigits (n : Name) (i j : Nat) : Prop :=
  i < 10 ∧ j < 10 ∧ ∃ pre post, n = pre ++ digitChar i :: digitChar j :: post ∧ ¬HasDigitPair (pre ++ [digitChar i])

/-- A file that `*.fits` lists. -/
def ListedFits (n : Name) : Prop := (∃ stem, n = stem ++ ".fits".toList) ∧ n.head? ≠ some '.'

/-- Every name is used once, as in any directory. -/
def UniqueNames {K : Type} [Zero K] (files : Listing K) : Prop := (files.map Prod.fst).Nodup

/-- The twelve component files `M00.fits` … `M23.fits`. -/
def IsComponentName (n : Name) : Prop := ∃ (i : Fin 3) (j : Fin 4), n = 'M' :: digitChar i :: digitChar j :: ".fits".toList

/-- A folder in which only (possibly) component files of an earlier calibration are listed with two digits. -/
def CleanFolder {K : Type} [Zero K] (files : Listing K) : Prop :=
  UniqueNames files ∧ ∀ e ∈ files, ListedFits e.1 → HasDigitPair e.1 → IsComponentName e.1

/-- A folder in which no `.fits` file has two consecutive digits in its name (for example an empty folder). -/
def FreshFolder {K : Type} [Zero K] (files : Listing K) : Prop :=
  UniqueNames files ∧ ∀ e ∈ files, ListedFits e.1 → ¬HasDigitPair e.1

/-- All maps of a calibration have the same shape. -/
def CalibOutput.HasShape {K : Type} [Zero K] (o : CalibOutput K) (h w : Nat) : Prop :=
  (∀ i j, (o.mij i j).h = h ∧ (o.mij i j).w = w) ∧ (∀ i j, (o.cov i j).h = h ∧ (o.cov i j).w = w) ∧
  (o.chisq.h = h ∧ o.chisq.w = w)

end Micropol
