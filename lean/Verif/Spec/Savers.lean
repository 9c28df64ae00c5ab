import Verif.Model.Savers
import Verif.Spec.Save

/-!
# Vocabulary for programs that save at the same time
-/

set_option autoImplicit false

namespace Micropol

/-- The name given by the caller. -/
def SaveCall.filename : SaveCall → Name
  | .singlePol _ _ _ f => f
  | .param _ _ _ f => f
  | .allParams _ f => f
  | .demosaiced _ _ _ f => f
  | .asFits _ _ f => f

/-- The call is `save_as_fits`. -/
def SaveCall.isAsFits : SaveCall → Bool
  | .asFits _ _ _ => true
  | _ => false

/-- The directory (its components) to which the call saves. -/
def SaveCall.folder (cwd : List Name) (c : SaveCall) : List Name := resolveDots (absComponents cwd c.filename).dropLast

/-- There is a root directory, and every directory is in a directory. -/
def FileSystem.IsTree (fs : FileSystem) : Prop :=
  fs.dir (pathString []) ∧
  ∀ l : List Name, (∀ x ∈ l, x ≠ [] ∧ x ≠ ['.'] ∧ '/' ∉ x) → fs.dir (pathString l) → fs.dir (pathString l.dropLast)

/-- The calls want to save the given files, and nothing is wrong with them: each would succeed if it were alone, no two save the same
file, and no file is to be where another call needs a directory. -/
structure Compatible {n : Nat} (cwd : List Name) (fs : FileSystem) (calls : Fin n → SaveCall) (files : Fin n → List (Name × Img ℝ)) :
    Prop where
  alone : ∀ j, SavedExactly fs ((calls j).alone cwd fs) (files j)
  disjoint : ∀ i j, i ≠ j → ∀ p ∈ (files i).map Prod.fst, p ∉ (files j).map Prod.fst
  ways : ∀ i j, ∀ p ∈ (files i).map Prod.fst, ∀ a, a <+: (calls j).folder cwd → p ≠ pathString a

/-- The program has ended, with or without an exception. -/
def Proc.Ended (p : Proc) : Prop := p = .ok [] ∨ ∃ e, p = .error e

end Micropol
