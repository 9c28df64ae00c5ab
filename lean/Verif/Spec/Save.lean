import Verif.Model.Save
import Verif.Spec.Convert

/-!
# Vocabulary for saving images
-/

set_option autoImplicit false

namespace Micropol

/-- The call succeeded and left exactly the given files: their paths are different, each holds its image, and no other file was
touched at any moment. -/
def SavedExactly (fs : FileSystem) (t : Trace) (files : List (Name × Img ℝ)) : Prop :=
  t.result = .ok () ∧ (files.map Prod.fst).Nodup ∧
  (∃ final, t.states.getLast? = some final ∧ ∀ p d, (p, d) ∈ files → final.file p = some (.fits d)) ∧
  ∀ s ∈ t.states, ∀ q, q ∉ files.map Prod.fst → s.file q = fs.file q

/-- No regular file stands where the directory of `filename`, or one above it, has to be. -/
def FreeWay (cwd : List Name) (fs : FileSystem) (filename : Name) : Prop :=
  ∀ a, a <+: (resolveDots (absComponents cwd filename)).dropLast → fs.file (pathString a) = none

/-- The image that `fixto = [min, max]` asks for: all pixels clamped (see C57). -/
noncomputable def limited (fixto : Option (ℝ × ℝ)) (d : Img ℝ) : Img ℝ :=
  match fixto with
  | none => d
  | some (lo, hi) => fixData d lo hi

end Micropol
