import Verif.Model.Disk
import Verif.Spec.Object
import Verif.Spec.Save
import Verif.Spec.Load

/-!
# Vocabulary for programs that save and load images
-/

set_option autoImplicit false

namespace Micropol

/-- The file that an event may write. -/
def DiskOp.target (cwd : List Name) : DiskOp → Option Name
  | .save _ name _ => some (abspath cwd name)
  | .crash _ name _ _ => some (abspath cwd name)
  | _ => none

/-- The session calls among the events are ones after which I, Q, U are meant to be the theoretical ones. -/
def DiskOp.theoretical : DiskOp → Bool
  | .call o => o.theoretical
  | _ => true

/-- The event `o` after the history `ops` gives the program the new image `n`. -/
def GivesImage (cwd : List Name) (c : Clock) (fs : FileSystem) (ops : List DiskOp) (o : DiskOp) (n : Nat) : Prop :=
  (diskRun cwd c fs (ops ++ [o])).mem.images = (diskRun cwd c fs ops).mem.images ++ [n]

/-- After the history `ops`, the image in variable `i` is `k` and `save_as_fits(name, fixto)` on it succeeds. -/
def CanSave (cwd : List Name) (c : Clock) (fs : FileSystem) (ops : List DiskOp) (i k : Nat) (name : Name) (fixto : Option (ℝ × ℝ)) : Prop :=
  (diskRun cwd c fs ops).mem.images[i]? = some k ∧
  (saveAsFits cwd (diskRun cwd c fs ops).files ((diskRun cwd c fs ops).mem.data k) fixto name).result = .ok ()

/-- The date in the header is one of the two known forms, or there is none. -/
def ReadableDate (c : Clock) (d : Option Name × Option Name) : Prop := ∃ t, fileDate c ⟨none, d.1, d.2⟩ = .ok t

end Micropol
