import Verif.Spec.EditMaps
import Verif.Model.PilRotate

/-! # Vocabulary for sessions without their map writes -/

set_option autoImplicit false

namespace Micropol

/-- `image.I.data[y, x] = v`, or the same with Q or U. -/
def Edit.isMapWrite : Edit → Bool
  | .writeMap _ _ _ _ _ => true
  | _ => false

/-- The same session, with the writes into maps left out. -/
def withoutMapWrites (es : List Edit) : List Edit := es.filter fun e => !e.isMapWrite

/-- If the call is a rotation, it is PIL's by some angle. -/
def Op.RotatesByPil (o : Op) : Prop := ∀ i rot, o = .rotate i rot → ∃ angle, rot = pilRotate angle

end Micropol
