import Verif.Model.Rounding
import Verif.Basic.Loop

/-!
# Angle normalisation in rounded arithmetic

The loops of `Model/Utils.lean` with numbers whose operations round (`Model/Rounding.lean`): Python floats and numpy's
`float64` are such numbers, and the loops subtract half turns until the angle is in range.
-/

set_option autoImplicit false

namespace Micropol

noncomputable section

open Classical

variable {R : ℝ → ℝ}

/-- One turn of the loop of `normalize2pi` on a float.
Models: utils.py:134-137 and the same lines of polarization_functions.py:82-85. -/
def normalizeAngleRounded (angle : Fl R) : Py (Fl R) := do
  let angle ← whileLoop (fun a : Fl R => decide (a > ⟨90⟩)) (fun a => a - ⟨180⟩) angle
  whileLoop (fun a : Fl R => decide (a ≤ ⟨-90⟩)) (fun a => a + ⟨180⟩) angle

/-- `normalize2pi(angles_list)` for a list of floats.
Models: utils.py:120-140, polarization_functions.py:68-88. -/
def normalize2piRounded (angles : List (Fl R)) : Py (List (Fl R)) := angles.mapM normalizeAngleRounded

/-- `normalize2piarray(data)` for an array of floats; `pi` is `np.pi`.  (Halving and changing the sign do not round.)
Models: utils.py:143-156. -/
def normalize2piarrayRounded (pi : ℝ) (data : Img (Fl R)) : Py (Img (Fl R)) := do
  let data ← whileLoop (fun d : Img (Fl R) => decide (∃ y x, y < d.h ∧ x < d.w ∧ d.px y x > ⟨pi / 2⟩))
    (fun d => d.map (fun v => if v > ⟨pi / 2⟩ then v - ⟨pi⟩ else v)) data
  whileLoop (fun d : Img (Fl R) => decide (∃ y x, y < d.h ∧ x < d.w ∧ d.px y x ≤ ⟨-pi / 2⟩))
    (fun d => d.map (fun v => if v ≤ ⟨-pi / 2⟩ then v + ⟨pi⟩ else v)) data

end

end Micropol
