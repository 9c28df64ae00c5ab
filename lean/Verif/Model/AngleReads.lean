import Verif.Model.AngleDic
import Verif.Model.DemodObject

/-!
# Model of the accesses of `Demodulator.angle_dic` to the disk

`angle_dic` uses `self.phi` four times, and each use reads the file `phases.fits` again.
-/

set_option autoImplicit false

namespace Micropol

noncomputable section

/-- `angle_dic`, from the four results of reading `phases.fits`.
Models: processing/demodulation.py:105-132. -/
def angleDicReads (pick : Finset Nat → Nat) (phi : Fin 4 → Py (Img ℝ)) : Py (List (Int × Nat)) := do
  let f0 ← phi 0
  let p0 ← npMean (f0.stride2 0 0)
  let f1 ← phi 1
  let p1 ← npMean (f1.stride2 0 1)
  let f2 ← phi 2
  let p2 ← npMean (f2.stride2 1 0)
  let f3 ← phi 3
  let p3 ← npMean (f3.stride2 1 1)
  let phis ← normalize2pi (.list [p0, p1, p2, p3])
  angleDicOf pick phis

/-- `d.angle_dic`, when the disk is in the states `s 0`, …, `s 3` at the four accesses.
Models: processing/demodulation.py:105-132. -/
def DemodObject.angleDic (d : DemodObject) (pick : Finset Nat → Nat) (s : Fin 4 → DiskState) : Py (List (Int × Nat)) :=
  angleDicReads pick fun k => d.phi (s k)

end

end Micropol
