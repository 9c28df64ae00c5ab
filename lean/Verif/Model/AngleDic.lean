import Verif.Model.Utils
import Verif.Model.Demosaic
import Verif.Model.Stokes

/-!
# Model of `Demodulator.angle_dic`
-/

set_option autoImplicit false

namespace Micropol

noncomputable section

open Classical

/-- `l.index(min(l, key=lambda x: abs(x - target)))`: `min` returns the first minimal element, `index` the first
position of an equal element.  An empty list raises `ValueError`.
Models: processing/demodulation.py:124. -/
def nearestIndex (l : List ℝ) (target : ℝ) : Py Nat :=
  match l with
  | [] => .error .valueError
  | a :: rest =>
    let m := rest.foldl (fun best x => if |x - target| < |best - target| then x else best) a
    .ok (l.idxOf m)

/-- The entries of the dictionary and the leftover rule, once the four phases are normalised; `pick S` is
`list(S)[0]` for a set `S` of small integers.
Models: processing/demodulation.py:120-132. -/
def angleDicOf (pick : Finset Nat → Nat) (phis : List ℝ) : Py (List (Int × Nat)) := do
  let i0 ← nearestIndex phis 0
  let i45 ← nearestIndex phis 45
  let im45 ← nearestIndex phis (-45)
  let i90 ← nearestIndex phis 90
  let left := Finset.range 4 \ {i0, i45, im45, i90}
  let i90 := if left.Nonempty then pick left else i90
  pure [(0, i0), (45, i45), (-45, im45), (90, i90)]

/-- `demodulator.angle_dic`, from the file `phases.fits` (degrees).
Models: processing/demodulation.py:105-132. -/
def demodAngleDic (pick : Finset Nat → Nat) (phi : Img ℝ) : Py (List (Int × Nat)) := do
  let p0 ← npMean (phi.stride2 0 0)
  let p1 ← npMean (phi.stride2 0 1)
  let p2 ← npMean (phi.stride2 1 0)
  let p3 ← npMean (phi.stride2 1 1)
  let phis ← normalize2pi (.list [p0, p1, p2, p3])
  angleDicOf pick phis

end

end Micropol
