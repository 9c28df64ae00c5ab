import Verif.Model.Occulter

/-!
# Model of a whole call of `nrgf`: missing arguments and steps of either sign (`micropolarray/processing/nrgf.py`)
-/

set_option autoImplicit false

namespace Micropol

noncomputable section

open Classical

/-- Python's `range(a, b, -s)` for a positive `s`.
Models: `range` in processing/nrgf.py:158 with a negative step. -/
def pyRangeDown (a b : Int) (s : Nat) : List Int :=
  (List.range ((a - b + s - 1) / s).toNat).map (fun (k : Nat) => a - k * s)

/-- Body of the loop over rings with the step `-s`: the condition is `r < ρ ≤ r - s`.  A comparison with NaN is false.
Models: processing/nrgf.py:159-172 with a negative step. -/
def nrgfBodyDown (data rhoCoords : Img ℝ) (meanPhi outPhi : Img Bool) (s : Nat) (r : Int) (newdata : Img ℝ) : Py (Img ℝ) :=
  let rhoCond := ringCondition rhoCoords (r : ℝ) ((r : ℝ) - (s : ℝ))
  let condition := logicalAnd rhoCond outPhi
  let meanCondition := logicalAnd rhoCond meanPhi
  match meanWhere data meanCondition, stdWhere data meanCondition with
  | some mean, some std =>
    if std > 0 then npWhere condition (data.map (fun v => (v - mean) / std)) newdata
    else npWhere condition (Img.const 1 1 0) newdata
  | _, _ => npWhere condition (Img.const 1 1 0) newdata

/-- `nrgf` with a known position and the negative step `-s`.
Models: processing/nrgf.py:136-174 with a negative step. -/
def nrgfDown (data : Img ℝ) (yCenter xCenter : ℝ) (rhoMin : Int) (s : Nat) (phiToMean outputPhi : ℝ × ℝ) : Py (Img ℝ) :=
  let center : ℝ × ℝ := ((pyInt yCenter : ℤ), (pyInt xCenter : ℤ))
  let coords := mapPolarCoordinates data.h data.w center
  let meanPhi := sectorCondition coords.2 phiToMean
  let outPhi := sectorCondition coords.2 outputPhi
  rhoMax coords.1 >>= fun rmax =>
  forList (pyRangeDown rhoMin rmax s) (Img.zeros data.h data.w) (nrgfBodyDown data coords.1 meanPhi outPhi s)

/-- The test of the missing arguments: if one of the three is `None` all three are replaced by what
`find_occulter_position(data)` (method "sigmoid", threshold 4) returns.
Models: processing/nrgf.py:133-135. -/
def nrgfPosition (fit : SigmoidFit) (data : Img ℝ) (yCenter xCenter : Option ℝ) (rhoMin : Option Int) : Py (ℝ × ℝ × Int) :=
  match yCenter, xCenter, rhoMin with
  | some y, some x, some r => .ok (y, x, r)
  | _, _, _ => findOcculterPosition fit data .sigmoid 4 >>= fun p => .ok ((p.1 : ℝ), (p.2.1 : ℝ), p.2.2)

/-- `nrgf(data, y_center, x_center, rho_min, step, phi_to_mean, output_phi)`.  Simplification: `rho_min` and `step` are integers
(`range` rejects anything else).
Models: processing/nrgf.py:106-174. -/
def nrgfCall (fit : SigmoidFit) (data : Img ℝ) (yCenter xCenter : Option ℝ) (rhoMin : Option Int) (step : Int)
    (phiToMean outputPhi : ℝ × ℝ) : Py (Img ℝ) :=
  nrgfPosition fit data yCenter xCenter rhoMin >>= fun p =>
  if 0 ≤ step then nrgf data p.1 p.2.1 p.2.2 step.toNat phiToMean outputPhi
  else nrgfDown data p.1 p.2.1 p.2.2 (-step).toNat phiToMean outputPhi

end

end Micropol
