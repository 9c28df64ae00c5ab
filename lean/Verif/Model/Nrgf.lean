import Verif.Model.Roi
import Verif.Basic.Loop
import Mathlib.Data.Finset.Lattice.Fold
import Mathlib.Algebra.BigOperators.Group.Finset.Basic

/-!
# Model of `nrgf` and of the search for the occulter (`micropolarray/processing/nrgf.py`)
-/

set_option autoImplicit false

namespace Micropol

noncomputable section

open Classical Finset

/-- The pixels where a boolean array is true.
Models: the argument `where` in processing/nrgf.py:163-164. -/
def truePixels (M : Img Bool) : Finset (Nat × Nat) :=
  (range M.h ×ˢ range M.w).filter (fun q => M.px q.1 q.2 = true)

/-- `np.mean(data, where=M)`; `none` is NaN (no pixel selected).
Models: numpy's `mean` as used by processing/nrgf.py:163. -/
def meanWhere (data : Img ℝ) (M : Img Bool) : Option ℝ :=
  if (truePixels M).card = 0 then none
  else some ((∑ q ∈ truePixels M, data.px q.1 q.2) / ((truePixels M).card : ℝ))

/-- `np.std(data, where=M)`; `none` is NaN.
Models: numpy's `std` as used by processing/nrgf.py:164. -/
def stdWhere (data : Img ℝ) (M : Img Bool) : Option ℝ :=
  match meanWhere data M with
  | none => none
  | some mean => some (Real.sqrt ((∑ q ∈ truePixels M, (data.px q.1 q.2 - mean) ^ 2) / ((truePixels M).card : ℝ)))

/-- Elementwise `np.logical_and` of arrays of one shape.
Models: processing/nrgf.py:160, :162. -/
def logicalAnd (A B : Img Bool) : Img Bool := Img.ofFn A.h A.w (fun y x => A.px y x && B.px y x)

/-- `np.logical_and(coords > a, coords <= b)`.
Models: processing/nrgf.py:159. -/
def ringCondition (rhoCoords : Img ℝ) (a b : ℝ) : Img Bool :=
  Img.ofFn rhoCoords.h rhoCoords.w (fun y x => decide (rhoCoords.px y x > a) && decide (rhoCoords.px y x ≤ b))

/-- `np.logical_and(coords >= a, coords < b)`.
Models: processing/nrgf.py:146-152. -/
def sectorCondition (phiCoords : Img ℝ) (t : ℝ × ℝ) : Img Bool :=
  Img.ofFn phiCoords.h phiCoords.w (fun y x => decide (phiCoords.px y x ≥ t.1) && decide (phiCoords.px y x < t.2))

/-- Body of the loop over rings.  A comparison with NaN is false.
Models: processing/nrgf.py:159-172. -/
def nrgfBody (data rhoCoords : Img ℝ) (meanPhi outPhi : Img Bool) (step : Nat) (r : Int) (newdata : Img ℝ) :
    Py (Img ℝ) :=
  let rhoCond := ringCondition rhoCoords (r : ℝ) ((r : ℝ) + (step : ℝ))
  let condition := logicalAnd rhoCond outPhi
  let meanCondition := logicalAnd rhoCond meanPhi
  match meanWhere data meanCondition, stdWhere data meanCondition with
  | some mean, some std =>
    if std > 0 then npWhere condition (data.map (fun v => (v - mean) / std)) newdata
    else npWhere condition (Img.const 1 1 0) newdata
  | _, _ => npWhere condition (Img.const 1 1 0) newdata

/-- `int(np.max(rho_coords))`; the maximum of an empty array raises `ValueError`.
Models: processing/nrgf.py:154. -/
def rhoMax (rhoCoords : Img ℝ) : Py Int :=
  if h : (range rhoCoords.h ×ˢ range rhoCoords.w).Nonempty then
    .ok (pyInt ((range rhoCoords.h ×ˢ range rhoCoords.w).sup' h (fun q => rhoCoords.px q.1 q.2)))
  else .error .valueError

/-- `nrgf(data, y_center, x_center, rho_min, step, phi_to_mean, output_phi)` with a known position and a positive step
(`range` rejects the step 0; for missing arguments and negative steps see `nrgfCall`).
Models: processing/nrgf.py:131, :136-174. -/
def nrgf (data : Img ℝ) (yCenter xCenter : ℝ) (rhoMin : Int) (step : Nat) (phiToMean outputPhi : ℝ × ℝ) :
    Py (Img ℝ) :=
  let center : ℝ × ℝ := ((pyInt yCenter : ℤ), (pyInt xCenter : ℤ))
  let coords := mapPolarCoordinates data.h data.w center
  let meanPhi := sectorCondition coords.2 phiToMean
  let outPhi := sectorCondition coords.2 outputPhi
  rhoMax coords.1 >>= fun rmax =>
  if step = 0 then .error .valueError
  else forRange rhoMin rmax step (Img.zeros data.h data.w) (nrgfBody data coords.1 meanPhi outPhi step)

/-- The loop `for i, val in enumerate(values): if i > 5: if val > threshold * mean(values[:i]): ...; break`: the index
at which it breaks, if any.
Models: processing/nrgf.py:311-334 (four copies of the same loop). -/
def firstJump (threshold : ℝ) (values : List ℝ) : Option Nat :=
  (List.range values.length).find? (fun i => decide (i > 5 ∧
    values.getD i 0 > threshold * ((values.take i).sum / (i : ℝ))))

/-- `np.mean([a, b])`.
Models: processing/nrgf.py:349-356. -/
def mean2 (a b : ℝ) : ℝ := (a + b) / 2

/-- `find_occulter_position(data, method="algo", threshold)`.  The middle row or column is read with an index that is
out of range exactly when the array is empty along that axis.  Names not assigned by the loops raise
`UnboundLocalError`, turned into `ValueError`.
Models: processing/nrgf.py:244-251, :306-343, :349-360. -/
def findOcculterAlgo (data : Img ℝ) (threshold : ℝ) : Py (Int × Int × Int) :=
  let halfY := data.h / 2
  let halfX := data.w / 2
  if data.h = 0 ∨ data.w = 0 then .error .indexError
  else
    let x0 := ((List.range halfX).map (fun x => data.px halfY x)).reverse
    let x1 := (List.range (data.w - halfX)).map (fun x => data.px halfY (halfX + x))
    let y0 := ((List.range halfY).map (fun y => data.px y halfX)).reverse
    let y1 := (List.range (data.h - halfY)).map (fun y => data.px (halfY + y) halfX)
    match firstJump threshold y0, firstJump threshold y1, firstJump threshold x0, firstJump threshold x1 with
    | some i0, some i1, some j0, some j1 =>
      let b0 : ℝ := (halfY : ℝ) - i0
      let b1 : ℝ := (halfY : ℝ) + i1
      let b2 : ℝ := (halfX : ℝ) - j0
      let b3 : ℝ := (halfX : ℝ) + j1
      .ok (pyInt (mean2 b0 b1), pyInt (mean2 b2 b3), pyInt (mean2 (|b1 - b0| / 2) (|b3 - b2| / 2)))
    | _, _, _, _ => .error .valueError

end

end Micropol
