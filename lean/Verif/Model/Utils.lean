import Verif.Model.NumPy
import Verif.Basic.Loop
import Mathlib.Analysis.SpecialFunctions.Trigonometric.Basic
import Mathlib.Analysis.Real.Sqrt

/-!
# Model of the numerical helpers of `micropolarray/utils.py`
-/

set_option autoImplicit false

namespace Micropol

noncomputable section

open Classical

/-- One turn of the loop of `normalize2pi`.
Models: utils.py:134-137 and the same lines of polarization_functions.py:82-85. -/
def normalizeAngle (angle : ℝ) : Py ℝ := do
  let angle ← whileLoop (fun a => decide (a > 90)) (fun a => a - 180) angle
  whileLoop (fun a => decide (a ≤ -90)) (fun a => a + 180) angle

/-- Argument of `normalize2pi`: a list, or anything else (a number), which is first wrapped in a list.
Models: utils.py:129-132. -/
inductive Angles where
  | list (l : List ℝ)
  | number (a : ℝ)

/-- `normalize2pi(angles_list)`.
Models: utils.py:120-140, polarization_functions.py:68-88. (The list given by the caller is also overwritten with the
result.) -/
def normalize2pi (angles : Angles) : Py (List ℝ) :=
  let l := match angles with
    | .list l => l
    | .number a => [a]
  l.mapM normalizeAngle

/-- `normalize2piarray(data)`.
Models: utils.py:143-156. -/
def normalize2piarray (data : Img ℝ) : Py (Img ℝ) := do
  let data ← whileLoop (fun d : Img ℝ => decide (∃ y x, y < d.h ∧ x < d.w ∧ d.px y x > Real.pi / 2))
    (fun d => d.map (fun v => if v > Real.pi / 2 then v - Real.pi else v)) data
  whileLoop (fun d : Img ℝ => decide (∃ y x, y < d.h ∧ x < d.w ∧ d.px y x ≤ -Real.pi / 2))
    (fun d => d.map (fun v => if v ≤ -Real.pi / 2 then v + Real.pi else v)) data

/-- `fix_data(data, min, max)`; a number counts as true when it is not 0.
Models: utils.py:55-61. -/
def fixData (data : Img ℝ) (min max : ℝ) : Img ℝ :=
  if ¬ (min ≠ 0 ∧ max ≠ 0) then data
  else
    let fixed := data.map (fun v => if v > min then v else min)
    fixed.map (fun v => if v < max then v else max)

/-- `np.std(data)`.
Models: utils.py:74, :87. -/
def npStd (data : Img ℝ) : Py ℝ := do
  let mean ← npMean data
  let var ← npMean (data.map (fun v => (v - mean) * (v - mean)))
  pure (Real.sqrt var)

/-- `mean_minus_std(data, stds_n)`.
Models: utils.py:64-74. -/
def meanMinusStd (data : Img ℝ) (n : ℝ) : Py ℝ := do
  let mean ← npMean data
  let std ← npStd data
  pure (mean - n * std)

/-- `mean_plus_std(data, stds_n)`.
Models: utils.py:77-87. -/
def meanPlusStd (data : Img ℝ) (n : ℝ) : Py ℝ := do
  let mean ← npMean data
  let std ← npStd data
  pure (mean + n * std)

/-- `sigma_DN(pix_DN)`; the root of a negative number is NaN.
Models: utils.py:49-52. -/
def sigmaDN (pixDN : ℝ) : Py ℝ :=
  let gain : ℝ := 693 / 100
  if gain * pixDN < 0 then .error .notFinite else .ok (Real.sqrt (gain * pixDN) / gain)

/-- `get_Bsun_units(diffuser_I, texp_image, texp_diffuser)` for Python floats.
Models: utils.py:219-247 (the first assignment to `Bsun_unit` also divides by `texp_image`). -/
def getBsunUnits (diffuserI texpImage texpDiffuser : ℝ) : Py ℝ :=
  let solid : ℝ := 1083 / 1000 * (1 / 100000)
  let transm : ℝ := 28 / 100
  if texpImage = 0 then .error .zeroDivisionError
  else if texpDiffuser = 0 then .error .zeroDivisionError
  else if diffuserI / texpDiffuser = 0 then .error .zeroDivisionError
  else .ok ((1 / texpImage) * transm * solid / (diffuserI / texpDiffuser))

end

end Micropol
