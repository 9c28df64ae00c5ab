import Verif.Model.NumPy
import Mathlib.Algebra.Order.Archimedean.Real.Basic
import Mathlib.Data.List.Sort

/-!
# Model of the median helpers of `micropolarray/utils.py` and of `micropolarray/processing/image_cleaning.py`

`scipy.ndimage.median_filter` is a parameter.  `remove_outliers_simple` is in `Verif/Model/Helpers.lean`; the
unreachable code after its `return` is left out.
-/

set_option autoImplicit false

namespace Micropol

noncomputable section

open Classical

/-- The elements of an array in row-major order (`np.ravel`).
Models: the arguments of utils.py:100, :115 and processing/image_cleaning.py:59, :94-97. -/
def ravel (A : Img ℝ) : List ℝ := (List.range A.h).flatMap (fun y => (List.range A.w).map (fun x => A.px y x))

/-- `np.median` of the given values; NaN when there are none.
Models: numpy's `median` as used by utils.py:100-101, :115-116 and processing/image_cleaning.py:59-60. -/
def npMedian (l : List ℝ) : Py ℝ :=
  if l = [] then .error .notFinite
  else
    let s := l.insertionSort (· ≤ ·)
    if s.length % 2 = 1 then .ok (s.getD (s.length / 2) 0)
    else .ok ((s.getD (s.length / 2 - 1) 0 + s.getD (s.length / 2) 0) / 2)

/-- `median_minus_std(data, stds_n)`.
Models: utils.py:90-102. -/
def medianMinusStd (data : Img ℝ) (n : ℝ) : Py ℝ := do
  let median ← npMedian (ravel data)
  let medianStd ← npMedian (ravel (data.map (fun v => |v - median|)))
  pure (median - n * medianStd)

/-- `median_plus_std(data, stds_n)`.
Models: utils.py:105-117. -/
def medianPlusStd (data : Img ℝ) (n : ℝ) : Py ℝ := do
  let median ← npMedian (ravel data)
  let medianStd ← npMedian (ravel (data.map (fun v => |v - median|)))
  pure (median + n * medianStd)

/-- `reject_outliers(data, m)` on a one-dimensional array.  For an empty array both medians are NaN, which counts as true, and the
result is empty.
Models: processing/image_cleaning.py:58-62. -/
def rejectOutliers (data : List ℝ) (m : ℝ) : Py (List ℝ) :=
  if data = [] then .ok []
  else do
    let median ← npMedian data
    let d := data.map (fun v => |v - median|)
    let mdev ← npMedian d
    let s := if mdev ≠ 0 then d.map (fun v => v / mdev) else List.replicate d.length 0
    pure (((data.zip s).filter (fun p => decide (p.2 < m))).map Prod.fst)

/-- `np.linspace(start, stop, num)`.
Models: numpy's `linspace` as used by processing/image_cleaning.py:95. -/
def linspace (start stop : ℝ) (num : Nat) : List ℝ :=
  if num = 1 then [start]
  else (List.range num).map (fun i =>
    if i = num - 1 then stop else (i : ℝ) * ((stop - start) / ((num - 1 : Nat) : ℝ)) + start)

/-- `np.mean(cls) * np.var(data, where=cls)`, NaN (an empty class) counting as 0 in `np.nansum`; `cls` is given by its members.
Models: processing/image_cleaning.py:82-88. -/
def classTerm (data cls : List ℝ) : ℝ :=
  if cls = [] then 0
  else
    let mean := cls.sum / (cls.length : ℝ)
    ((cls.length : ℝ) / (data.length : ℝ)) * ((cls.map (fun v => (v - mean) ^ 2)).sum / (cls.length : ℝ))

/-- `otsu_intraclass_variance(data, threshold)`.
Models: processing/image_cleaning.py:77-88. -/
def otsuIntraclassVariance (data : List ℝ) (threshold : ℝ) : ℝ :=
  classTerm data (data.filter (fun v => decide (v ≥ threshold))) +
    classTerm data (data.filter (fun v => decide (v < threshold)))

/-- `min(items, key=key)`: the first item with the smallest key; an empty sequence raises `ValueError`.
Models: processing/image_cleaning.py:94-97. -/
def pyMinBy (key : ℝ → ℝ) : List ℝ → Py ℝ
  | [] => .error .valueError
  | c :: l => .ok (l.foldl (fun best v => if key v < key best then v else best) c)

/-- `auto_threshold(data)`; `filter` is scipy's `median_filter(·, size=10)`.  `np.min` of an empty array raises `ValueError`.
Models: processing/image_cleaning.py:65-97 (the prints are left out). -/
def autoThreshold (filter : Img ℝ → Img ℝ) (data : Img ℝ) : Py ℝ :=
  match ravel (filter data) with
  | [] => .error .valueError
  | p :: l =>
    let values := p :: l
    let lo := l.foldl min p
    let hi := l.foldl max p
    pyMinBy (otsuIntraclassVariance values) (linspace (lo + 1) hi (min values.length 1000))

end

end Micropol
