import Verif.Basic.Loop
import Verif.Model.Roi

/-!
# Model of processing/linear_roi.py

Points are (y, x).  Numbers are reals: rounding in the accumulated sums `x = x + dx` is not modelled.
-/

set_option autoImplicit false

namespace Micropol

noncomputable section

open Classical

/-- The variables of the loop of `DDA`.
Models: processing/linear_roi.py:125-137. -/
structure DDAState where
  i : ℤ
  x : ℝ
  y : ℝ
  ys : List ℤ
  xs : List ℤ

/-- `DDA(start, end)`: the lists of y and x, and the density.  For equal (truncated) points `step` is the numpy integer 0, so
the division gives `nan` with a warning and `int(nan)` raises `ValueError`.
Models: processing/linear_roi.py:97-141. -/
def dda (start stop : ℝ × ℝ) : Py (List ℤ × List ℤ × ℝ) :=
  let y1 := pyInt start.1
  let x1 := pyInt start.2
  let y2 := pyInt stop.1
  let x2 := pyInt stop.2
  let dx := x2 - x1
  let dy := y2 - y1
  let step := if |dx| ≥ |dy| then |dx| else |dy|
  if step = 0 then .error .valueError
  else do
    let fx : ℝ := dx / step
    let fy : ℝ := dy / step
    let s ← whileLoop (fun s : DDAState => decide (s.i ≤ step))
      (fun s =>
        let x := s.x + fx
        let y := s.y + fy
        { i := s.i + 1, x := x, y := y, ys := s.ys ++ [pyInt y], xs := s.xs ++ [pyInt x] })
      { i := 0, x := x1, y := y1, ys := [pyInt y1], xs := [pyInt x1] }
    pure (s.ys, s.xs, Real.sqrt (((x2 - x1 : ℤ) : ℝ) ^ 2 + ((y2 - y1 : ℤ) : ℝ) ^ 2) / s.xs.length)

/-- `data[y, x]` for integers: negative ones count from the end, others out of range raise `IndexError`.
Models: processing/linear_roi.py:72, :92. -/
def npGet (data : Img ℝ) (y x : ℤ) : Py ℝ :=
  if -(data.h : ℤ) ≤ y ∧ y < data.h ∧ -(data.w : ℤ) ≤ x ∧ x < data.w then
    .ok (data.px (if y < 0 then y + data.h else y).toNat (if x < 0 then x + data.w else x).toNat)
  else .error .indexError

/-- `linear_roi(data, start, end)`: ys, xs, values.
Models: processing/linear_roi.py:77-94. -/
def linearRoi (data : Img ℝ) (start stop : ℝ × ℝ) : Py (List ℤ × List ℤ × List ℝ) := do
  let (ys, xs, _) ← dda start stop
  let vals ← (ys.zip xs).mapM (fun q => npGet data q.1 q.2)
  pure (ys, xs, vals)

/-- The last loop of `linear_roi_from_polar`: drop two points as long as the last one is outside; `ys[-1]` of an empty array
raises `IndexError`.
Models: processing/linear_roi.py:63-70. -/
def trimOutside (h w : ℕ) (l : List (ℤ × ℤ)) : Py (List (ℤ × ℤ)) :=
  match hl : l.getLast? with
  | none => .error .indexError
  | some q =>
    if q.1 ≥ h ∨ q.2 ≥ w ∨ q.1 < 0 ∨ q.2 < 0 then trimOutside h w l.dropLast.dropLast else .ok l
termination_by l.length
decreasing_by
  have : l ≠ [] := by rintro rfl; simp at hl
  have : 0 < l.length := List.length_pos_of_ne_nil this
  simp only [List.length_dropLast]
  omega

/-- `linear_roi_from_polar(data, center, theta, r)`: values, ys, xs, density.
Models: processing/linear_roi.py:11-74. -/
def linearRoiFromPolar (data : Img ℝ) (center : ℝ × ℝ) (theta : ℝ) (r : Option (ℝ × ℝ)) :
    Py (List ℝ × List ℤ × List ℤ × ℝ) := do
  let r := r.getD (0, 10 ^ 18)
  let t := theta * Real.pi / 180
  let p1 ← whileLoop
    (fun p : ℝ × ℝ => decide (Real.sqrt ((center.2 - p.2) ^ 2 + (center.1 - p.1) ^ 2) < r.1))
    (fun p => (p.1 - Real.sin t, p.2 + Real.cos t)) center
  let p2 ← whileLoop
    (fun p : ℝ × ℝ => decide (p.1 < data.h ∧ p.1 > 1 ∧ p.2 < data.w ∧ p.2 > 1 ∧
      Real.sqrt ((p.2 - center.2) ^ 2 + (p.1 - center.1) ^ 2) < r.2 - 1))
    (fun p => (p.1 - Real.sin t, p.2 + Real.cos t)) center
  let (ys, xs, density) ← dda p1 p2
  let l ← trimOutside data.h data.w (ys.zip xs)
  let vals ← l.mapM (fun q => npGet data q.1 q.2)
  pure (vals, l.map (·.1), l.map (·.2), density)

/-- One turn of the loop of `bresenham`; the state is (x, y, p, points).
Models: processing/linear_roi.py:176-185. -/
def bresenhamBody (dx dy x2 y2 : ℤ) (s : ℤ × ℤ × ℤ × List ℤ × List ℤ) : ℤ × ℤ × ℤ × List ℤ × List ℤ :=
  let (x, y, p, ys, xs) := s
  let (y, p) := if p > 0 then (if y < y2 then y + 1 else y - 1, p + 2 * (dy - dx)) else (y, p + 2 * dy)
  let x := if x < x2 then x + 1 else x - 1
  (x, y, p, ys ++ [y], xs ++ [x])

/-- `bresenham(start, end)`: ys and xs.
Models: processing/linear_roi.py:144-187. -/
def bresenham (start stop : ℝ × ℝ) : Py (List ℤ × List ℤ) :=
  let y1 := pyInt start.1
  let x1 := pyInt start.2
  let y2 := pyInt stop.1
  let x2 := pyInt stop.2
  let dx := |x2 - x1|
  let dy := |y2 - y1|
  if dx = 0 then .error .zeroDivisionError
  else
    let gradient : ℝ := dy / dx
    let (dx, dy, x, y, x2, y2) := if gradient > 1 then (dy, dx, y1, x1, y2, x2) else (dx, dy, x1, y1, x2, y2)
    let p := 2 * dy - dx
    let s := (pyRange 2 (dx + 2) 1).foldl (fun s _ => bresenhamBody dx dy x2 y2 s) (x, y, p, [y], [x])
    .ok (s.2.2.2.1, s.2.2.2.2)

end

end Micropol
