import Verif.Model.Statistics
import Verif.Model.Prepare
import Verif.Model.Demodulate
import Verif.Model.Figures

/-!
# Model of helper functions that no other function of the library calls

`tile_double` (processing/nrgf.py), `remove_outliers_simple` (processing/image_cleaning.py) and `Demodulator.show`
(processing/demodulation.py).
-/

set_option autoImplicit false

namespace Micropol

section
variable {α : Type} [Zero α]

/-- Element `n` in row-major order of the view `as_strided(a, (height, 2, width, 2), (hs, 0, ws, 0))`, whose element
`[i, p, j, q]` is `a[i, j]`.
Models: processing/nrgf.py:85-88. -/
def tileElement (a : Img α) (n : Nat) : α := a.px (n / 2 / a.w / 2) (n / 2 % a.w)

/-- `tile_double(a)`.
Models: processing/nrgf.py:84-88. -/
def tileDouble (a : Img α) : Img α :=
  Img.ofFn (2 * a.h) (2 * a.w) (fun y x => tileElement a (y * (2 * a.w) + x))

end

noncomputable section

open Classical

/-- One turn of the loop of `remove_outliers_simple`.  `data[neighbours:-neighbours]` is a view, so that the element is read from
the array as it is at that moment.  The median of an empty window is NaN, all comparisons with it are false.
Models: processing/image_cleaning.py:28-36. -/
def outlierStep (neighbours : Nat) (data : List ℝ) (i : Nat) : List ℝ :=
  let window := pySlice data ((i : Int) - neighbours) (i + neighbours)
  match npMedian window with
  | .error _ => data
  | .ok median =>
    match npMedian (window.map (fun v => |v - median|)) with
    | .error _ => data
    | .ok std =>
      let element := data.getD (neighbours + i) 0
      if element < median - 3 * std ∨ element > median + 3 * std then data.set i median else data

/-- `remove_outliers_simple(original, neighbours)` for a one-dimensional array and a non-negative number of neighbours.
Models: processing/image_cleaning.py:25-37 (the code after the `return` is never reached). -/
def removeOutliersSimple (original : List ℝ) (neighbours : Nat) : List ℝ :=
  (List.range (pySlice original neighbours (-neighbours)).length).foldl (outlierStep neighbours) original

/-- What the variable `ax` of `Demodulator.show` holds: the array of all axes, or one of them (counted row by row).
Models: processing/demodulation.py:206, :222, :229. -/
inductive Axes where
  | all
  | one (n : Nat)

/-- The panel drawn by turn `(i, j)` of the loops of `Demodulator.show`.
Models: processing/demodulation.py:217-220. -/
def tensorPanel (D : Demodulator ℝ) (vmin vmax : ℝ) (i : Fin 3) (j : Fin 4) : Panel :=
  { data := D.mij i j, vmin := some vmin, vmax := some vmax, title := s!"M$_{i.val}$$_{j.val}$", angle := none
    stats := none, unit := "" }

/-- `Demodulator.show(vmin, vmax)`: the panels, row by row, and the returned `ax`.  The loop over `fig.get_axes()` uses the variable
`ax` again.
Models: processing/demodulation.py:195-228. -/
def showTensor (D : Demodulator ℝ) (vmin vmax : ℝ) : List Panel × Axes :=
  let panels := (List.finRange 3).flatMap (fun i => (List.finRange 4).map (fun j => tensorPanel D vmin vmax i j))
  (panels, (List.range panels.length).foldl (fun _ n => .one n) .all)

end

end Micropol
