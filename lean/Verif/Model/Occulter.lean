import Verif.Model.Nrgf
import Mathlib.Analysis.SpecialFunctions.Exp
import Mathlib.Algebra.Order.Archimedean.Real.Basic

/-!
# Model of `find_occulter_position` (all methods) and of `find_occulter_hough` (`micropolarray/processing/nrgf.py`)

Simplifications: pixel values are reals; `scipy.optimize.curve_fit`, `cv2.medianBlur` and `cv2.HoughCircles` are parameters; a division
by a maximum of 0 is the outcome `notFinite`; the conversion of a number outside 0..255 to `uint8`, which C leaves undefined, is a
parameter.
-/

set_option autoImplicit false

namespace Micropol

noncomputable section

open Classical

/-- The function `sigmoid`.
Models: processing/nrgf.py:363-365. -/
def sigmoid (x max min slope intercept : ℝ) : ℝ :=
  let sigma := slope * (x - intercept)
  max * Real.exp sigma / (1 + Real.exp sigma) + min

/-- What `curve_fit(sigmoid, x, half_array, params)` gets: the abscissae, the values and the first guess.
Models: the call in processing/nrgf.py:287. -/
structure SigmoidCall where
  xs : List ℝ
  ys : List ℝ
  p0 : Fin 4 → ℝ

/-- `curve_fit` with the function `sigmoid`: the best parameters, or `none` (`RuntimeError`).
Models: the call in processing/nrgf.py:287. -/
def SigmoidFit := SigmoidCall → Option (Fin 4 → ℝ)

/-- `np.max` and `np.min` of a profile.
Models: processing/nrgf.py:281, :283. -/
def listMax (l : List ℝ) : ℝ := l.tail.foldl max (l.headD 0)
/-- Models: processing/nrgf.py:283. -/
def listMin (l : List ℝ) : ℝ := l.tail.foldl min (l.headD 0)

/-- One turn of the loop over the half profiles: `params[3]`.  `np.max` of an empty array raises `ValueError`; `curve_fit` rejects
fewer points than parameters with a `TypeError`.
Models: processing/nrgf.py:275-288. -/
def halfEdge (fit : SigmoidFit) (values : List ℝ) : Py ℝ :=
  if values.length = 0 then .error .valueError
  else if values.length < 4 then .error .typeError
  else
    let call : SigmoidCall :=
      { xs := (List.range values.length).map (fun k : Nat => (k : ℝ))
        ys := values
        p0 := ![listMax values, listMin values, 1 / 2, (values.length : ℝ) / 2] }
    match fit call with
    | none => .error .runtimeError
    | some p => .ok (p 3)

/-- The last lines: centre and radius from the four bounds.
Models: processing/nrgf.py:349-360. -/
def occulterFromBounds (b0 b1 b2 b3 : ℝ) : Int × Int × Int :=
  (pyInt (mean2 b0 b1), pyInt (mean2 b2 b3), pyInt (mean2 (|b1 - b0| / 2) (|b3 - b2| / 2)))

/-- `find_occulter_position(data, method="sigmoid")`.
Models: processing/nrgf.py:244-251, :264-304, :349-360. -/
def findOcculterSigmoid (fit : SigmoidFit) (data : Img ℝ) : Py (Int × Int × Int) :=
  let halfY := data.h / 2
  let halfX := data.w / 2
  if data.h = 0 ∨ data.w = 0 then .error .indexError
  else
    let x0 := ((List.range halfX).map (fun x => data.px halfY x)).reverse
    let x1 := (List.range (data.w - halfX)).map (fun x => data.px halfY (halfX + x))
    let y0 := ((List.range halfY).map (fun y => data.px y halfX)).reverse
    let y1 := (List.range (data.h - halfY)).map (fun y => data.px (halfY + y) halfX)
    halfEdge fit y0 >>= fun i0 =>
    halfEdge fit y1 >>= fun i1 =>
    halfEdge fit x0 >>= fun j0 =>
    halfEdge fit x1 >>= fun j1 =>
    .ok (occulterFromBounds ((halfY : ℝ) - i0) ((halfY : ℝ) + i1) ((halfX : ℝ) - j0) ((halfX : ℝ) + j1))

/-- The strings given as `method`.
Models: processing/nrgf.py:264, :306, :344. -/
inductive OcculterMethod where
  | sigmoid
  | algo
  | other

/-- `find_occulter_position(data, method, threshold)`: a method that is not known leaves the four bounds 0.
Models: processing/nrgf.py:226-360. -/
def findOcculterPosition (fit : SigmoidFit) (data : Img ℝ) (method : OcculterMethod) (threshold : ℝ) : Py (Int × Int × Int) :=
  match method with
  | .sigmoid => findOcculterSigmoid fit data
  | .algo => findOcculterAlgo data threshold
  | .other => if data.h = 0 ∨ data.w = 0 then .error .indexError else .ok (occulterFromBounds 0 0 0 0)

/-! ## Hough -/

/-- What is outside: `cv2.medianBlur(image, 5)`; `cv2.HoughCircles` with the given image, least distance of two circles, accumulator
threshold `param2` and range of radii (the other arguments are constants), giving `none` or the circles `(x, y, r)`; and the conversion
to `uint8` of a number outside 0..255.
Models: the calls in processing/nrgf.py:194-205, :210-219. -/
structure HoughEnv where
  blur : Img Nat → Img Nat
  circles : Img Nat → Nat → Nat → ℝ → ℝ → Option (List (ℝ × ℝ × ℝ))
  wild : ℝ → Nat

/-- `astype("uint8")` of one number.
Models: processing/nrgf.py:194. -/
def toUint8 (env : HoughEnv) (v : ℝ) : Nat := if 0 ≤ v ∧ v < 256 then ⌊v⌋.toNat else env.wild v

/-- `np.max` of an image.
Models: processing/nrgf.py:193. -/
def imgMax (A : Img ℝ) : Py ℝ :=
  if h : (Finset.range A.h ×ˢ Finset.range A.w).Nonempty then
    .ok ((Finset.range A.h ×ˢ Finset.range A.w).sup' h (fun q => A.px q.1 q.2))
  else .error .valueError

/-- The image given to the detector.
Models: processing/nrgf.py:193-194. -/
def houghImage (env : HoughEnv) (data : Img ℝ) : Py (Img Nat) := do
  let m ← imgMax data
  if m = 0 then .error .notFinite
  else .ok (env.blur (data.map (fun v => toUint8 env (255 * v / m))))

/-- `circles is not None and len(circles[0]) > 1`; the `TypeError` of `None[0]` ends the loop.
Models: processing/nrgf.py:207, :220-221. -/
def manyCircles (c : Option (List (ℝ × ℝ × ℝ))) : Bool :=
  match c with
  | none => false
  | some l => decide (l.length > 1)

/-- `x, y, r = circles[0, 0]; return y, x, r`.
Models: processing/nrgf.py:222-223. -/
def pickCircle (c : Option (List (ℝ × ℝ × ℝ))) : Py (ℝ × ℝ × ℝ) :=
  match c with
  | none => .error .typeError
  | some [] => .error .indexError
  | some ((x, y, r) :: _) => .ok (y, x, r)

/-- `find_occulter_hough(data, minr, maxr)`; `maxr = none` stands for the default.
Models: processing/nrgf.py:177-223. -/
def findOcculterHough (env : HoughEnv) (data : Img ℝ) (minr : ℝ) (maxr : Option ℝ) : Py (ℝ × ℝ × ℝ) := do
  let side := max data.h data.w
  let maxr : ℝ := maxr.getD (side : ℝ)
  let blurred ← houghImage env data
  let search := fun accumulator : Nat => env.circles blurred side accumulator minr maxr
  let s ← whileLoop (fun s : Nat × Option (List (ℝ × ℝ × ℝ)) => manyCircles s.2) (fun s => (s.1 + 5, search (s.1 + 5)))
    (10, search 10)
  pickCircle s.2

end

end Micropol
