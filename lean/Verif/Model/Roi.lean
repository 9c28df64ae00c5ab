import Verif.Model.NumPy
import Mathlib.Analysis.SpecialFunctions.Complex.Arg
import Mathlib.Analysis.Real.Sqrt

/-!
# Model of the polar selections (`micropolarray/processing/nrgf.py`)

Numbers are reals: floating point rounding in `sqrt`, `arctan2` and the comparisons is not modelled.
-/

set_option autoImplicit false

namespace Micropol

noncomputable section

open Classical

/-- `int(x)` for a Python float: truncation toward zero.
Models: processing/nrgf.py:51-55, :137, :154; processing/linear_roi.py:114-115. -/
def pyInt (x : ℝ) : ℤ := if 0 ≤ x then ⌊x⌋ else ⌈x⌉

/-- `a % b` for floats and `b > 0` (numpy: the result has the sign of the divisor).
Models: processing/nrgf.py:100-102. -/
def pyMod (a b : ℝ) : ℝ := a - b * (⌊a / b⌋ : ℤ)

/-- `map_polar_coordinates(height, width, center)` without its cache: distances and angles in degrees.
`np.arctan2(v, u)` is the argument of the complex number `u + i v` (both give 0 at the origin and lie in (-π, π]).
Models: processing/nrgf.py:92-103. -/
def mapPolarCoordinates (height width : Nat) (center : ℝ × ℝ) : Img ℝ × Img ℝ :=
  let rhoAt : Nat → Nat → ℝ := fun y x => Real.sqrt (((x : ℝ) - center.2) ^ 2 + ((y : ℝ) - center.1) ^ 2)
  let phiAt : Nat → Nat → ℝ := fun y x =>
    pyMod (Complex.arg ⟨(x : ℝ) - center.2, (y : ℝ) - center.1⟩ * 180 / Real.pi + 360) 360
  (Img.ofFn height width rhoAt, Img.ofFn height width phiAt)

/-- The boolean map of lines 64-68 on a grid of the given size.
Models: processing/nrgf.py:57-72. -/
def roiCondition (height width : Nat) (center rho theta : ℝ × ℝ) : Img Bool :=
  let c := mapPolarCoordinates height width center
  Img.ofFn height width (fun y x =>
    decide (c.1.px y x > rho.1 ∧ c.1.px y x ≤ rho.2) && decide (c.2.px y x ≥ theta.1 ∧ c.2.px y x < theta.2))

/-- `condition.repeat(2, axis=0).repeat(2, axis=1)`.
Models: processing/nrgf.py:76. -/
def repeatTwice (M : Img Bool) : Img Bool := Img.ofFn (2 * M.h) (2 * M.w) (fun y x => M.px (y / 2) (x / 2))

/-- `roi_from_polar(..., return_boolean=True)`.  `rho_min, rho_max = rho` comes before the test `rho is None`, so a
missing `rho` raises `TypeError`.
Models: processing/nrgf.py:36-79 (the debug plot under `if False` is left out). -/
def roiMask (data : Img ℝ) (center : Option (ℝ × ℝ)) (rho : Option (ℝ × ℝ)) (theta : ℝ × ℝ)
    (includeSuperpixels : Bool) : Py (Img Bool) :=
  match rho with
  | none => .error .typeError
  | some rho =>
    let center := match center with
      | none => (((data.h / 2 : Nat) : ℝ), ((data.w / 2 : Nat) : ℝ))
      | some c => c
    if includeSuperpixels then
      .ok (repeatTwice (roiCondition (data.h / 2) (data.w / 2)
        (((pyInt (center.1 / 2) : ℤ) : ℝ), ((pyInt (center.2 / 2) : ℤ) : ℝ))
        (((pyInt (rho.1 / 2) : ℤ) : ℝ), ((pyInt (rho.2 / 2) : ℤ) : ℝ)) theta))
    else .ok (roiCondition data.h data.w center rho theta)

/-- `roi_from_polar(data, center, rho, theta, fill, include_superpixels=...)`.
Models: processing/nrgf.py:36-81. -/
def roiFromPolar (data : Img ℝ) (center : Option (ℝ × ℝ)) (rho : Option (ℝ × ℝ)) (theta : ℝ × ℝ) (fill : ℝ)
    (includeSuperpixels : Bool) : Py (Img ℝ) :=
  roiMask data center rho theta includeSuperpixels >>= fun condition =>
    npWhere condition data (Img.const 1 1 fill)

/-! ## The cache of `map_polar_coordinates` -/

/-- One call of a function decorated with `functools.lru_cache` (`maxsize` 128): the cache is a list of pairs, most
recently used first.
Models: the decorator at processing/nrgf.py:91. -/
def lruCall {κ V : Type} (f : κ → V) (cache : List (κ × V)) (k : κ) : V × List (κ × V) :=
  match cache.find? (fun e => decide (e.1 = k)) with
  | some e => (e.2, e :: cache.filter (fun e' => decide (e'.1 ≠ k)))
  | none => (f k, ((k, f k) :: cache).take 128)

/-- A history of calls: the values returned and the final cache.
Models: the calls at processing/nrgf.py:57, :142 over a session. -/
def lruRun {κ V : Type} (f : κ → V) : List κ → List (κ × V) → List V × List (κ × V)
  | [], cache => ([], cache)
  | k :: ks, cache =>
    let r := lruCall f cache k
    let rest := lruRun f ks r.2
    (r.1 :: rest.1, rest.2)

end

end Micropol
