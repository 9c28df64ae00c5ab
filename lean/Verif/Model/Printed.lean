import Verif.Model.Rebin
import Verif.Model.ImageData
import Verif.Model.Roi

/-!
# What the code prints, and the functions marked as old or not working

`Model/Rebin.lean` models the values returned by the binning functions.  Here the same functions are transcribed again with
the flag `trimmed` and the printed lines.  Lines printed before a call that does not return are not kept.
-/

set_option autoImplicit false

namespace Micropol

/-- `print(...)` of several arguments: the texts separated by single blanks.
Models: the builtin as called in processing/rebin.py:11-21 (without the end of line). -/
def printArgs (args : List String) : String := " ".intercalate args

/-- `print_trimming_info(height, width, new_height, new_width)`: the printed line.
Models: processing/rebin.py:7-21. -/
def printTrimmingInfo (height width newHeight newWidth : Int) : String :=
  printArgs ["Data trimmed to fit rebinning: (", toString height, ",", toString width, ") -> (", toString newHeight, ",",
    toString newWidth, ")"]

/-- One loop `while n % m: n -= d; trimmed = True`.
Models: the loops of processing/rebin.py:131-136 and :158-163. -/
noncomputable def trimFlagged (m d : Int) (n : Int) (trimmed : Bool) : Py (Int × Bool) :=
  if m = 0 then .error .zeroDivisionError
  else whileLoop (fun s => decide (s.1 % m ≠ 0)) (fun s => (s.1 - d, true)) (n, trimmed)

/-- `trim_to_match_2xbinning(height, width, binning)`.
Models: processing/rebin.py:117-140. -/
noncomputable def trimToMatch2xBinningPrinted (height width binning : Int) : Py ((Int × Int) × List String) := do
  let w ← trimFlagged (2 * binning) 2 width false
  let h ← trimFlagged (2 * binning) 2 height w.2
  pure ((h.1, w.1), if h.2 then [printTrimmingInfo height width h.1 w.1] else [])

/-- `trim_to_match_binning(height, width, binning, verbose)`.
Models: processing/rebin.py:143-166. -/
noncomputable def trimToMatchBinningPrinted (height width binning : Int) (verbose : Bool) : Py ((Int × Int) × List String) := do
  let w ← trimFlagged binning 1 width false
  let h ← trimFlagged binning 1 height w.2
  pure ((h.1, w.1), if h.2 && verbose then [printTrimmingInfo height width h.1 w.1] else [])

section
variable {K : Type} [Zero K] [Add K]

/-- `micropolarray_rebin(data, binning)`.
Models: processing/rebin.py:24-42. -/
noncomputable def micropolarrayRebinPrinted (data : Img K) (binning : Int) : Py (Img K × List String) := do
  let r ← trimToMatch2xBinningPrinted data.h data.w binning
  let new ← micropolarrayJitrebin data (r.1.1.tdiv binning) (r.1.2.tdiv binning) binning
  pure (new, r.2)

/-- `standard_rebin(data, binning)`.
Models: processing/rebin.py:80-99. -/
noncomputable def standardRebinPrinted (data : Img K) (binning : Int) : Py (Img K × List String) := do
  let r ← trimToMatchBinningPrinted data.h data.w binning true
  let new ← standardJitrebin data (r.1.1.tdiv binning) (r.1.2.tdiv binning) binning
  pure (new, r.2)

/-- `Image.rebin(binning)`: pixels and printed lines.
Models: image.py:151-172. -/
noncomputable def imageRebinPrinted (data : Img K) (binning : Int) : Py (Img K × List String) :=
  if binning ≤ 0 then .error .valueError else standardRebinPrinted data binning

/-- `MicropolImage.rebin(binning)`: pixels and printed lines.
Models: micropol_image.py:823-860. -/
noncomputable def micropolRebinPrinted (data : Img K) (binning : Int) : Py (Img K × List String) :=
  if binning ≤ 0 then .error .valueError else micropolarrayRebinPrinted data binning

/-- `micropolarray_jitrebin_old(data, height, width, binning)`: the sides are arguments.
Models: processing/rebin.py:45-62. -/
noncomputable def micropolarrayJitrebinOld (data : Img K) (height width binning : Int) : Py (Img K × List String) := do
  let r ← trimToMatch2xBinningPrinted height width binning
  let newHeight := r.1.1.tdiv binning
  let newWidth := r.1.2.tdiv binning
  let newData ← npZeros newHeight newWidth
  let newData ← forRange 0 newHeight 1 newData fun newY newData =>
    forRange 0 newWidth 1 newData fun newX newData =>
      forRange (newY % 2) (newY % 2 + 2 * binning) 2 newData fun yScaler newData =>
        forRange (newX % 2) (newX % 2 + 2 * binning) 2 newData fun xScaler newData =>
          addAt data ((newY - newY % 2) * binning + yScaler) ((newX - newX % 2) * binning + xScaler)
            newY newX newData
  pure (newData, r.2)

end

/-- `micropolarray_jitcongrid(data, width, height, scale)`.  The arrays `new_data` and `meshgrid` are allocated and not used;
the loop that should fill them does nothing.
Models: processing/congrid.py:9-24. -/
noncomputable def micropolarrayJitcongrid (_data : Img ℝ) (width height : Int) (scale : ℝ) : Py (List (List ℝ)) := do
  let newWidth := pyInt (width * scale)
  let newHeight := pyInt (height * scale)
  let _newData ← (npZeros newHeight newWidth : Py (Img ℝ))
  pure ((pyRange 0 newWidth 1).map fun (j : Int) => (pyRange 0 newHeight 1).map fun (i : Int) =>
    Real.sqrt ((0.5 + (i : ℝ)) ^ 2 + (0.5 + (j : ℝ)) ^ 2))

/-- A function that runs on a world `σ`, may raise, and prints. -/
abbrev Printing (σ α β : Type) := α → σ → Py β × σ × List String

/-- `timer(func)`: the decorated function.  `clock` reads the time of a world, `render` is `round(_, 4)` as text.
Models: utils.py:16-31. -/
def timer {σ α β : Type} (clock : σ → ℝ) (render : ℝ → String) (name : String) (func : Printing σ α β) : Printing σ α β :=
  fun args w =>
    let start := clock w
    match func args w with
    | (.error e, w', out) => (.error e, w', out)
    | (.ok result, w', out) =>
      (.ok result, w', out ++ [s!"Function {name} took {render (clock w' - start)} s to run"])

/-- Attributes of `Antarticor()`.  It is not a `Camera`: it has no occulter methods.
Models: cameras.py:111-124. -/
structure Telescope where
  aperture : ℝ
  effectiveFocalLength : ℝ
  fratio : ℝ
  spectralRange : ℝ
  platescale : ℝ
  fovDegree : ℝ
  fovRsun : ℝ
  topal : ℝ
  const : ℝ

/-- `Antarticor()`.
Models: cameras.py:111-124. -/
noncomputable def antarticor : Telescope where
  aperture := 50
  effectiveFocalLength := 700
  fratio := 700 / 50
  spectralRange := 591
  platescale := 4.3
  fovDegree := 0.6
  fovRsun := 2.24
  topal := 0.27
  const := 1.083 * 10 ^ (-5 : ℤ)

end Micropol
