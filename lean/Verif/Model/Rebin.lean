import Verif.Model.Demosaic
import Mathlib.Algebra.BigOperators.Group.Finset.Basic

/-!
# Model of `micropolarray/processing/rebin.py`
-/

set_option autoImplicit false

namespace Micropol

/-- One `while n % m: n -= d` loop; `% 0` raises.
Models: the loops of processing/rebin.py:131-136 and :158-163.  (`n % m` is tested against 0 only, for which
Python's and Lean's integer remainders agree.) -/
noncomputable def trimLoop (n m d : Int) : Py Int :=
  if m = 0 then .error .zeroDivisionError
  else whileLoop (fun k => decide (k % m ≠ 0)) (fun k => k - d) n

/-- `trim_to_match_2xbinning(height, width, binning)`.
Models: processing/rebin.py:117-140 (the printed message is not modelled). -/
noncomputable def trimToMatch2xBinning (height width binning : Int) : Py (Int × Int) := do
  let newWidth ← trimLoop width (2 * binning) 2
  let newHeight ← trimLoop height (2 * binning) 2
  pure (newHeight, newWidth)

/-- `trim_to_match_binning(height, width, binning)`.
Models: processing/rebin.py:143-166 (the printed message is not modelled). -/
noncomputable def trimToMatchBinning (height width binning : Int) : Py (Int × Int) := do
  let newWidth ← trimLoop width binning 1
  let newHeight ← trimLoop height binning 1
  pure (newHeight, newWidth)

section
variable {K : Type} [Zero K] [Add K]

/-- `np.zeros(shape=(h, w))`; a negative side raises.
Models: processing/rebin.py:68, :104. -/
def npZeros (h w : Int) : Py (Img K) :=
  if h < 0 ∨ w < 0 then .error .valueError else .ok (Img.zeros h.toNat w.toNat)

/-- `new_data[ny, nx] += data[i, j]` inside a kernel.
Models: processing/rebin.py:73-75, :109-112. -/
def addAt (data : Img K) (i j ny nx : Int) (newData : Img K) : Py (Img K) := do
  let v ← data.read i j
  let cur ← newData.read ny nx
  newData.write ny nx (cur + v)

/-- `micropolarray_jitrebin(data, new_height, new_width, binning)`.
Models: processing/rebin.py:65-77. -/
def micropolarrayJitrebin (data : Img K) (newHeight newWidth binning : Int) : Py (Img K) := do
  let newData ← npZeros newHeight newWidth
  forRange 0 newHeight 1 newData fun newY newData =>
    forRange 0 newWidth 1 newData fun newX newData =>
      forRange (newY % 2) (newY % 2 + 2 * binning) 2 newData fun yScaler newData =>
        forRange (newX % 2) (newX % 2 + 2 * binning) 2 newData fun xScaler newData =>
          addAt data ((newY - newY % 2) * binning + yScaler) ((newX - newX % 2) * binning + xScaler)
            newY newX newData

/-- `micropolarray_rebin(data, binning)`.
Models: processing/rebin.py:24-42.  `int(n / binning)` is truncated exact division. -/
noncomputable def micropolarrayRebin (data : Img K) (binning : Int) : Py (Img K) := do
  let hw ← trimToMatch2xBinning data.h data.w binning
  micropolarrayJitrebin data (hw.1.tdiv binning) (hw.2.tdiv binning) binning

/-- `standard_jitrebin(data, new_height, new_width, binning)`.
Models: processing/rebin.py:102-114. -/
def standardJitrebin (data : Img K) (newHeight newWidth binning : Int) : Py (Img K) := do
  let newData ← npZeros newHeight newWidth
  forRange 0 newHeight 1 newData fun newY newData =>
    forRange 0 newWidth 1 newData fun newX newData =>
      forRange 0 binning 1 newData fun yScaler newData =>
        forRange 0 binning 1 newData fun xScaler newData =>
          addAt data (binning * newY + yScaler) (binning * newX + xScaler) newY newX newData

/-- `standard_rebin(data, binning)`.
Models: processing/rebin.py:80-99. -/
noncomputable def standardRebin (data : Img K) (binning : Int) : Py (Img K) := do
  let hw ← trimToMatchBinning data.h data.w binning
  standardJitrebin data (hw.1.tdiv binning) (hw.2.tdiv binning) binning

end

end Micropol
