import Verif.Model.Demosaic
import Mathlib.Data.Fin.VecNotation
import Mathlib.Algebra.Order.Group.Unbundled.Int

/-!
# Model of `micropolarray/processing/shift.py`
-/

set_option autoImplicit false

namespace Micropol

variable {α : Type} [Zero α]

/-- `shift(data, y, x, missing_value)`: the numba kernel.
Models: processing/shift.py:7-14.  `(y > 0) * y` is `y` or `0`; `np.abs(y) * (y < 0)` is `-y` or `0`. -/
def shiftKernel (data : Img α) (y x : Int) (missing : α) : Py (Img α) :=
  forRange (if y > 0 then y else 0) ((data.h : Int) - (if y < 0 then |y| else 0)) 1
    (Img.const data.h data.w missing) fun j newdata =>
      forRange (if x > 0 then x else 0) ((data.w : Int) - (if x < 0 then |x| else 0)) 1 newdata
        fun i newdata => do
          let v ← data.read (j - y) (i - x)
          newdata.write j i v

/-- `shift_micropol(data, y, x, missing_value)`.
Models: processing/shift.py:17-34.  The four sub-images are shifted one after the other (an exception in one of
them aborts the call). -/
def shiftMicropol (data : Img α) (y x : Int) (missing : α) : Py (Img α) := do
  let subs ← splitPolarizations data
  let s0 ← shiftKernel (subs 0) y x missing
  let s1 ← shiftKernel (subs 1) y x missing
  let s2 ← shiftKernel (subs 2) y x missing
  let s3 ← shiftKernel (subs 3) y x missing
  mergePolarizations ![s0, s1, s2, s3]

end Micropol
