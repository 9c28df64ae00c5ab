import Verif.Basic.Img
import Verif.Basic.Loop
import Mathlib.Algebra.Field.Defs

/-!
# Model of `micropolarray/processing/demosaic.py`
-/

set_option autoImplicit false

namespace Micropol

section
variable {α : Type} [Zero α]

/-- numpy slice `data[j::2, i::2]`.
Models: the slice expressions of processing/demosaic.py:90 and :111-114. -/
def Img.stride2 (A : Img α) (j i : Nat) : Img α :=
  Img.ofFn ((A.h - j + 1) / 2) ((A.w - i + 1) / 2) (fun y x => A.px (2 * y + j) (2 * x + i))

/-- `split_polarizations(data)`.
Models: processing/demosaic.py:85-100.  The list comprehension has `j` outer and `i` inner, so entry `k` of
the result is `data[k//2::2, k%2::2]`.  The cast to float is not modelled (exact arithmetic). -/
def splitPolarizations (data : Img α) : Py (Fin 4 → Img α) :=
  if data.h % 2 ≠ 0 ∨ data.w % 2 ≠ 0 then
    .error .valueError
  else
    .ok (fun k => data.stride2 (k.val / 2) (k.val % 2))

/-- Slice assignment `data[j::2, i::2] = sub`; the shapes must agree.
Models: the assignments of processing/demosaic.py:111-114. -/
def Img.assignStride2 (A : Img α) (j i : Nat) (sub : Img α) : Py (Img α) :=
  if sub.h = (A.h - j + 1) / 2 ∧ sub.w = (A.w - i + 1) / 2 then
    .ok (Img.ofFn A.h A.w (fun y x =>
      if j ≤ y ∧ (y - j) % 2 = 0 ∧ i ≤ x ∧ (x - i) % 2 = 0 then sub.px ((y - j) / 2) ((x - i) / 2)
      else A.px y x))
  else .error .valueError

/-- `merge_polarizations(single_pol_images)`.
Models: processing/demosaic.py:103-115. -/
def mergePolarizations (s : Fin 4 → Img α) : Py (Img α) := do
  let data : Img α := Img.zeros ((s 0).h * 2) ((s 0).w * 2)
  let data ← data.assignStride2 0 0 (s 0)
  let data ← data.assignStride2 0 1 (s 1)
  let data ← data.assignStride2 1 0 (s 2)
  data.assignStride2 1 1 (s 3)

/-- Slice assignment of one number, `A[y0:y1, x0:x1] = v` with non-negative bounds (clipped to the array).
Models: the assignment of processing/demosaic.py:39. -/
def Img.fillSlice (A : Img α) (y0 y1 x0 x1 : Int) (v : α) : Img α :=
  Img.ofFn A.h A.w (fun y x =>
    if y0 ≤ y ∧ (y : Int) < y1 ∧ x0 ≤ x ∧ (x : Int) < x1 then v else A.px y x)

/-- `demo_images[counter] = value` on the four-element list.
Models: processing/demosaic.py:40, :79. -/
def setAt4 (demo : Fin 4 → Img α) (counter : Nat) (v : Img α) : Py (Fin 4 → Img α) :=
  if counter < 4 then .ok (fun k => if k.val = counter then v else demo k) else .error .oob

/-- `np.vstack([d, d[-2:, :]])`: the last two rows are repeated below.
Models: processing/demosaic.py:139. -/
def vstackLast2 (d : Img α) : Img α :=
  Img.ofFn (d.h + min 2 d.h) d.w (fun y x => if y < d.h then d.px y x else d.px (y - min 2 d.h) x)

/-- `np.hstack([d, d[:, -2:]])`: the last two columns are repeated on the right.
Models: processing/demosaic.py:140. -/
def hstackLast2 (d : Img α) : Img α :=
  Img.ofFn d.h (d.w + min 2 d.w) (fun y x => if x < d.w then d.px y x else d.px y (x - min 2 d.w))

/-- `a[:-2, :-2]`.
Models: processing/demosaic.py:142. -/
def cropLast2 (d : Img α) : Img α := Img.ofFn (d.h - 2) (d.w - 2) d.px

end

section
variable {K : Type} [Zero K] [One K] [Add K] [Mul K] [Div K] [OfNat K 2] [OfNat K 4]

/-- Loops over superpixels for one family `(j, i)`.
Models: processing/demosaic.py:36-39. -/
def demosaicmeanFamily (data : Img K) (j i : Int) (temp : Img K) : Py (Img K) :=
  forRange 0 data.h 2 temp fun ySuper temp =>
    forRange 0 data.w 2 temp fun xSuper temp => do
      let v ← data.read (ySuper + j) (xSuper + i)
      pure (temp.fillSlice ySuper (ySuper + 2) xSuper (xSuper + 2) (v * (1 / 4)))

/-- `demosaicmean(data)`.
Models: processing/demosaic.py:16-43.  The loop state is `(temp_data, demo_images, counter)`. -/
def demosaicmean (data : Img K) : Py (Fin 4 → Img K) := do
  let st ← forRange 0 2 1 ((data, fun _ => Img.zeros data.h data.w, 0) : Img K × (Fin 4 → Img K) × Nat)
    fun j st => forRange 0 2 1 st fun i st => do
      let temp ← demosaicmeanFamily data j i st.1
      let demo ← setAt4 st.2.1 st.2.2 temp
      pure (temp, demo, st.2.2 + 1)
  pure st.2.1

/-- Body of the innermost loop of `demosaicadjacent`.
Models: processing/demosaic.py:61-78. -/
def demosaicadjacentBody (data : Img K) (fy fx y x : Int) (temp : Img K) : Py (Img K) := do
  let a ← data.read (y + fy) (x + fx)
  let temp ← temp.write y x a
  let a ← data.read (y + fy) (x + fx)
  let b ← data.read (y + fy + 2) (x + fx)
  let temp ← temp.write (y + 1) x ((1 / 2) * (a + b))
  let a ← data.read (y + fy) (x + fx)
  let c ← data.read (y + fy) (x + fx + 2)
  let temp ← temp.write y (x + 1) ((1 / 2) * (a + c))
  let a ← data.read (y + fy) (x + fx)
  let b ← data.read (y + fy + 2) (x + fx)
  let c ← data.read (y + fy) (x + fx + 2)
  let d ← data.read (y + fy + 2) (x + fx + 2)
  temp.write (y + 1) (x + 1) ((a + b + c + d) * (1 / 4))

/-- Loops over superpixels for one family.
Models: processing/demosaic.py:59-78. -/
def demosaicadjacentFamily (data : Img K) (fy fx : Int) (temp : Img K) : Py (Img K) :=
  forRange 0 ((data.h : Int) - 2) 2 temp fun y temp =>
    forRange 0 ((data.w : Int) - 2) 2 temp fun x temp =>
      demosaicadjacentBody data fy fx y x temp

/-- `demosaicadjacent(data)`.
Models: processing/demosaic.py:46-82. -/
def demosaicadjacent (data : Img K) : Py (Fin 4 → Img K) := do
  let st ← forRange 0 2 1 ((data, fun _ => Img.zeros data.h data.w, 0) : Img K × (Fin 4 → Img K) × Nat)
    fun fy st => forRange 0 2 1 st fun fx st => do
      let temp ← demosaicadjacentFamily data fy fx st.1
      let demo ← setAt4 st.2.1 st.2.2 temp
      pure (temp, demo, st.2.2 + 1)
  pure st.2.1

/-- `demosaic(image_data, option)`.
Models: processing/demosaic.py:118-160.  The pinned numpy has no attribute `float`, so the "spline" branch
raises `AttributeError` when it evaluates `np.float` (line 147). -/
def demosaic (imageData : Img K) (option : String) : Py (Fin 4 → Img K) :=
  if option = "mean" then
    demosaicmean imageData
  else if option = "adjacent" then do
    let stacked := hstackLast2 (vstackLast2 imageData)
    let demo ← demosaicadjacent stacked
    pure (fun k => cropLast2 (demo k))
  else if option = "spline" then
    .error .attributeError
  else
    .error .valueError

end

end Micropol
