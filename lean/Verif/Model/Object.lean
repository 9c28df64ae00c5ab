import Verif.Model.ImageData
import Verif.Model.Shift
import Verif.Model.Corrections
import Verif.Model.Demodulate
import Verif.Model.Folder
import Verif.Model.Roi
import Verif.Model.Congrid

/-!
# Model of `MicropolImage` objects: who shares what with whom

Python attributes hold references.  What matters here is that `MicropolImage(other)` makes the copy share the pixel
array, the Stokes array and the header object of `other` (micropol_image.py:121-131), while some operations write into
such objects.  So the model has a heap with four stores: pixel arrays, Stokes vectors, headers, image objects.

Left out: `filename`, `new_data`, `_num_of_images`, `_binning` (written but never read by the operations below), the
header's other keywords, logging.  `demosaiced_images` and `angle_dic` are values: the library never writes into such an
object, it only replaces the attribute.  Pixels are reals.
-/

set_option autoImplicit false

namespace Micropol

noncomputable section

open Classical

/-- A store of mutable Python objects of one kind: references are numbers below `size`.
Models: Python's references, as used by micropol_image.py:123-133. -/
structure Store (α : Type) where
  size : Nat
  cell : Nat → α

namespace Store
variable {α : Type}

/-- A new object; its reference is `s.size`.
Models: Python's references, as used by micropol_image.py:123-133. -/
def alloc (s : Store α) (a : α) : Store α := ⟨s.size + 1, fun k => if k = s.size then a else s.cell k⟩

/-- Overwriting an object in place.
Models: Python's references, as used by micropol_image.py:905-908, :954-961. -/
def set (s : Store α) (i : Nat) (a : α) : Store α := ⟨s.size, fun k => if k = i then a else s.cell k⟩

end Store

/-- The object held by the attribute `Stokes_vec`: a (3, h, w) array, or (after `congrid`) a list of three arrays.
Models: micropol_image.py:281, :888-891. -/
structure StokesVec where
  planes : Fin 3 → Img ℝ
  isList : Bool

/-- The size keywords of a FITS header.
Models: image.py:128-132. -/
structure Header where
  naxis1 : Nat
  naxis2 : Nat

/-- A `MicropolImage`: references to its pixel array, Stokes vector and header, and plain attributes.  The attribute
`demosaiced_images` is a reference too (copies share it, :133): `demosaicedList` says which list of arrays it is, and
`demosaicedImages` holds the contents of that list, the same for all images with the same list.
Models: micropol_image.py:114-133. -/
structure ImgObj where
  data : Nat
  stokes : Nat
  header : Nat
  dic : AngleDic
  isDemodulated : Bool
  isDemosaiced : Bool
  darkSubtracted : Bool
  flatSubtracted : Bool
  demosaicedImages : Option (Fin 4 → Img ℝ)
  demosaicedList : Nat

/-- The whole memory, and the global `DEFAULT_ANGLES_DIC` (micropol_image.py:56). -/
structure Heap where
  datas : Store (Img ℝ)
  stokes : Store StokesVec
  headers : Store Header
  objs : Store ImgObj
  defaultDic : Option AngleDic

namespace Heap

/-- `image.data`.
Models: image.py:117-119. -/
def dataOf (h : Heap) (i : Nat) : Img ℝ := h.datas.cell (h.objs.cell i).data

/-- `image.Stokes_vec`.
Models: micropol_image.py:106, :127, :236. -/
def stokesOf (h : Heap) (i : Nat) : StokesVec := h.stokes.cell (h.objs.cell i).stokes

/-- `image.header`.
Models: image.py:26, :129; micropol_image.py:125. -/
def headerOf (h : Heap) (i : Nat) : Header := h.headers.cell (h.objs.cell i).header

/-- `image.angle_dic`.
Models: micropol_image.py:93, :126. -/
def dicOf (h : Heap) (i : Nat) : AngleDic := (h.objs.cell i).dic

/-- Change of the plain attributes of one object.
Models: micropol_image.py:114-133. -/
def modifyObj (h : Heap) (i : Nat) (f : ImgObj → ImgObj) : Heap := { h with objs := h.objs.set i (f (h.objs.cell i)) }

/-- A name for a new list of demosaiced images: one no image has.
Models: micropol_image.py:817, :943 (Python's new list or array). -/
def freshList (h : Heap) : Nat := ((List.range h.objs.size).map fun k => (h.objs.cell k).demosaicedList).foldr max 0 + 1

/-- `image.data = d`: the attribute gets a new array and the size keywords are written into the header object.
Models: image.py:121-132. -/
def setData (h : Heap) (i : Nat) (d : Img ℝ) : Heap :=
  let h1 := { h with datas := h.datas.alloc d }
  let h2 := h1.modifyObj i (fun o => { o with data := h.datas.size })
  { h2 with headers := h2.headers.set (h.objs.cell i).header ⟨d.w, d.h⟩ }

/-- `image.Stokes_vec = s`, a new object.
Models: micropol_image.py:236. -/
def setStokes (h : Heap) (i : Nat) (s : StokesVec) : Heap :=
  let h1 := { h with stokes := h.stokes.alloc s }
  h1.modifyObj i (fun o => { o with stokes := h.stokes.size })

end Heap

/-- Python code that reads and writes the heap and may raise; what was written before an exception stays.
Models: statements of micropol_image.py:74-1080. -/
def M (α : Type) : Type := Heap → Py α × Heap

namespace M

/-- `x` then `f`.
Models: statements of micropol_image.py:74-1080. -/
def bind {α β : Type} (x : M α) (f : α → M β) : M β := fun h =>
  match x h with
  | (.ok a, h1) => f a h1
  | (.error e, h1) => (.error e, h1)

instance : Monad M where
  pure a := fun h => (.ok a, h)
  bind := bind

/-- A computation that does not touch the heap.
Models: statements of micropol_image.py:74-1080. -/
def lift {α : Type} (x : Py α) : M α := fun h => (x, h)

/-- Read access.
Models: statements of micropol_image.py:74-1080. -/
def read {α : Type} (f : Heap → α) : M α := fun h => (.ok (f h), h)

/-- Write access.
Models: statements of micropol_image.py:74-1080. -/
def modify (f : Heap → Heap) : M Unit := fun h => (.ok (), f h)

end M

open M

/-! ## Construction -/

/-- The value of `angle_dic` in the constructor; without an argument the default is used, and set to PolarCam's if it
was `None`.
Models: micropol_image.py:83-93. -/
def resolveDic (dic : Option AngleDic) : M AngleDic := fun h =>
  match dic with
  | some d => (.ok d, h)
  | none =>
    match h.defaultDic with
    | some d => (.ok d, h)
    | none => (.ok polarCamAngles, { h with defaultDic := some polarCamAngles })

/-- `set_default_angles(angles_dic)`.
Models: micropol_image.py:59-66. -/
def setDefaultAngles (dic : Option AngleDic) : M Unit := modify fun h => { h with defaultDic := dic }

/-- `_get_theo_Stokes_vec_components()`.
Models: micropol_image.py:273-282. -/
def theoOf (h : Heap) (i : Nat) : Py (Fin 3 → Img ℝ) :=
  if (h.objs.cell i).isDemosaiced then
    match (h.objs.cell i).demosaicedImages with
    | some s => theoStokes s (h.dicOf i)
    | none => .error .typeError
  else dataStokes (h.dataOf i) (h.dicOf i)

/-- `self.Stokes_vec = self._get_theo_Stokes_vec_components()`.
Models: micropol_image.py:106, :236, :392, :415, :819. -/
def updateStokes (i : Nat) : M Unit := do
  let S ← read (fun h => theoOf h i)
  let S ← lift S
  modify (fun h => h.setStokes i ⟨S, false⟩)

/-- `_update_data_and_Stokes(newdata)`.
Models: micropol_image.py:233-236. -/
def updateDataAndStokes (i : Nat) (d : Img ℝ) : M Unit := do
  modify (fun h => h.setData i d)
  updateStokes i

/-- Attributes of a new image over existing references, from `_initialize_internal_variables`.
Models: micropol_image.py:114-121. -/
def blankObj (data stokes header : Nat) (dic : AngleDic) : ImgObj :=
  { data := data, stokes := stokes, header := header, dic := dic, isDemodulated := false, isDemosaiced := false,
    darkSubtracted := false, flatSubtracted := false, demosaicedImages := none, demosaicedList := 0 }

/-- `MicropolImage(array, angle_dic)` without corrections.  The array is copied, a fresh header is made for it, and the
Stokes vector is the theoretical one.  (If the latter fails no image exists; the model then has allocated nothing.)
Models: micropol_image.py:82-106; image.py:26-37, :128-129. -/
def newFromArray (d : Img ℝ) (dic : Option AngleDic) : M Nat := do
  let dic ← resolveDic dic
  let S ← lift (dataStokes d dic)
  let n ← read (fun h => h.objs.size)
  modify (fun h => { h with datas := h.datas.alloc d, stokes := h.stokes.alloc ⟨S, false⟩,
                            headers := h.headers.alloc ⟨d.w, d.h⟩,
                            objs := h.objs.alloc (blankObj h.datas.size h.stokes.size h.headers.size dic) })
  pure n

/-- `MicropolImage(image)`: everything is shared with the source.  (`angle_dic` is first set from the argument or the
default, then replaced; the header made for the data is replaced as well.)
Models: micropol_image.py:82-104, :123-133. -/
def newFromImage (i : Nat) (dic : Option AngleDic) : M Nat := do
  let _ ← resolveDic dic
  let n ← read (fun h => h.objs.size)
  modify (fun h => { h with objs := h.objs.alloc (h.objs.cell i) })
  pure n

/-! ## Operations in place -/

/-- `image.subtract_dark(dark)`.
Models: micropol_image.py:381-394. -/
def subtractDark (i dark : Nat) : M Unit := do
  let d ← read (fun h => npBin (fun a b => a - b) (h.dataOf i) (h.dataOf dark))
  let d ← lift d
  modify (fun h => h.setData i d)
  modify (fun h => h.setData i ((h.dataOf i).map (fun v => if v ≥ 0 then v else 0)))
  updateStokes i
  modify (fun h => h.modifyObj i (fun o => { o with darkSubtracted := true }))

/-- `image.correct_flat(flat)`; `junk` is the uninitialised buffer of `np.divide`.
Models: micropol_image.py:396-417. -/
def correctFlat (junk : Nat → Nat → ℝ) (i flat : Nat) : M Unit := do
  let d ← read (fun h => correctFlatData junk (h.dataOf i) (h.dataOf flat))
  let d ← lift d
  modify (fun h => h.setData i d)
  updateStokes i
  modify (fun h => h.modifyObj i (fun o => { o with flatSubtracted := true }))

/-- `image.correct_ifov()`.
Models: micropol_image.py:419-428. -/
def correctIfov (i : Nat) : M Unit := do
  let d ← read (fun h => correctIfovData (h.dataOf i))
  let d ← lift d
  updateDataAndStokes i d

/-- `image.demosaic(mode)`.
Models: micropol_image.py:806-821. -/
def demosaicObj (i : Nat) (mode : String) : M Unit := do
  let s ← read (fun h => demosaic (h.dataOf i) mode)
  let s ← lift s
  modify (fun h => h.modifyObj i (fun o =>
    { o with demosaicedImages := some s, isDemosaiced := true, demosaicedList := h.freshList }))
  updateStokes i

/-- `stokes_vec[k] = a` for the Stokes vector with reference `c`: into the plane of an array (numpy assignment), or
replacing the item of a list.
Models: micropol_image.py:908, :955. -/
def setPlane (c : Nat) (k : Fin 3) (a : Img ℝ) : M Unit := do
  let sv ← read (fun h => h.stokes.cell c)
  let p ← lift (if sv.isList then .ok a else assignPlane (sv.planes k).h (sv.planes k).w a)
  modify (fun h => { h with stokes := h.stokes.set c ⟨fun j => if j = k then p else sv.planes j, sv.isList⟩ })

/-- Rewriting the three planes one after the other: `for i in range(3): Stokes_vec[i] = f(Stokes_vec[i])`.
Models: micropol_image.py:904-908, :954-961. -/
def rewritePlanes (c : Nat) (f : Img ℝ → Py (Img ℝ)) : M Unit := do
  let a ← read (fun h => f ((h.stokes.cell c).planes 0))
  let a ← lift a
  setPlane c 0 a
  let a ← read (fun h => f ((h.stokes.cell c).planes 1))
  let a ← lift a
  setPlane c 1 a
  let a ← read (fun h => f ((h.stokes.cell c).planes 2))
  let a ← lift a
  setPlane c 2 a

/-- A list of four results.
Models: micropol_image.py:943-948. -/
def mapFour (f : Img ℝ → Py (Img ℝ)) (s : Fin 4 → Img ℝ) : Py (Fin 4 → Img ℝ) := do
  let a ← f (s 0)
  let b ← f (s 1)
  let c ← f (s 2)
  let d ← f (s 3)
  pure ![a, b, c, d]

/-- The mask of `mask_occulter` on one array.
Models: micropol_image.py:939-941, :944-946, :955-961; the angles are the default 0..360 of `roi_from_polar`. -/
def occulterRoi (A : Img ℝ) (y x r fill : ℝ) (includeSuperpixels : Bool) : Py (Img ℝ) :=
  roiFromPolar A (some (y, x)) (some (r, 2 * ((max A.h A.w : Nat) : ℝ))) (0, 360) fill includeSuperpixels

/-- The demosaiced images are masked if there are any.
Models: micropol_image.py:942-948 (`self.height`, `self.width` are those of the data). -/
def maskDemosaiced (i : Nat) (y x r fill : ℝ) : M Unit := do
  let o ← read (fun h => h.objs.cell i)
  let d ← read (fun h => h.dataOf i)
  match o.isDemosaiced, o.demosaicedImages with
  | false, _ => pure ()
  | true, none => lift (.error .typeError)
  | true, some s => do
    let s ← lift (mapFour (fun A => roiFromPolar A (some (y, x)) (some (r, 2 * ((max d.h d.w : Nat) : ℝ))) (0, 360)
      fill true) s)
    modify (fun h => h.modifyObj i (fun o => { o with demosaicedImages := some s, demosaicedList := h.freshList }))

/-- `image.mask_occulter(y, x, r, overoccult, fill)`: the Stokes planes are written into the existing vector.
Models: micropol_image.py:915-961. -/
def maskOcculter (i : Nat) (y x r overoccult fill : ℝ) : M Unit := do
  let d ← read (fun h => occulterRoi (h.dataOf i) y x (r + overoccult) fill true)
  let d ← lift d
  modify (fun h => h.setData i d)
  maskDemosaiced i y x (r + overoccult) fill
  let o ← read (fun h => h.objs.cell i)
  if o.isDemosaiced then rewritePlanes o.stokes (fun A => occulterRoi A y x (r + overoccult) fill false)
  else rewritePlanes o.stokes (fun A => occulterRoi A ((pyInt (y / 2) : ℤ) : ℝ) ((pyInt (x / 2) : ℤ) : ℝ)
    ((pyInt ((r + overoccult) / 2) : ℤ) : ℝ) fill false)

/-! ## Operations returning a new image -/

/-- `image.rebin(binning)`.
Models: micropol_image.py:836-860. -/
def rebinObj (i : Nat) (binning : Int) : M Nat :=
  if binning ≤ 0 then lift (.error .valueError)
  else do
    let n ← newFromImage i none
    let d ← read (fun h => micropolarrayRebin (h.dataOf n) binning)
    let d ← lift d
    updateDataAndStokes n d
    pure n

/-- `image.congrid(newdim_y, newdim_x)`, non negative dimensions.
Models: micropol_image.py:862-892. -/
def congridObj (i : Nat) (newY newX : Nat) : M Nat := do
  let d ← read (fun h => congridData (h.dataOf i) newY newX)
  let d ← lift d
  let n ← newFromImage i none
  modify (fun h => h.setData n d)
  let newY := if newY % 2 = 1 then newY - 1 else newY
  let newX := if newX % 2 = 1 then newX - 1 else newX
  let sv ← read (fun h => h.stokesOf i)
  let s0 ← lift (congrid (sv.planes 0) newY newX)
  let s1 ← lift (congrid (sv.planes 1) newY newX)
  let s2 ← lift (congrid (sv.planes 2) newY newX)
  modify (fun h => h.setStokes n ⟨![s0, s1, s2], true⟩)
  pure n

/-- The rotated pixel data: each family is rotated, assigned back into its plane, and the planes are merged; `rot` is
PIL's `rotate(angle)` on one plane.
Models: micropol_image.py:897-902. -/
def rotateData (rot : Img ℝ → Py (Img ℝ)) (d : Img ℝ) : Py (Img ℝ) := do
  let s ← splitPolarizations d
  let s ← mapFour (fun A => do
    let B ← rot A
    assignPlane A.h A.w B) s
  mergePolarizations s

/-- `image.rotate(angle)`: the Stokes planes of the source are overwritten and then shared with the result.
Models: micropol_image.py:894-913. -/
def rotateObj (rot : Img ℝ → Py (Img ℝ)) (i : Nat) : M Nat := do
  let d ← read (fun h => rotateData rot (h.dataOf i))
  let d ← lift d
  let c ← read (fun h => (h.objs.cell i).stokes)
  rewritePlanes c rot
  let n ← newFromImage i none
  modify (fun h => h.setData n d)
  modify (fun h => h.modifyObj n (fun o => { o with stokes := c }))
  pure n

/-- `image.demodulate(demodulator, demosaicing)`.  With demosaicing the copy is demosaiced first (in place);
`demodulateDemosaicing` repeats that on the same data.
Models: micropol_image.py:238-264, :284-379. -/
def demodulateObj (i : Nat) (D : Demodulator ℝ) (demosaicing : Bool) : M Nat := do
  let n ← newFromImage i none
  if demosaicing then do
    demosaicObj n "adjacent"
    let S ← read (fun h => demodulateDemosaicing (h.dataOf n) (h.dicOf n) D)
    let S ← lift S
    modify (fun h => h.setStokes n ⟨S, false⟩)
    modify (fun h => h.modifyObj n (fun o => { o with isDemodulated := true }))
    pure n
  else do
    let S ← read (fun h => demodulatePlain (h.dataOf n) (h.stokesOf n).planes D)
    let S ← lift S
    modify (fun h => h.setStokes n ⟨S, false⟩)
    modify (fun h => h.modifyObj n (fun o => { o with isDemodulated := true }))
    pure n

/-- A new image with the given data over a copy of image `i`; `newdata` is computed from `i` first.
Models: the common shape of micropol_image.py:975-979 (shift), :997-999 (clean_hot_pixels), :1007-1008 (arithmetic with an image). -/
def deriveObj (i : Nat) (newdata : Heap → Py (Img ℝ)) : M Nat := do
  let d ← read newdata
  let d ← lift d
  let n ← newFromImage i none
  updateDataAndStokes n d
  pure n

/-- The four arithmetic operators.
Models: micropol_image.py:1004, :1026, :1048, :1070. -/
inductive Arith where
  | add | sub | mul | div

/-- Pixel data of `self op second`.
Models: micropol_image.py:1005-1010, :1027-1032, :1049-1054, :1071-1076. -/
def arithData (op : Arith) (junk : Nat → Nat → ℝ) (d : Img ℝ) (second : Operand ℝ) : Py (Img ℝ) :=
  match op with
  | .add => addData d second
  | .sub => subData d second
  | .mul => mulData d second
  | .div => divData junk d second

/-- `image op second_image`.
Models: micropol_image.py:1004-1008 and :1013-1014, and the same lines of the other operators. -/
def arithImageObj (op : Arith) (junk : Nat → Nat → ℝ) (i j : Nat) : M Nat := do
  let n ← deriveObj i (fun h => arithData op junk (h.dataOf i) (.image (h.dataOf j)))
  modify (fun h => h.modifyObj n (fun o => { o with header := (h.objs.cell i).header }))
  pure n

/-- `image op number`: the result is built from the data, then given the header of the first operand.
Models: micropol_image.py:1009-1014 and the same lines of the other operators. -/
def arithNumberObj (op : Arith) (junk : Nat → Nat → ℝ) (i : Nat) (c : ℝ) : M Nat := do
  let d ← read (fun h => arithData op junk (h.dataOf i) (.number c))
  let d ← lift d
  let dic ← read (fun h => h.dicOf i)
  let n ← newFromArray d (some dic)
  modify (fun h => h.modifyObj n (fun o => { o with header := (h.objs.cell i).header }))
  pure n

/-- Optional corrections of the constructor.
Models: micropol_image.py:108-112. -/
def applyCorrections (junk : Nat → Nat → ℝ) (n : Nat) (dark flat : Option Nat) : M Unit :=
  match dark, flat with
  | none, none => pure ()
  | some d, none => subtractDark n d
  | none, some f => correctFlat junk n f
  | some d, some f => do
    subtractDark n d
    correctFlat junk n f

/-! ## Histories -/

/-- Calls of the public interface.  Images are named by the position of the call that returned them; `junk` is the
content of uninitialised memory during the call, `rot` and `median` are PIL's rotation by the given angle and scipy's
median filter.
Models: calls of micropol_image.py:74-1080. -/
inductive Op where
  | setDefault (dic : Option AngleDic)
  | fromArray (d : Img ℝ) (dic : Option AngleDic) (dark flat : Option Nat) (junk : Nat → Nat → ℝ)
  | fromImage (i : Nat) (dic : Option AngleDic) (dark flat : Option Nat) (junk : Nat → Nat → ℝ)
  | rebin (i : Nat) (binning : Int)
  | congrid (i : Nat) (newY newX : Nat)
  | rotate (i : Nat) (rot : Img ℝ → Py (Img ℝ))
  | demodulate (i : Nat) (D : Demodulator ℝ) (demosaicing : Bool)
  | shift (i : Nat) (y x : Int) (missing : ℝ)
  | cleanHotPixels (i flags : Nat) (median : Img ℝ → Img ℝ)
  | arithImage (op : Arith) (i j : Nat) (junk : Nat → Nat → ℝ)
  | arithNumber (op : Arith) (i : Nat) (c : ℝ) (junk : Nat → Nat → ℝ)
  | demosaic (i : Nat) (mode : String)
  | subtractDark (i dark : Nat)
  | correctFlat (i flat : Nat) (junk : Nat → Nat → ℝ)
  | correctIfov (i : Nat)
  | maskOcculter (i : Nat) (y x r overoccult fill : ℝ)

/-- The program state a user sees: the heap and the image objects returned so far (calls that return nothing or raise
add nothing; in place calls return their receiver).
Models: a session with calls of micropol_image.py:74-1080. -/
structure State where
  heap : Heap
  images : List Nat

/-- The object named by a variable; an undefined name raises.
Models: the arguments of micropol_image.py:74-1080. -/
def named (images : List Nat) (k : Nat) : M Nat := lift (match images[k]? with | some i => .ok i | none => .error .nameError)

/-- An optional argument.
Models: the arguments of micropol_image.py:74-81. -/
def namedOpt (images : List Nat) : Option Nat → M (Option Nat)
  | none => pure none
  | some k => do
    let i ← named images k
    pure (some i)

/-- The effect of a call, and the object it returns.
Models: calls of micropol_image.py:59-66, :74-112, :238, :381-428, :806-999, :1004-1080. -/
def exec (images : List Nat) : Op → M (Option Nat)
  | .setDefault dic => do
    setDefaultAngles dic
    pure none
  | .fromArray d dic dark flat junk => do
    let dark ← namedOpt images dark
    let flat ← namedOpt images flat
    let n ← newFromArray d dic
    applyCorrections junk n dark flat
    pure (some n)
  | .fromImage i dic dark flat junk => do
    let i ← named images i
    let dark ← namedOpt images dark
    let flat ← namedOpt images flat
    let n ← newFromImage i dic
    applyCorrections junk n dark flat
    pure (some n)
  | .rebin i b => do
    let i ← named images i
    let n ← rebinObj i b
    pure (some n)
  | .congrid i ny nx => do
    let i ← named images i
    let n ← congridObj i ny nx
    pure (some n)
  | .rotate i rot => do
    let i ← named images i
    let n ← rotateObj rot i
    pure (some n)
  | .demodulate i D dem => do
    let i ← named images i
    let n ← demodulateObj i D dem
    pure (some n)
  | .shift i y x missing => do
    let i ← named images i
    let n ← deriveObj i (fun h => shiftMicropol (h.dataOf i) y x missing)
    pure (some n)
  | .cleanHotPixels i f median => do
    let i ← named images i
    let f ← named images f
    let n ← deriveObj i (fun h => cleanHotPixelsData median (h.dataOf i) (h.dataOf f))
    pure (some n)
  | .arithImage op i j junk => do
    let i ← named images i
    let j ← named images j
    let n ← arithImageObj op junk i j
    pure (some n)
  | .arithNumber op i c junk => do
    let i ← named images i
    let n ← arithNumberObj op junk i c
    pure (some n)
  | .demosaic i mode => do
    let i ← named images i
    demosaicObj i mode
    pure (some i)
  | .subtractDark i d => do
    let i ← named images i
    let d ← named images d
    Micropol.subtractDark i d
    pure (some i)
  | .correctFlat i f junk => do
    let i ← named images i
    let f ← named images f
    Micropol.correctFlat junk i f
    pure (some i)
  | .correctIfov i => do
    let i ← named images i
    Micropol.correctIfov i
    pure (some i)
  | .maskOcculter i y x r over fill => do
    let i ← named images i
    Micropol.maskOcculter i y x r over fill
    pure none

/-- One call.  Exceptions are caught by the user, who goes on with the same variables.
Models: calls of micropol_image.py:59-1080. -/
def step (s : State) (o : Op) : State :=
  match exec s.images o s.heap with
  | (.ok (some n), h) => ⟨h, s.images ++ [n]⟩
  | (.ok none, h) => ⟨h, s.images⟩
  | (.error _, h) => ⟨h, s.images⟩

/-- The start of a session.
Models: micropol_image.py:56, :72. -/
def initState : State :=
  ⟨⟨⟨0, fun _ => Img.zeros 0 0⟩, ⟨0, fun _ => ⟨fun _ => Img.zeros 0 0, false⟩⟩, ⟨0, fun _ => ⟨0, 0⟩⟩,
    ⟨0, fun _ => blankObj 0 0 0 polarCamAngles⟩, none⟩, []⟩

/-- A whole history.
Models: sequences of calls of micropol_image.py:59-1080. -/
def runOps (ops : List Op) : State := ops.foldl step initState

end

end Micropol
