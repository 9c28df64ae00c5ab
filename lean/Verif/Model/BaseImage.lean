import Verif.Model.Object

/-!
# Model of the base class `Image`: arrays, headers, and who holds them

A session with objects of class `Image` (image.py).  Arrays are mutable and may be held by the caller and by images at the
same time, so the memory has a store of arrays, a store of headers and a store of images.  The caller's variables that
hold arrays are the list `held`; images are numbered in the order in which they were made.

A call that raises only leaves behind objects nobody can reach, so it leaves the session as it was.

Simplified: pixels are reals, arrays have two dimensions (others raise in image.py:126), of the header there are the two
size keywords and the other keywords as a map from names to texts.  `filename` and `new_data` are left out.
-/

set_option autoImplicit false

namespace Micropol

noncomputable section

open Classical

/-- A FITS header: the two size keywords and all others.
Models: image.py:128-132. -/
structure BaseHeader where
  naxis1 : Nat
  naxis2 : Nat
  cards : String → Option String

/-- An `Image`.
Models: image.py:123-132. -/
structure BaseObj where
  data : Nat
  header : Nat
  height : Nat
  width : Nat

/-- A session: the memory and the arrays the caller holds.
Models: what the statements of image.py:21-37, :113-132 act on. -/
structure BaseState where
  arrays : Store (Img ℝ)
  headers : Store BaseHeader
  objs : Store BaseObj
  held : List Nat

/-- Nothing has been made.
Models: the state before the first call of image.py:21. -/
def baseInit : BaseState :=
  ⟨⟨0, fun _ => Img.const 0 0 0⟩, ⟨0, fun _ => ⟨0, 0, fun _ => none⟩⟩, ⟨0, fun _ => ⟨0, 0, 0, 0⟩⟩, []⟩

namespace BaseState

/-- Number of images made.
Models: the results of image.py:21. -/
def count (s : BaseState) : Nat := s.objs.size

/-- `image.data`, the values.
Models: image.py:117-119. -/
def pixels (s : BaseState) (i : Nat) : Img ℝ := s.arrays.cell (s.objs.cell i).data

/-- `image.header`.
Models: image.py:26, :129. -/
def headerOf (s : BaseState) (i : Nat) : BaseHeader := s.headers.cell (s.objs.cell i).header

/-- `image.height`, `image.width`.
Models: image.py:127. -/
def sizeOf (s : BaseState) (i : Nat) : Nat × Nat := ((s.objs.cell i).height, (s.objs.cell i).width)

/-- The values of the caller's array `k`.
Models: the arguments of image.py:21 and the results of image.py:119. -/
def array (s : BaseState) (k : Nat) : Option (Img ℝ) := (s.held[k]?).map s.arrays.cell

/-- `Image(…)` once the pixels `A` are known: `np.array` or `.copy()` makes a new array, `fits.PrimaryHDU` a new header,
with the keywords of the file if there is one.
Models: image.py:26-37, :53-58, :90, :113-115, :123-132. -/
def newImage (s : BaseState) (A : Img ℝ) (cards : String → Option String) : BaseState :=
  { arrays := s.arrays.alloc A
    headers := s.headers.alloc ⟨A.w, A.h, cards⟩
    objs := s.objs.alloc ⟨s.arrays.size, s.headers.size, A.h, A.w⟩
    held := s.held }

/-- `image.data = array`: no copy; the size keywords are written into the image's header.
Models: image.py:121-132. -/
def setData (s : BaseState) (i r : Nat) : BaseState :=
  { s with
    objs := s.objs.set i ⟨r, (s.objs.cell i).header, (s.arrays.cell r).h, (s.arrays.cell r).w⟩
    headers := s.headers.set (s.objs.cell i).header
      ⟨(s.arrays.cell r).w, (s.arrays.cell r).h, (s.headerOf i).cards⟩ }

/-- `array[y, x] = v`: negative indices count from the end, others outside raise `IndexError`.
Models: the array returned by image.py:117-119. -/
def writeRef (s : BaseState) (r : Nat) (y x : Int) (v : ℝ) : Py BaseState :=
  match Img.resolve (s.arrays.cell r).h y, Img.resolve (s.arrays.cell r).w x with
  | some j, some k => .ok { s with arrays := s.arrays.set r ((s.arrays.cell r).setPx j k v) }
  | _, _ => .error .indexError

end BaseState

/-- What a caller can do: make an array; load a file (its pixels and keywords); construct from an array or an image; take
`image.data` into a variable; assign a variable to `image.data`; write a pixel of a variable or of `image.data`; write a header
keyword; call `shift`, `rebin`, the four operators.  `junk` is the content of uninitialised memory.
Models: calls of image.py:21, :117-132, :134, :151, :277-303. -/
inductive BaseOp where
  | array (A : Img ℝ)
  | load (A : Img ℝ) (cards : String → Option String)
  | fromArray (k : Nat)
  | fromImage (i : Nat)
  | take (i : Nat)
  | assign (i k : Nat)
  | writeArray (k : Nat) (y x : Int) (v : ℝ)
  | writeImage (i : Nat) (y x : Int) (v : ℝ)
  | setCard (i : Nat) (key value : String)
  | shift (i : Nat) (y x : Int) (missing : ℝ)
  | rebin (i : Nat) (binning : Int)
  | arithImage (op : Arith) (i j : Nat) (junk : Nat → Nat → ℝ)
  | arithNumber (op : Arith) (i : Nat) (c : ℝ) (junk : Nat → Nat → ℝ)

/-- A variable that holds array `k`.
Models: the arguments of image.py:21, :123. -/
def BaseState.variable (s : BaseState) (k : Nat) : Py Nat :=
  match s.held[k]? with
  | some r => .ok r
  | none => .error .nameError

/-- A variable that holds image `i`.
Models: the arguments of image.py:21, :134, :151, :277-303. -/
def BaseState.image (s : BaseState) (i : Nat) : Py Nat := if i < s.count then .ok i else .error .nameError

/-- One call.
Models: image.py:21-37, :39, :53-58, :90, :113-132, :134-149, :151-172, :277-303. -/
def BaseState.exec (s : BaseState) : BaseOp → Py BaseState
  | .array A => .ok { s with arrays := s.arrays.alloc A, held := s.held ++ [s.arrays.size] }
  | .load A cards => .ok (s.newImage A cards)
  | .fromArray k => do
    let r ← s.variable k
    pure (s.newImage (s.arrays.cell r) fun _ => none)
  | .fromImage i => do
    let i ← s.image i
    pure (s.newImage (s.pixels i) fun _ => none)
  | .take i => do
    let i ← s.image i
    pure { s with held := s.held ++ [(s.objs.cell i).data] }
  | .assign i k => do
    let i ← s.image i
    let r ← s.variable k
    pure (s.setData i r)
  | .writeArray k y x v => do
    let r ← s.variable k
    s.writeRef r y x v
  | .writeImage i y x v => do
    let i ← s.image i
    s.writeRef (s.objs.cell i).data y x v
  | .setCard i key value => do
    let i ← s.image i
    let hd : BaseHeader := { s.headerOf i with cards := fun k => if k = key then some value else (s.headerOf i).cards k }
    pure { s with headers := s.headers.set (s.objs.cell i).header hd }
  | .shift i y x missing => do
    let i ← s.image i
    let d ← shiftKernel (s.pixels i) y x missing
    pure (s.newImage d fun _ => none)
  | .rebin i binning => do
    let i ← s.image i
    let d ← imageRebinData (s.pixels i) binning
    -- a copy of the image, whose data are then replaced by the new array
    let t := s.newImage (s.pixels i) fun _ => none
    let t' := { t with arrays := t.arrays.alloc d }
    pure (t'.setData s.objs.size t.arrays.size)
  | .arithImage op i j junk => do
    let i ← s.image i
    let j ← s.image j
    let d ← arithData op junk (s.pixels i) (.image (s.pixels j))
    pure (s.newImage d fun _ => none)
  | .arithNumber op i c junk => do
    let i ← s.image i
    let d ← arithData op junk (s.pixels i) (.number c)
    pure (s.newImage d fun _ => none)

/-- One call; if it raises, nothing the caller can reach has changed.
Models: every statement of a session, as in `exec` (image.py:21-303). -/
def BaseState.step (s : BaseState) (o : BaseOp) : BaseState :=
  match s.exec o with
  | .ok t => t
  | .error _ => s

/-- A session.
Models: sequences of calls of image.py:21-303. -/
def baseRun (ops : List BaseOp) : BaseState := ops.foldl BaseState.step baseInit

end

end Micropol
