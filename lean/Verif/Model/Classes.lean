import Verif.Model.Object

/-!
# Sessions with images of both classes, arrays and numbers

The user holds objects of class `MicropolImage`, objects of class `Image` and arrays in variables, and combines them.  All
arrays are in one memory (the store `datas` of `Model/Object`), so that a variable, an `Image` and a `MicropolImage` may hold
the same one.

Simplified: arrays have two dimensions; operands have pixels (numpy raises the `TypeError` of an operator when it gets to the
first element, so not for an array without elements); of an `Image` there are the pixels (its keywords are in
`Model/BaseImage`).
-/

set_option autoImplicit false

namespace Micropol

noncomputable section

open Classical M

/-- The variables of a session: `MicropolImage`s, `Image`s (the array each holds; `none` if it holds none) and arrays.
Models: what the user of image.py and micropol_image.py holds. -/
structure Mixed where
  heap : Heap
  images : List Nat
  bases : List (Option Nat)
  held : List Nat

/-- An image of either class.
Models: the operands of image.py:277-303, micropol_image.py:1004-1080. -/
inductive ImageRef where
  | micropol (i : Nat)
  | base (j : Nat)

/-- An array or a number.
Models: the operands of image.py:277-303, micropol_image.py:1004-1080. -/
inductive PlainRef where
  | array (k : Nat)
  | number (c : ℝ)

/-- The second operand of an operator of an image.
Models: `second` in image.py:277-303, micropol_image.py:1004-1080. -/
inductive SecondRef where
  | image (b : ImageRef)
  | plain (b : PlainRef)

/-- A statement: a call as in `Model/Object`; `v = np.array(A)`; `v_k[y, x] = c`; `v = image.data` and `image.data = v_k` for
either class; `MicropolImage(v_k, …)`, `MicropolImage(Image, …)`; `Image(v_k)`, `Image(Image)`, `Image(MicropolImage)`; `shift` and
`rebin` of an `Image`; `image op second`; `array op image` or `number op image`.
Models: calls of image.py:21, :117-172, :277-303; micropol_image.py:59-1080. -/
inductive MixStmt where
  | call (o : Op)
  | array (A : Img ℝ)
  | write (k : Nat) (y x : Int) (c : ℝ)
  | take (i : Nat)
  | assign (i k : Nat)
  | takeBase (j : Nat)
  | assignBase (j k : Nat)
  | construct (k : Nat) (dic : Option AngleDic) (dark flat : Option Nat) (junk : Nat → Nat → ℝ)
  | convert (j : Nat) (dic : Option AngleDic) (dark flat : Option Nat) (junk : Nat → Nat → ℝ)
  | newBase (k : Nat)
  | copyBase (j : Nat)
  | ofMicropol (i : Nat)
  | shiftBase (j : Nat) (y x : Int) (missing : ℝ)
  | rebinBase (j : Nat) (binning : Int)
  | arith (op : Arith) (a : ImageRef) (b : SecondRef) (junk : Nat → Nat → ℝ)
  | reflected (op : Arith) (a : PlainRef) (b : ImageRef)

/-- `image op array`: like `image op number`.
Models: micropol_image.py:1009-1014 and the same lines of the other operators. -/
def arithArrayObj (op : Arith) (junk : Nat → Nat → ℝ) (i : Nat) (A : Img ℝ) : M Nat := do
  let d ← read (fun h => arithData op junk (h.dataOf i) (.image A))
  let d ← lift d
  let dic ← read (fun h => h.dicOf i)
  let n ← newFromArray d (some dic)
  modify (fun h => h.modifyObj n (fun o => { o with header := (h.objs.cell i).header }))
  pure n

namespace Heap

/-- `image.data = array`: no copy; the size keywords are written into the header object; nothing else changes.
Models: image.py:121-132. -/
def holdData (h : Heap) (i r : Nat) : Heap :=
  let h1 := h.modifyObj i (fun o => { o with data := r })
  { h1 with headers := h1.headers.set (h.objs.cell i).header ⟨(h.datas.cell r).w, (h.datas.cell r).h⟩ }

end Heap

namespace Mixed

/-- The `MicropolImage` part.
Models: the variables of a session of `Model/Object` (micropol_image.py:74-1080). -/
def state (s : Mixed) : State := ⟨s.heap, s.images⟩

/-- A variable that holds a `MicropolImage`.
Models: the arguments of micropol_image.py:74-1080. -/
def image (s : Mixed) (i : Nat) : Py Nat := match s.images[i]? with | some k => .ok k | none => .error .nameError

/-- A variable that holds an array.
Models: the arguments of image.py:21, :123. -/
def arrayVar (s : Mixed) (k : Nat) : Py Nat := match s.held[k]? with | some r => .ok r | none => .error .nameError

/-- A variable that holds an `Image`.
Models: the arguments of image.py:21, :134, :151, :277-303. -/
def base (s : Mixed) (j : Nat) : Py (Option Nat) := match s.bases[j]? with | some b => .ok b | none => .error .nameError

/-- `image.data` of an `Image`: an object without `_data` raises.
Models: image.py:117-119. -/
def baseData (s : Mixed) (j : Nat) : Py Nat := do
  match ← s.base j with
  | some r => pure r
  | none => .error .attributeError

/-- The values of an array.
Models: numpy's reads in image.py:36, :114, :146, :167, :277-303. -/
def values (s : Mixed) (r : Nat) : Img ℝ := s.heap.datas.cell r

/-- A call on `MicropolImage`s.
Models: as `step` of `Model/Object` (micropol_image.py:59-1080). -/
def after (s : Mixed) (m : M (Option Nat)) : Py Unit × Mixed :=
  match m s.heap with
  | (.ok (some n), h) => (.ok (), { s with heap := h, images := s.images ++ [n] })
  | (.ok none, h) => (.ok (), { s with heap := h })
  | (.error e, h) => (.error e, { s with heap := h })

/-- A statement that changes nothing if it raises.
Models: the flow of control of image.py:21-303. -/
def quiet (s : Mixed) (r : Py Mixed) : Py Unit × Mixed :=
  match r with
  | .ok t => (.ok (), t)
  | .error e => (.error e, s)

/-- A new `Image` with its own array.
Models: image.py:26-37, :113-115. -/
def addBase (s : Mixed) (A : Img ℝ) : Mixed :=
  { s with heap := { s.heap with datas := s.heap.datas.alloc A }, bases := s.bases ++ [some s.heap.datas.size] }

/-- `self op second` for an `Image`: the types must agree for `second.data` to be read; an object of the other class is
handed to numpy, which raises `TypeError`.
Models: image.py:277-303. -/
def baseArith (s : Mixed) (op : Arith) (junk : Nat → Nat → ℝ) (j : Nat) : SecondRef → Py Mixed
  | .image (.base l) => do
    let _ ← s.base l
    let r ← s.baseData j
    let q ← s.baseData l
    let d ← arithData op junk (s.values r) (.image (s.values q))
    pure (s.addBase d)
  | .image (.micropol i) => do
    let _ ← s.image i
    let _ ← s.baseData j
    .error .typeError
  | .plain (.array k) => do
    let q ← s.arrayVar k
    let r ← s.baseData j
    let d ← arithData op junk (s.values r) (.image (s.values q))
    pure (s.addBase d)
  | .plain (.number c) => do
    let r ← s.baseData j
    let d ← arithData op junk (s.values r) (.number c)
    pure (s.addBase d)

/-- `self op second` for a `MicropolImage`.
Models: micropol_image.py:1004-1080. -/
def micropolArith (s : Mixed) (op : Arith) (junk : Nat → Nat → ℝ) (i : Nat) : SecondRef → Py Unit × Mixed
  | .image (.micropol j) => s.after (exec s.images (.arithImage op i j junk))
  | .image (.base j) => s.quiet do
    let _ ← s.image i
    let _ ← s.base j
    .error .typeError
  | .plain (.array k) =>
    match s.arrayVar k with
    | .error e => (.error e, s)
    | .ok r => s.after do
      let i ← named s.images i
      let n ← arithArrayObj op junk i (s.values r)
      pure (some n)
  | .plain (.number c) => s.after (exec s.images (.arithNumber op i c junk))

/-- `MicropolImage(image_j, …)` for an `Image`: the pixels are copied, everything else is made anew, as from an array.  For an
object without pixels the default dictionary is settled before `image.data` raises.
Models: micropol_image.py:82-112; image.py:26-34, :113-115. -/
def fromBase (s : Mixed) (j : Nat) (dic : Option AngleDic) (dark flat : Option Nat) (junk : Nat → Nat → ℝ) : Py Unit × Mixed :=
  match s.base j with
  | .error e => (.error e, s)
  | .ok (some r) => s.after (exec s.images (.fromArray (s.values r) dic dark flat junk))
  | .ok none => s.after do
    let _ ← namedOpt s.images dark
    let _ ← namedOpt s.images flat
    let _ ← resolveDic dic
    lift (.error .attributeError)

/-- One statement.
Models: image.py:21-37, :113-172, :277-303; micropol_image.py:59-1080. -/
def exec (s : Mixed) : MixStmt → Py Unit × Mixed
  | .call o => s.after (Micropol.exec s.images o)
  | .array A => s.quiet (.ok { s with heap := { s.heap with datas := s.heap.datas.alloc A }, held := s.held ++ [s.heap.datas.size] })
  | .write k y x c => s.quiet do
    let r ← s.arrayVar k
    match Img.resolve (s.values r).h y, Img.resolve (s.values r).w x with
    | some a, some b => pure { s with heap := { s.heap with datas := s.heap.datas.set r ((s.values r).setPx a b c) } }
    | _, _ => .error .indexError
  | .take i => s.quiet do
    let a ← s.image i
    pure { s with held := s.held ++ [(s.heap.objs.cell a).data] }
  | .assign i k => s.quiet do
    let a ← s.image i
    let r ← s.arrayVar k
    pure { s with heap := s.heap.holdData a r }
  | .takeBase j => s.quiet do
    let r ← s.baseData j
    pure { s with held := s.held ++ [r] }
  | .assignBase j k => s.quiet do
    let _ ← s.base j
    let r ← s.arrayVar k
    pure { s with bases := s.bases.set j (some r) }
  | .construct k dic dark flat junk =>
    match s.arrayVar k with
    | .error e => (.error e, s)
    | .ok r => s.after (Micropol.exec s.images (.fromArray (s.values r) dic dark flat junk))
  | .convert j dic dark flat junk => s.fromBase j dic dark flat junk
  | .newBase k => s.quiet do
    let r ← s.arrayVar k
    pure (s.addBase (s.values r))
  | .copyBase j => s.quiet do
    let r ← s.baseData j
    pure (s.addBase (s.values r))
  | .ofMicropol i => s.quiet do
    let _ ← s.image i
    pure { s with bases := s.bases ++ [none] }
  | .shiftBase j y x missing => s.quiet do
    let r ← s.baseData j
    let d ← shiftKernel (s.values r) y x missing
    pure (s.addBase d)
  | .rebinBase j binning => s.quiet do
    let b ← s.base j
    match b with
    | none => .error (if binning ≤ 0 then .valueError else .attributeError)
    | some r =>
      let d ← imageRebinData (s.values r) binning
      pure (s.addBase d)
  | .arith op (.micropol i) b junk => s.micropolArith op junk i b
  | .arith op (.base j) b junk => s.quiet (s.baseArith op junk j b)
  | .reflected _ a b => s.quiet do
    let _ ← (match a with | .array k => (s.arrayVar k).map (fun _ => ()) | .number _ => .ok ())
    let _ ← (match b with | .micropol i => (s.image i).map (fun _ => ()) | .base j => (s.base j).map (fun _ => ()))
    .error .typeError

/-- One statement; exceptions are caught by the user.
Models: as `exec` (image.py:21-303, micropol_image.py:59-1080). -/
def step (s : Mixed) (t : MixStmt) : Mixed := (s.exec t).2

end Mixed

/-- The start of a session.
Models: micropol_image.py:56, :72. -/
def mixedInit : Mixed := ⟨initState.heap, [], [], []⟩

/-- A whole session.
Models: sequences of the above (image.py:21-303, micropol_image.py:59-1080). -/
def runMixed (ts : List MixStmt) : Mixed := ts.foldl Mixed.step mixedInit

end

end Micropol
