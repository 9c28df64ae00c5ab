import Verif.Model.Object

/-!
# Sessions in which the user also writes into the pixels, the Stokes maps and the demosaiced images of images

`image.data` returns the array itself (image.py:117-119), so `image.data[y, x] = v` writes into it.  `image.I`, `image.Q` and
`image.U` hold views of the Stokes vector (micropol_image.py:139-149), so `image.I.data[y, x] = v` writes into that.  `image.demosaiced_images` is a plain attribute, so
`image.demosaiced_images[q][y, x] = v` writes into the list (or array) it holds, which copies share (:133).  A session is a history of calls (as in `Model/Object`) and of such writes.
-/

set_option autoImplicit false

namespace Micropol

noncomputable section

open Classical M

/-- A statement of a session: a call, `image.data[y, x] = v` for the image in variable `i`, or `image.I.data[y, x] = v` (the
same with `Q`, `U`; `p` is 0, 1, 2), or `image.demosaiced_images[q][y, x] = v`.
Models: calls of micropol_image.py, and writes through image.py:117-119 and micropol_image.py:121, :133, :139-149. -/
inductive Edit where
  | call (o : Op)
  | write (i : Nat) (y x : Int) (v : ℝ)
  | writeMap (i : Nat) (p : Fin 3) (y x : Int) (v : ℝ)
  | writeDemosaiced (i : Nat) (q : Fin 4) (y x : Int) (v : ℝ)

/-- `image.data[y, x] = v`: negative indices count from the end, others outside raise `IndexError`.
Models: the getter image.py:117-119 followed by numpy's item assignment. -/
def writePixel (i : Nat) (y x : Int) (v : ℝ) : M Unit := do
  let d ← read (fun h => h.dataOf i)
  match Img.resolve d.h y, Img.resolve d.w x with
  | some j, some k => modify (fun h => { h with datas := h.datas.set (h.objs.cell i).data (d.setPx j k v) })
  | _, _ => lift (.error .indexError)

/-- `image.I.data[y, x] = v` (plane 0; `Q` is 1 and `U` is 2): the `PolParam` holds `self.Stokes_vec[p]`, a view of the plane
(of an array), or the plane itself (of a list).
Models: micropol_image.py:37-53, :139-149, followed by numpy's item assignment. -/
def writeMapPixel (i : Nat) (p : Fin 3) (y x : Int) (v : ℝ) : M Unit := do
  let sv ← read (fun h => h.stokesOf i)
  match Img.resolve (sv.planes p).h y, Img.resolve (sv.planes p).w x with
  | some j, some k => modify fun h =>
    { h with stokes := h.stokes.set (h.objs.cell i).stokes
               ⟨fun q => if q = p then (sv.planes p).setPx j k v else sv.planes q, sv.isList⟩ }
  | _, _ => lift (.error .indexError)

/-- The contents of a list of demosaiced images are replaced: every image that holds the list sees it.
Models: the sharing of micropol_image.py:133. -/
def Heap.setList (h : Heap) (l : Nat) (s : Fin 4 → Img ℝ) : Heap :=
  { h with objs := ⟨h.objs.size, fun k => if (h.objs.cell k).demosaicedList = l then
      { h.objs.cell k with demosaicedImages := some s } else h.objs.cell k⟩ }

/-- `image.demosaiced_images[q][y, x] = v`: `None` cannot be subscripted; indices as above.
Models: the attribute of micropol_image.py:121, :133, :817, :943, followed by numpy's item assignment. -/
def writeDemosaicedPixel (i : Nat) (q : Fin 4) (y x : Int) (v : ℝ) : M Unit := do
  let o ← read (fun h => h.objs.cell i)
  match o.demosaicedImages with
  | none => lift (.error .typeError)
  | some s =>
    match Img.resolve (s q).h y, Img.resolve (s q).w x with
    | some j, some k => modify fun h => h.setList o.demosaicedList (fun r => if r = q then (s q).setPx j k v else s r)
    | _, _ => lift (.error .indexError)

/-- One statement; exceptions are caught by the user.
Models: micropol_image.py as in `exec` and :139-149, image.py:117-119; micropol_image.py:121. -/
def editStep (s : State) : Edit → State
  | .call o => step s o
  | .write i y x v => ⟨((named s.images i >>= fun k => writePixel k y x v) s.heap).2, s.images⟩
  | .writeMap i p y x v => ⟨((named s.images i >>= fun k => writeMapPixel k p y x v) s.heap).2, s.images⟩
  | .writeDemosaiced i q y x v => ⟨((named s.images i >>= fun k => writeDemosaicedPixel k q y x v) s.heap).2, s.images⟩

/-- A whole session.
Models: sequences of the above (micropol_image.py:74-1080, image.py:117-119). -/
def runEdits (es : List Edit) : State := es.foldl editStep initState

end

end Micropol
