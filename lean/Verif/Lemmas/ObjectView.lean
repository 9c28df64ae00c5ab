import Verif.Lemmas.ObjectOps

/-!
# Value semantics of the operations on the image they work on

`ImgView` is what can be read from one image object.  For every building block: the view of the image it works on after
the call is a function of the views before (no heap).
-/

set_option autoImplicit false

namespace Micropol

open M

/-! ## Running programs -/

section
variable {α β γ : Type}

theorem run_read {f : Heap → α} {k : α → M β} {h : Heap} : (M.read f >>= k) h = k (f h) h := rfl
theorem run_modify {g : Heap → Heap} {k : Unit → M β} {h : Heap} : (M.modify g >>= k) h = k () (g h) := rfl
theorem run_lift_ok {a : α} {k : α → M β} {h : Heap} : (M.lift (.ok a) >>= k) h = k a h := rfl
theorem run_lift_err {e : PyErr} {k : α → M β} {h : Heap} : (M.lift (.error e) >>= k) h = (.error e, h) := rfl
theorem run_pure {a : α} {k : α → M β} {h : Heap} : ((pure a : M α) >>= k) h = k a h := rfl
theorem read_run {f : Heap → α} {h : Heap} : M.read f h = (.ok (f h), h) := rfl
theorem modify_run {g : Heap → Heap} {h : Heap} : M.modify g h = (.ok (), g h) := rfl
theorem lift_run {x : Py α} {h : Heap} : M.lift x h = (x, h) := rfl
theorem pure_run {a : α} {h : Heap} : (pure a : M α) h = (.ok a, h) := rfl

theorem run_bind {m : M α} {f : α → M β} {k : β → M γ} {h : Heap} :
    ((m >>= f) >>= k) h = (m >>= fun a => f a >>= k) h := by
  show (match (match m h with | (.ok a, h1) => f a h1 | (.error e, h1) => (.error e, h1)) with
    | (.ok a, h1) => k a h1 | (.error e, h1) => (.error e, h1)) =
    match m h with | (.ok a, h1) => (f a >>= k) h1 | (.error e, h1) => (.error e, h1)
  cases m h with
  | mk r g => cases r <;> rfl

theorem run_of_ok {m : M α} {k : α → M β} {h h1 : Heap} {a : α} (hm : m h = (.ok a, h1)) : (m >>= k) h = k a h1 := by
  show (match m h with | (.ok a, h1) => k a h1 | (.error e, h1) => (.error e, h1)) = _
  rw [hm]

theorem run_of_err {m : M α} {k : α → M β} {h h1 : Heap} {e : PyErr} (hm : m h = (.error e, h1)) :
    (m >>= k) h = (.error e, h1) := by
  show (match m h with | (.ok a, h1) => k a h1 | (.error e, h1) => (.error e, h1)) = _
  rw [hm]

theorem run_named {images : List Nat} {i k : Nat} {f : Nat → M β} {h : Heap} (hk : images[i]? = some k) :
    (named images i >>= f) h = f k h := by
  unfold named
  rw [hk]
  rfl

end

/-! ## Views -/

structure ImgView where
  data : Img ℝ
  stokes : StokesVec
  dic : AngleDic
  isDemodulated : Bool
  isDemosaiced : Bool
  darkSubtracted : Bool
  flatSubtracted : Bool
  demosaicedImages : Option (Fin 4 → Img ℝ)

def Heap.view (h : Heap) (k : Nat) : ImgView :=
  { data := h.dataOf k, stokes := h.stokesOf k, dic := h.dicOf k, isDemodulated := (h.objs.cell k).isDemodulated,
    isDemosaiced := (h.objs.cell k).isDemosaiced, darkSubtracted := (h.objs.cell k).darkSubtracted,
    flatSubtracted := (h.objs.cell k).flatSubtracted, demosaicedImages := (h.objs.cell k).demosaicedImages }

/-- Two heaps that agree on the object and on what it refers to. -/
theorem view_congr {h h' : Heap} {k k' : Nat} (ho : h'.objs.cell k' = h.objs.cell k)
    (hd : h'.datas.cell (h.objs.cell k).data = h.datas.cell (h.objs.cell k).data)
    (hs : h'.stokes.cell (h.objs.cell k).stokes = h.stokes.cell (h.objs.cell k).stokes) : h'.view k' = h.view k := by
  unfold Heap.view Heap.dataOf Heap.stokesOf Heap.dicOf
  rw [ho, hd, hs]

theorem Frame.view {W S H : Nat → Prop} {h h' : Heap} (fr : Frame W S H h h') (wf : WF h) {k : Nat}
    (hk : k < h.objs.size) (hW : ¬ W k) (hS : ¬ S (h.objs.cell k).stokes) : h'.view k = h.view k :=
  view_congr (fr.obj k hk hW) (fr.data _ (wf k hk).1) (fr.stokes _ (wf k hk).2.1 hS)

@[simp] theorem setData_view (h : Heap) (n : Nat) (d : Img ℝ) : (h.setData n d).view n = { h.view n with data := d } := by
  simp [Heap.view, Heap.setData, Heap.modifyObj, Heap.dataOf, Heap.stokesOf, Heap.dicOf, Store.set, Store.alloc]

@[simp] theorem setStokes_view (h : Heap) (n : Nat) (s : StokesVec) :
    (h.setStokes n s).view n = { h.view n with stokes := s } := by
  simp [Heap.view, Heap.setStokes, Heap.modifyObj, Heap.dataOf, Heap.stokesOf, Heap.dicOf, Store.set, Store.alloc]

theorem dataOf_view (h : Heap) (n : Nat) : h.dataOf n = (h.view n).data := rfl

noncomputable section

open Classical

/-- `_get_theo_Stokes_vec_components` as a function of the view. -/
def theoV (v : ImgView) : Py (Fin 3 → Img ℝ) :=
  if v.isDemosaiced then
    match v.demosaicedImages with
    | some s => theoStokes s v.dic
    | none => .error .typeError
  else dataStokes v.data v.dic

theorem theoOf_view (h : Heap) (n : Nat) : theoOf h n = theoV (h.view n) := rfl

/-- Continue only after success. -/
def andThen (r : Py Unit × ImgView) (f : ImgView → Py Unit × ImgView) : Py Unit × ImgView :=
  match r with
  | (.ok _, v) => f v
  | (.error e, v) => (.error e, v)

/-- With a computed value, or nothing changed. -/
def withVal {α : Type} (x : Py α) (v : ImgView) (f : α → Py Unit × ImgView) : Py Unit × ImgView :=
  match x with
  | .ok a => f a
  | .error e => (.error e, v)

def updateStokesV (v : ImgView) : Py Unit × ImgView :=
  withVal (theoV v) v fun S => (.ok (), { v with stokes := ⟨S, false⟩ })

def updateDataAndStokesV (d : Img ℝ) (v : ImgView) : Py Unit × ImgView := updateStokesV { v with data := d }

def subtractDarkV (dark : Img ℝ) (v : ImgView) : Py Unit × ImgView :=
  withVal (subtractDarkData v.data dark) v fun d =>
    andThen (updateDataAndStokesV d v) fun v => (.ok (), { v with darkSubtracted := true })

def correctFlatV (junk : Nat → Nat → ℝ) (flat : Img ℝ) (v : ImgView) : Py Unit × ImgView :=
  withVal (correctFlatData junk v.data flat) v fun d =>
    andThen (updateDataAndStokesV d v) fun v => (.ok (), { v with flatSubtracted := true })

def correctIfovV (v : ImgView) : Py Unit × ImgView :=
  withVal (correctIfovData v.data) v fun d => updateDataAndStokesV d v

def demosaicV (mode : String) (v : ImgView) : Py Unit × ImgView :=
  withVal (demosaic v.data mode) v fun s =>
    updateStokesV { v with demosaicedImages := some s, isDemosaiced := true }

/-- `m`, run on object `n`, has the effect `g` on its view. -/
def Acts (n : Nat) (m : M Unit) (h : Heap) (r : Py Unit × ImgView) : Prop := (m h).1 = r.1 ∧ (m h).2.view n = r.2

theorem acts_updateStokes (n : Nat) (h : Heap) : Acts n (updateStokes n) h (updateStokesV (h.view n)) := by
  unfold Acts updateStokes updateStokesV withVal
  rw [run_read, theoOf_view]
  cases theoV (h.view n) with
  | error e => exact ⟨rfl, rfl⟩
  | ok S =>
    rw [run_lift_ok, modify_run]
    exact ⟨rfl, setStokes_view _ _ _⟩

theorem Acts.bind {n : Nat} {m : M Unit} {f : M Unit} {h : Heap} {r : Py Unit × ImgView}
    {g : ImgView → Py Unit × ImgView} (hm : Acts n m h r) (hf : ∀ h', Acts n f h' (g (h'.view n))) :
    Acts n (m >>= fun _ => f) h (andThen r g) := by
  obtain ⟨h1, h2⟩ := hm
  unfold Acts
  cases hmh : m h with
  | mk a h' =>
    rw [hmh] at h1 h2
    obtain ⟨r1, r2⟩ := r
    dsimp only at h1 h2
    subst h1 h2
    cases a with
    | ok _ =>
      rw [run_of_ok hmh]
      exact hf h'
    | error e =>
      rw [run_of_err hmh]
      exact ⟨rfl, rfl⟩

theorem acts_updateDataAndStokes (n : Nat) (d : Img ℝ) (h : Heap) :
    Acts n (updateDataAndStokes n d) h (updateDataAndStokesV d (h.view n)) := by
  unfold updateDataAndStokes updateDataAndStokesV
  have := acts_updateStokes n (h.setData n d)
  rw [setData_view] at this
  exact this

theorem modifyObj_view (h : Heap) (n : Nat) (f : ImgObj → ImgObj) (hd : (f (h.objs.cell n)).data = (h.objs.cell n).data)
    (hs : (f (h.objs.cell n)).stokes = (h.objs.cell n).stokes) (hc : (f (h.objs.cell n)).dic = (h.objs.cell n).dic) :
    (h.modifyObj n f).view n = { h.view n with
      isDemodulated := (f (h.objs.cell n)).isDemodulated, isDemosaiced := (f (h.objs.cell n)).isDemosaiced,
      darkSubtracted := (f (h.objs.cell n)).darkSubtracted, flatSubtracted := (f (h.objs.cell n)).flatSubtracted,
      demosaicedImages := (f (h.objs.cell n)).demosaicedImages } := by
  simp [Heap.view, Heap.modifyObj, Heap.dataOf, Heap.stokesOf, Heap.dicOf, Store.set, hd, hs, hc]

theorem acts_subtractDark (n j : Nat) (h : Heap) :
    Acts n (subtractDark n j) h (subtractDarkV (h.dataOf j) (h.view n)) := by
  unfold subtractDark subtractDarkV
  unfold Acts
  rw [run_read]
  have e : subtractDarkData (h.view n).data (h.dataOf j) =
      (npBin (fun a b => a - b) (h.dataOf n) (h.dataOf j) >>= fun d => pure (d.map (fun v => if v ≥ 0 then v else 0))) := rfl
  rw [e]
  cases npBin (fun a b => a - b) (h.dataOf n) (h.dataOf j) with
  | error e => exact ⟨rfl, rfl⟩
  | ok d =>
    rw [run_lift_ok, run_modify, run_modify]
    have e2 : (h.setData n d).dataOf n = d := by
      rw [dataOf_view, setData_view]
    rw [e2]
    have e3 : ((h.setData n d).setData n (d.map (fun v => if v ≥ 0 then v else 0))).view n =
        { h.view n with data := d.map (fun v => if v ≥ 0 then v else 0) } := by
      rw [setData_view, setData_view]
    have := Acts.bind (acts_updateStokes n ((h.setData n d).setData n (d.map (fun v => if v ≥ 0 then v else 0))))
      (f := M.modify (fun h => h.modifyObj n (fun o => { o with darkSubtracted := true })))
      (g := fun v => (.ok (), { v with darkSubtracted := true })) (fun h' => ⟨rfl, modifyObj_view h' n _ rfl rfl rfl⟩)
    rw [e3] at this
    exact this

theorem acts_correctFlat (junk : Nat → Nat → ℝ) (n j : Nat) (h : Heap) :
    Acts n (correctFlat junk n j) h (correctFlatV junk (h.dataOf j) (h.view n)) := by
  unfold correctFlat correctFlatV Acts
  rw [run_read]
  have e : correctFlatData junk (h.view n).data (h.dataOf j) = correctFlatData junk (h.dataOf n) (h.dataOf j) := rfl
  rw [e]
  cases correctFlatData junk (h.dataOf n) (h.dataOf j) with
  | error e => exact ⟨rfl, rfl⟩
  | ok d =>
    rw [run_lift_ok, run_modify]
    have := Acts.bind (acts_updateStokes n (h.setData n d))
      (f := M.modify (fun h => h.modifyObj n (fun o => { o with flatSubtracted := true })))
      (g := fun v => (.ok (), { v with flatSubtracted := true })) (fun h' => ⟨rfl, modifyObj_view h' n _ rfl rfl rfl⟩)
    rw [setData_view] at this
    exact this

theorem acts_correctIfov (n : Nat) (h : Heap) : Acts n (correctIfov n) h (correctIfovV (h.view n)) := by
  unfold correctIfov correctIfovV Acts
  rw [run_read]
  have e : correctIfovData (h.view n).data = correctIfovData (h.dataOf n) := rfl
  rw [e]
  cases correctIfovData (h.dataOf n) with
  | error e => exact ⟨rfl, rfl⟩
  | ok d =>
    rw [run_lift_ok]
    exact acts_updateDataAndStokes n d h

theorem acts_demosaicObj (mode : String) (n : Nat) (h : Heap) :
    Acts n (demosaicObj n mode) h (demosaicV mode (h.view n)) := by
  unfold demosaicObj demosaicV Acts
  rw [run_read]
  have e : demosaic (h.view n).data mode = demosaic (h.dataOf n) mode := rfl
  rw [e]
  cases demosaic (h.dataOf n) mode with
  | error e => exact ⟨rfl, rfl⟩
  | ok s =>
    rw [run_lift_ok, run_modify]
    have := acts_updateStokes n (h.modifyObj n (fun o => { o with demosaicedImages := some s, isDemosaiced := true, demosaicedList := h.freshList }))
    rw [modifyObj_view h n _ rfl rfl rfl] at this
    exact this

end

end Micropol
