import Verif.Lemmas.ObjectView

/-!
# Value semantics of all operations

`Op.value s o k`: what the operation `o` called on the image object `k` makes of that image's view.  `exec_place_value`
and `exec_new_value` show that the heap model does exactly this, to the receiver (operations in place) or to the returned
image (all others).
-/

set_option autoImplicit false

namespace Micropol

open M

noncomputable section

open Classical

/-! ## Stokes planes rewritten in place -/

def setPlaneV (k : Fin 3) (a : Img ℝ) (sv : StokesVec) : Py StokesVec :=
  (if sv.isList then .ok a else assignPlane (sv.planes k).h (sv.planes k).w a) >>= fun p =>
    .ok ⟨fun j => if j = k then p else sv.planes j, sv.isList⟩

/-- One plane: the value is computed, then assigned. -/
def rewritePlaneV (f : Img ℝ → Py (Img ℝ)) (k : Fin 3) (sv : StokesVec) : Py StokesVec :=
  f (sv.planes k) >>= fun a => setPlaneV k a sv

/-- The three planes; an exception leaves the planes already written. -/
def rewriteV (f : Img ℝ → Py (Img ℝ)) (sv : StokesVec) : Py Unit × StokesVec :=
  match rewritePlaneV f 0 sv with
  | .error e => (.error e, sv)
  | .ok s0 =>
    match rewritePlaneV f 1 s0 with
    | .error e => (.error e, s0)
    | .ok s1 =>
      match rewritePlaneV f 2 s1 with
      | .error e => (.error e, s1)
      | .ok s2 => (.ok (), s2)

theorem set_self (s : Store StokesVec) (c : Nat) : s.set c (s.cell c) = s := by
  unfold Store.set
  congr 1
  funext k
  split
  · rename_i h; rw [h]
  · rfl

theorem set_set (s : Store StokesVec) (c : Nat) (a b : StokesVec) : (s.set c a).set c b = s.set c b := by
  unfold Store.set
  congr 1
  funext k
  dsimp only
  split <;> rfl

/-- Writing the Stokes vector with reference `c`. -/
def Heap.withStokes (h : Heap) (c : Nat) (sv : StokesVec) : Heap := { h with stokes := h.stokes.set c sv }

theorem withStokes_self (h : Heap) (c : Nat) : h.withStokes c (h.stokes.cell c) = h := by
  unfold Heap.withStokes
  rw [set_self]

theorem withStokes_withStokes (h : Heap) (c : Nat) (a b : StokesVec) :
    (h.withStokes c a).withStokes c b = h.withStokes c b := by
  unfold Heap.withStokes
  rw [set_set]

theorem withStokes_cell (h : Heap) (c : Nat) (a : StokesVec) : (h.withStokes c a).stokes.cell c = a :=
  Store.set_cell_self _ _ _

/-- One plane in the heap. -/
theorem plane_run {β : Type} (c : Nat) (f : Img ℝ → Py (Img ℝ)) (k : Fin 3) (h : Heap) (rest : Unit → M β) :
    (M.read (fun h => f ((h.stokes.cell c).planes k)) >>= fun a => M.lift a >>= fun a => setPlane c k a >>= rest) h =
    match rewritePlaneV f k (h.stokes.cell c) with
    | .error e => (.error e, h)
    | .ok sv => rest () (h.withStokes c sv) := by
  rw [run_read]
  unfold rewritePlaneV
  cases f ((h.stokes.cell c).planes k) with
  | error e => rfl
  | ok a =>
    rw [run_lift_ok, Py.ok_bind]
    unfold setPlane setPlaneV
    rw [run_bind, run_read, run_bind]
    generalize (if (h.stokes.cell c).isList then (.ok a : Py (Img ℝ)) else
      assignPlane ((h.stokes.cell c).planes k).h ((h.stokes.cell c).planes k).w a) = x
    cases x with
    | error e => rfl
    | ok p => rfl

theorem plane_run' (c : Nat) (f : Img ℝ → Py (Img ℝ)) (k : Fin 3) (h : Heap) :
    (M.read (fun h => f ((h.stokes.cell c).planes k)) >>= fun a => M.lift a >>= fun a => setPlane c k a) h =
    match rewritePlaneV f k (h.stokes.cell c) with
    | .error e => (.error e, h)
    | .ok sv => (.ok (), h.withStokes c sv) := by
  rw [run_read]
  unfold rewritePlaneV
  cases f ((h.stokes.cell c).planes k) with
  | error e => rfl
  | ok a =>
    rw [run_lift_ok, Py.ok_bind]
    unfold setPlane setPlaneV
    rw [run_read]
    generalize (if (h.stokes.cell c).isList then (.ok a : Py (Img ℝ)) else
      assignPlane ((h.stokes.cell c).planes k).h ((h.stokes.cell c).planes k).w a) = x
    cases x with
    | error e => rfl
    | ok p => rfl

theorem rewritePlanes_run (c : Nat) (f : Img ℝ → Py (Img ℝ)) (h : Heap) :
    rewritePlanes c f h = ((rewriteV f (h.stokes.cell c)).1, h.withStokes c (rewriteV f (h.stokes.cell c)).2) := by
  unfold rewritePlanes rewriteV
  rw [plane_run]
  generalize h0 : rewritePlaneV f 0 (h.stokes.cell c) = x0
  cases x0 with
  | error e => dsimp only; rw [withStokes_self]
  | ok s0 =>
    dsimp only
    rw [plane_run, withStokes_cell]
    generalize h1 : rewritePlaneV f 1 s0 = x1
    cases x1 with
    | error e => rfl
    | ok s1 =>
      dsimp only
      rw [plane_run', withStokes_withStokes, withStokes_cell]
      generalize h2 : rewritePlaneV f 2 s1 = x2
      cases x2 with
      | error e => rfl
      | ok s2 =>
        dsimp only
        rw [withStokes_withStokes]

theorem withStokes_view (h : Heap) (n : Nat) (sv : StokesVec) :
    (h.withStokes (h.objs.cell n).stokes sv).view n = { h.view n with stokes := sv } := by
  simp [Heap.view, Heap.withStokes, Heap.dataOf, Heap.stokesOf, Heap.dicOf, Store.set]

def rewriteStokesV (f : Img ℝ → Py (Img ℝ)) (v : ImgView) : Py Unit × ImgView :=
  ((rewriteV f v.stokes).1, { v with stokes := (rewriteV f v.stokes).2 })

theorem acts_rewritePlanes (n : Nat) (f : Img ℝ → Py (Img ℝ)) (h : Heap) :
    Acts n (rewritePlanes (h.objs.cell n).stokes f) h (rewriteStokesV f (h.view n)) := by
  unfold Acts
  rw [rewritePlanes_run]
  exact ⟨rfl, withStokes_view _ _ _⟩

/-! ## mask_occulter -/

def maskDemosaicedV (y x r fill : ℝ) (v : ImgView) : Py Unit × ImgView :=
  match v.isDemosaiced, v.demosaicedImages with
  | false, _ => (.ok (), v)
  | true, none => (.error .typeError, v)
  | true, some s =>
    withVal (mapFour (fun A => roiFromPolar A (some (y, x)) (some (r, 2 * ((max v.data.h v.data.w : Nat) : ℝ))) (0, 360)
      fill true) s) v fun s => (.ok (), { v with demosaicedImages := some s })

def maskOcculterV (y x r over fill : ℝ) (v : ImgView) : Py Unit × ImgView :=
  withVal (occulterRoi v.data y x (r + over) fill true) v fun d =>
    andThen (maskDemosaicedV y x (r + over) fill { v with data := d }) fun v =>
      if v.isDemosaiced then rewriteStokesV (fun A => occulterRoi A y x (r + over) fill false) v
      else rewriteStokesV (fun A => occulterRoi A ((pyInt (y / 2) : ℤ) : ℝ) ((pyInt (x / 2) : ℤ) : ℝ)
        ((pyInt ((r + over) / 2) : ℤ) : ℝ) fill false) v

theorem acts_maskDemosaiced (n : Nat) (y x r fill : ℝ) (h : Heap) :
    Acts n (maskDemosaiced n y x r fill) h (maskDemosaicedV y x r fill (h.view n)) := by
  unfold maskDemosaiced maskDemosaicedV Acts
  rw [run_read, run_read]
  have e1 : (h.view n).isDemosaiced = (h.objs.cell n).isDemosaiced := rfl
  have e2 : (h.view n).demosaicedImages = (h.objs.cell n).demosaicedImages := rfl
  have e3 : (h.view n).data = h.dataOf n := rfl
  rw [e1, e2, e3]
  generalize ha : (h.objs.cell n).isDemosaiced = a
  generalize hb : (h.objs.cell n).demosaicedImages = b
  cases a with
  | false => exact ⟨rfl, rfl⟩
  | true =>
    cases b with
    | none => exact ⟨rfl, rfl⟩
    | some s =>
      dsimp only
      generalize mapFour _ s = x
      cases x with
      | error e => exact ⟨rfl, rfl⟩
      | ok s' =>
        rw [run_lift_ok, modify_run]
        refine ⟨rfl, ?_⟩
        refine (modifyObj_view h n (fun o => { o with demosaicedImages := some s', demosaicedList := h.freshList }) rfl rfl rfl).trans ?_
        dsimp only
        rw [ha]
        rfl

theorem acts_maskOcculter (n : Nat) (y x r over fill : ℝ) (h : Heap) :
    Acts n (maskOcculter n y x r over fill) h (maskOcculterV y x r over fill (h.view n)) := by
  unfold maskOcculter maskOcculterV Acts
  rw [run_read]
  have e : occulterRoi (h.view n).data y x (r + over) fill true = occulterRoi (h.dataOf n) y x (r + over) fill true := rfl
  rw [e]
  cases occulterRoi (h.dataOf n) y x (r + over) fill true with
  | error e => exact ⟨rfl, rfl⟩
  | ok d =>
    rw [run_lift_ok, run_modify]
    have h1 := acts_maskDemosaiced n y x (r + over) fill (h.setData n d)
    rw [setData_view] at h1
    refine Acts.bind h1 ?_
    intro h'
    unfold Acts
    rw [run_read]
    have e1 : (h'.view n).isDemosaiced = (h'.objs.cell n).isDemosaiced := rfl
    rw [e1]
    split
    · exact acts_rewritePlanes n _ h'
    · exact acts_rewritePlanes n _ h'

/-! ## New images -/

/-- The heap after the dictionary has been chosen. -/
def dicHeap (dic : Option AngleDic) (h : Heap) : Heap := (resolveDic dic h).2

/-- The dictionary chosen. -/
def dicVal (dic : Option AngleDic) (h : Heap) : AngleDic :=
  match dic with
  | some d => d
  | none => match h.defaultDic with
    | some d => d
    | none => polarCamAngles

theorem resolveDic_run (dic : Option AngleDic) (h : Heap) : resolveDic dic h = (.ok (dicVal dic h), dicHeap dic h) := by
  unfold dicHeap resolveDic dicVal
  cases dic with
  | some d => rfl
  | none =>
    dsimp only
    cases h.defaultDic <;> rfl

theorem dicHeap_eq (dic : Option AngleDic) (h : Heap) : ∃ d, dicHeap dic h = { h with defaultDic := d } := by
  unfold dicHeap resolveDic
  cases dic with
  | some d => exact ⟨h.defaultDic, rfl⟩
  | none =>
    dsimp only
    cases hd : h.defaultDic with
    | some d => exact ⟨h.defaultDic, by dsimp only⟩
    | none => exact ⟨_, rfl⟩

/-- A copy of object `i`. -/
theorem newFromImage_run (i : Nat) (dic : Option AngleDic) (h : Heap) :
    newFromImage i dic h = (.ok h.objs.size, { dicHeap dic h with objs := h.objs.alloc (h.objs.cell i) }) := by
  unfold newFromImage
  rw [run_of_ok (resolveDic_run dic h), run_read, run_modify, pure_run]
  obtain ⟨d, hd⟩ := dicHeap_eq dic h
  rw [hd]

/-- The heap after a copy of `k` was made. -/
def copyHeap (k : Nat) (dic : Option AngleDic) (h : Heap) : Heap :=
  { dicHeap dic h with objs := h.objs.alloc (h.objs.cell k) }

theorem copyHeap_view_new (k : Nat) (dic : Option AngleDic) (h : Heap) :
    (copyHeap k dic h).view h.objs.size = h.view k := by
  obtain ⟨d, hd⟩ := dicHeap_eq dic h
  unfold copyHeap
  rw [hd]
  exact view_congr (Store.alloc_cell_self _ _) rfl rfl

theorem copyHeap_view_old (k : Nat) (dic : Option AngleDic) (h : Heap) {j : Nat} (hj : j < h.objs.size) :
    (copyHeap k dic h).view j = h.view j := by
  obtain ⟨d, hd⟩ := dicHeap_eq dic h
  unfold copyHeap
  rw [hd]
  exact view_congr (Store.alloc_cell_of_lt _ _ hj) rfl rfl

/-- `mk` returns a new object with the given view, or raises. -/
def MakesV (mk : M Nat) (h : Heap) (r : Py Unit × ImgView) : Prop :=
  (mk h).1 = r.1.map (fun _ => h.objs.size) ∧ (r.1 = .ok () → (mk h).2.view h.objs.size = r.2)

/-- Copy, then work on the copy. -/
theorem makes_copy (k : Nat) (h : Heap) (dic : Option AngleDic) (f : Nat → M Unit) (r : Py Unit × ImgView)
    (hf : Acts h.objs.size (f h.objs.size) (copyHeap k dic h) r) :
    MakesV (newFromImage k dic >>= fun n => f n >>= fun _ => pure n) h r := by
  unfold MakesV
  rw [run_of_ok (newFromImage_run k dic h)]
  obtain ⟨h1, h2⟩ := hf
  change (f h.objs.size (copyHeap k dic h)).1 = r.1 at h1
  cases hx : f h.objs.size (copyHeap k dic h) with
  | mk a h' =>
    rw [hx] at h1 h2
    dsimp only at h1 h2
    rw [← h1, ← h2]
    cases a with
    | ok _ =>
      have := run_of_ok (k := fun _ => (pure h.objs.size : M Nat)) hx
      unfold copyHeap at this
      rw [this]
      exact ⟨rfl, fun _ => rfl⟩
    | error e =>
      have := run_of_err (k := fun _ => (pure h.objs.size : M Nat)) hx
      unfold copyHeap at this
      rw [this]
      exact ⟨rfl, fun hq => by cases hq⟩

/-- A freshly constructed image. -/
def freshView (d : Img ℝ) (S : Fin 3 → Img ℝ) (dic : AngleDic) : ImgView :=
  { data := d, stokes := ⟨S, false⟩, dic := dic, isDemodulated := false, isDemosaiced := false, darkSubtracted := false,
    flatSubtracted := false, demosaicedImages := none }

/-- The heap after `MicropolImage(d, dic)`. -/
def arrayHeap (d : Img ℝ) (S : Fin 3 → Img ℝ) (dic : Option AngleDic) (h : Heap) : Heap :=
  { dicHeap dic h with
    datas := h.datas.alloc d, stokes := h.stokes.alloc ⟨S, false⟩, headers := h.headers.alloc ⟨d.w, d.h⟩,
    objs := h.objs.alloc (blankObj h.datas.size h.stokes.size h.headers.size (dicVal dic h)) }

theorem newFromArray_run (d : Img ℝ) (dic : Option AngleDic) (h : Heap) :
    newFromArray d dic h = match dataStokes d (dicVal dic h) with
      | .ok S => (.ok h.objs.size, arrayHeap d S dic h)
      | .error e => (.error e, dicHeap dic h) := by
  unfold newFromArray
  rw [run_of_ok (resolveDic_run dic h)]
  cases dataStokes d (dicVal dic h) with
  | error e => rfl
  | ok S =>
    rw [run_lift_ok, run_read, run_modify, pure_run]
    obtain ⟨q, hd⟩ := dicHeap_eq dic h
    unfold arrayHeap
    rw [hd]

theorem arrayHeap_view (d : Img ℝ) (S : Fin 3 → Img ℝ) (dic : Option AngleDic) (h : Heap) :
    (arrayHeap d S dic h).view h.objs.size = freshView d S (dicVal dic h) := by
  simp [arrayHeap, freshView, Heap.view, Heap.dataOf, Heap.stokesOf, Heap.dicOf, blankObj, Store.alloc]

theorem arrayHeap_view_old (d : Img ℝ) (S : Fin 3 → Img ℝ) (dic : Option AngleDic) {h : Heap} (wf : WF h) {j : Nat}
    (hj : j < h.objs.size) : (arrayHeap d S dic h).view j = h.view j :=
  view_congr (Store.alloc_cell_of_lt _ _ hj) (Store.alloc_cell_of_lt _ _ (wf j hj).1)
    (Store.alloc_cell_of_lt _ _ (wf j hj).2.1)

/-! ## All operations -/

def applyCorrectionsV (junk : Nat → Nat → ℝ) (dark flat : Option (Img ℝ)) (v : ImgView) : Py Unit × ImgView :=
  match dark, flat with
  | none, none => (.ok (), v)
  | some d, none => subtractDarkV d v
  | none, some f => correctFlatV junk f v
  | some d, some f => andThen (subtractDarkV d v) (correctFlatV junk f)

theorem acts_applyCorrections (junk : Nat → Nat → ℝ) (n : Nat) (dark flat : Option Nat) (h : Heap)
    (wf : WF h) (hn : n < h.objs.size) (hflat : ∀ f, flat = some f → f < h.objs.size ∧ f ≠ n) :
    Acts n (applyCorrections junk n dark flat) h
      (applyCorrectionsV junk (dark.map h.dataOf) (flat.map h.dataOf) (h.view n)) := by
  cases dark with
  | none =>
    cases flat with
    | none => exact ⟨rfl, rfl⟩
    | some f => exact acts_correctFlat junk n f h
  | some d =>
    cases flat with
    | none => exact acts_subtractDark n d h
    | some f =>
      obtain ⟨hf, hfn⟩ := hflat f rfl
      show Acts n (subtractDark n d >>= fun _ => correctFlat junk n f) h
        (andThen (subtractDarkV (h.dataOf d) (h.view n)) (correctFlatV junk (h.dataOf f)))
      have h1 := acts_subtractDark n d h
      -- the flat is untouched by the dark subtraction
      have hfr : FWn (fun k => k = n) (fun _ => False) (fun _ => True) h n (h.objs.cell n).header (subtractDark n d h).2 := by
        have := pres_subtractDark (W := fun k => k = n) (S := fun _ => False) (H := fun _ => True) (h0 := h) (n := n)
          (hd := (h.objs.cell n).header) d (fun _ => rfl) (fun _ => trivial) h ⟨⟨Frame.refl h, wf⟩, hn, rfl⟩
        cases hr : (subtractDark n d h).1 with
        | ok a => exact this.1 a hr
        | error e => exact this.2 e hr
      have hdata : (subtractDark n d h).2.dataOf f = h.dataOf f := by
        have := hfr.1.1.view wf hf hfn (fun hq => hq)
        exact congrArg ImgView.data this
      obtain ⟨a1, a2⟩ := h1
      unfold Acts
      cases hx : subtractDark n d h with
      | mk a h' =>
        rw [hx] at a1 a2 hdata
        dsimp only at a1 a2 hdata
        have hrr : subtractDarkV (h.dataOf d) (h.view n) = (a, h'.view n) := Prod.ext a1.symm a2.symm
        rw [hrr]
        cases a with
        | ok _ =>
          rw [run_of_ok hx]
          have := acts_correctFlat junk n f h'
          rw [hdata] at this
          exact this
        | error e =>
          rw [run_of_err hx]
          exact ⟨rfl, rfl⟩

/-- The image named `j`, if there is one. -/
def secondV (s : State) (j : Nat) (v : ImgView) (f : Img ℝ → Py Unit × ImgView) : Py Unit × ImgView :=
  match s.images[j]? with
  | some k => f (s.heap.dataOf k)
  | none => (.error .nameError, v)

/-- Optional arguments must exist. -/
def optV (s : State) (j : Option Nat) (v : ImgView) (f : Option (Img ℝ) → Py Unit × ImgView) : Py Unit × ImgView :=
  match j with
  | none => f none
  | some j => secondV s j v fun d => f (some d)

def congridV (newY newX : Nat) (v : ImgView) : Py Unit × ImgView :=
  withVal (congridData v.data newY newX) v fun d =>
  withVal (congrid (v.stokes.planes 0) (if newY % 2 = 1 then newY - 1 else newY) (if newX % 2 = 1 then newX - 1 else newX)) v fun s0 =>
  withVal (congrid (v.stokes.planes 1) (if newY % 2 = 1 then newY - 1 else newY) (if newX % 2 = 1 then newX - 1 else newX)) v fun s1 =>
  withVal (congrid (v.stokes.planes 2) (if newY % 2 = 1 then newY - 1 else newY) (if newX % 2 = 1 then newX - 1 else newX)) v fun s2 =>
    (.ok (), { v with data := d, stokes := ⟨![s0, s1, s2], true⟩ })

def rotateV (rot : Img ℝ → Py (Img ℝ)) (v : ImgView) : Py Unit × ImgView :=
  withVal (rotateData rot v.data) v fun d =>
    andThen (rewriteStokesV rot v) fun v => (.ok (), { v with data := d })

def demodulateV (D : Demodulator ℝ) (dem : Bool) (v : ImgView) : Py Unit × ImgView :=
  if dem then
    andThen (demosaicV "adjacent" v) fun v =>
      withVal (demodulateDemosaicing v.data v.dic D) v fun S =>
        (.ok (), { v with stokes := ⟨S, false⟩, isDemodulated := true })
  else
    withVal (demodulatePlain v.data v.stokes.planes D) v fun S =>
      (.ok (), { v with stokes := ⟨S, false⟩, isDemodulated := true })

/-- Value semantics of every operation with a receiver. -/
def Op.value (s : State) (o : Op) (v : ImgView) : Py Unit × ImgView :=
  match o with
  | .setDefault _ => (.ok (), v)
  | .fromArray _ _ _ _ _ => (.ok (), v)
  | .fromImage _ _ dark flat junk => optV s dark v fun d => optV s flat v fun f => applyCorrectionsV junk d f v
  | .rebin _ b => if b ≤ 0 then (.error .valueError, v) else
      withVal (micropolarrayRebin v.data b) v fun d => updateDataAndStokesV d v
  | .congrid _ ny nx => congridV ny nx v
  | .rotate _ rot => rotateV rot v
  | .demodulate _ D dem => demodulateV D dem v
  | .shift _ y x m => withVal (shiftMicropol v.data y x m) v fun d => updateDataAndStokesV d v
  | .cleanHotPixels _ f median => secondV s f v fun fl =>
      withVal (cleanHotPixelsData median v.data fl) v fun d => updateDataAndStokesV d v
  | .arithImage op _ j junk => secondV s j v fun d2 =>
      withVal (arithData op junk v.data (.image d2)) v fun d => updateDataAndStokesV d v
  | .arithNumber op _ c junk => withVal (arithData op junk v.data (.number c)) v fun d =>
      withVal (dataStokes d v.dic) v fun S => (.ok (), freshView d S v.dic)
  | .demosaic _ mode => demosaicV mode v
  | .subtractDark _ j => secondV s j v fun d => subtractDarkV d v
  | .correctFlat _ j junk => secondV s j v fun d => correctFlatV junk d v
  | .correctIfov _ => correctIfovV v
  | .maskOcculter _ y x r over fill => maskOcculterV y x r over fill v

end

end Micropol
