import Verif.Lemmas.EditMaps
import Verif.Model.PilRotate

/-! # Runs that differ only in the values of Stokes maps -/

set_option autoImplicit false

namespace Micropol

open M

noncomputable section

open Classical

/-- Same shape. -/
def Like (A B : Img ℝ) : Prop := A.h = B.h ∧ A.w = B.w

theorem Like.rfl' (A : Img ℝ) : Like A A := ⟨rfl, rfl⟩

/-- Both succeed with related values, or both raise the same exception. -/
def PyRel {α β : Type} (R : α → β → Prop) : Py α → Py β → Prop
  | .ok a, .ok b => R a b
  | .error e, .error e' => e = e'
  | _, _ => False

theorem PyRel.refl {α : Type} (x : Py α) : PyRel Eq x x := by cases x <;> rfl

theorem PyRel.bind {α β γ δ : Type} {R : α → β → Prop} {T : γ → δ → Prop} {x : Py α} {y : Py β} {f : α → Py γ} {g : β → Py δ}
    (h : PyRel R x y) (hf : ∀ a b, R a b → PyRel T (f a) (g b)) : PyRel T (x >>= f) (y >>= g) := by
  cases x with
  | error e =>
    cases y with
    | error e' => exact h
    | ok b => cases h
  | ok a =>
    cases y with
    | error e' => cases h
    | ok b => exact hf a b h

theorem PyRel.eq {α : Type} {x y : Py α} (h : PyRel Eq x y) : x = y := by
  cases x <;> cases y <;> first | (cases h; rfl) | cases h

/-- Equal up to the values of Stokes maps. -/
structure Blind (h h' : Heap) : Prop where
  datas : h'.datas = h.datas
  headers : h'.headers = h.headers
  objs : h'.objs = h.objs
  default : h'.defaultDic = h.defaultDic
  size : h'.stokes.size = h.stokes.size
  list : ∀ c, (h'.stokes.cell c).isList = (h.stokes.cell c).isList
  like : ∀ c p, Like ((h.stokes.cell c).planes p) ((h'.stokes.cell c).planes p)

theorem Blind.refl (h : Heap) : Blind h h := ⟨rfl, rfl, rfl, rfl, rfl, fun _ => rfl, fun _ _ => Like.rfl' _⟩

/-- Runs of `m` and `m'` from heaps equal up to maps. -/
def RelM {α β : Type} (R : α → β → Prop) (m : M α) (m' : M β) : Prop :=
  ∀ h h', Blind h h' → PyRel R (m h).1 (m' h').1 ∧ Blind (m h).2 (m' h').2

abbrev BlindM {α : Type} (m : M α) : Prop := RelM Eq m m

section
variable {α β γ δ : Type} {R : α → β → Prop} {T : γ → δ → Prop}

theorem RelM.bind {m : M α} {m' : M β} {f : α → M γ} {f' : β → M δ} (hm : RelM R m m')
    (hf : ∀ a b, R a b → RelM T (f a) (f' b)) : RelM T (m >>= f) (m' >>= f') := by
  intro h h' hh
  obtain ⟨h1, h2⟩ := hm h h' hh
  cases hx : m h with
  | mk a k =>
    cases hy : m' h' with
    | mk b k' =>
      rw [hx, hy] at h1 h2
      cases a with
      | error e =>
        cases b with
        | error e' => rw [run_of_err hx, run_of_err hy]; exact ⟨h1, h2⟩
        | ok b => cases h1
      | ok a =>
        cases b with
        | error e' => cases h1
        | ok b => rw [run_of_ok hx, run_of_ok hy]; exact hf a b h1 k k' h2

theorem BlindM.bind {m : M α} {f : α → M γ} (hm : BlindM m) (hf : ∀ a, BlindM (f a)) : BlindM (m >>= f) :=
  RelM.bind hm fun a b hab => by cases hab; exact hf a

theorem RelM.read {f : Heap → α} {g : Heap → β} (hf : ∀ h h', Blind h h' → R (f h) (g h')) : RelM R (M.read f) (M.read g) :=
  fun h h' hh => ⟨hf h h' hh, hh⟩

theorem RelM.lift {x : Py α} {y : Py β} (hx : PyRel R x y) : RelM R (M.lift x) (M.lift y) := fun _ _ hh => ⟨hx, hh⟩

theorem RelM.modify {f g : Heap → Heap} (hf : ∀ h h', Blind h h' → Blind (f h) (g h')) : RelM Eq (M.modify f) (M.modify g) :=
  fun h h' hh => ⟨rfl, hf h h' hh⟩

theorem RelM.pure {a : α} {b : β} (hab : R a b) : RelM R (Pure.pure a : M α) (Pure.pure b : M β) := fun _ _ hh => ⟨hab, hh⟩

theorem BlindM.read {f : Heap → α} (hf : ∀ h h', Blind h h' → f h = f h') : BlindM (M.read f) := RelM.read hf
theorem BlindM.lift {x : Py α} : BlindM (M.lift x) := RelM.lift (PyRel.refl x)
theorem BlindM.pure {a : α} : BlindM (Pure.pure a : M α) := RelM.pure rfl

end

section
variable {h h' : Heap} {n : Nat}

theorem Blind.obj (hh : Blind h h') (k : Nat) : h.objs.cell k = h'.objs.cell k := by rw [hh.objs]
theorem Blind.data (hh : Blind h h') (k : Nat) : h.dataOf k = h'.dataOf k := by
  unfold Heap.dataOf; rw [hh.objs, hh.datas]
theorem Blind.dic (hh : Blind h h') (k : Nat) : h.dicOf k = h'.dicOf k := by
  unfold Heap.dicOf; rw [hh.objs]
theorem Blind.theo (hh : Blind h h') (k : Nat) : theoOf h k = theoOf h' k := by
  unfold theoOf; rw [hh.obj, hh.dic, hh.data]

theorem Blind.modifyObj (hh : Blind h h') (f : ImgObj → ImgObj) : Blind (h.modifyObj n f) (h'.modifyObj n f) := by
  refine ⟨hh.datas, hh.headers, ?_, hh.default, hh.size, hh.list, hh.like⟩
  show h'.objs.set n _ = h.objs.set n _
  rw [hh.objs]

theorem Blind.setData (hh : Blind h h') (d : Img ℝ) : Blind (h.setData n d) (h'.setData n d) := by
  refine ⟨?_, ?_, ?_, hh.default, hh.size, hh.list, hh.like⟩
  · show h'.datas.alloc d = h.datas.alloc d
    rw [hh.datas]
  · show h'.headers.set _ _ = h.headers.set _ _
    rw [hh.headers, hh.objs]
  · show h'.objs.set n _ = h.objs.set n _
    rw [hh.objs, hh.datas]

/-- Stokes vectors of the same form. -/
def LikeVec (s s' : StokesVec) : Prop := s'.isList = s.isList ∧ ∀ p, Like (s.planes p) (s'.planes p)

theorem LikeVec.rfl' (s : StokesVec) : LikeVec s s := ⟨rfl, fun _ => Like.rfl' _⟩

theorem Blind.setCell (hh : Blind h h') (c : Nat) {s s' : StokesVec} (hs : LikeVec s s') :
    Blind { h with stokes := h.stokes.set c s } { h' with stokes := h'.stokes.set c s' } := by
  refine ⟨hh.datas, hh.headers, hh.objs, hh.default, hh.size, ?_, ?_⟩
  · intro k
    show (if k = c then s' else h'.stokes.cell k).isList = (if k = c then s else h.stokes.cell k).isList
    split
    · exact hs.1
    · exact hh.list k
  · intro k p
    show Like ((if k = c then s else h.stokes.cell k).planes p) ((if k = c then s' else h'.stokes.cell k).planes p)
    split
    · exact hs.2 p
    · exact hh.like k p

theorem Blind.allocCell (hh : Blind h h') {s s' : StokesVec} (hs : LikeVec s s') :
    Blind { h with stokes := h.stokes.alloc s } { h' with stokes := h'.stokes.alloc s' } := by
  refine ⟨hh.datas, hh.headers, hh.objs, hh.default, congrArg (· + 1) hh.size, ?_, ?_⟩
  · intro k
    show (if k = h'.stokes.size then s' else h'.stokes.cell k).isList = (if k = h.stokes.size then s else h.stokes.cell k).isList
    rw [hh.size]
    split
    · exact hs.1
    · exact hh.list k
  · intro k p
    show Like ((if k = h.stokes.size then s else h.stokes.cell k).planes p)
      ((if k = h'.stokes.size then s' else h'.stokes.cell k).planes p)
    rw [hh.size]
    split
    · exact hs.2 p
    · exact hh.like k p

theorem Blind.setStokes (hh : Blind h h') {s s' : StokesVec} (hs : LikeVec s s') : Blind (h.setStokes n s) (h'.setStokes n s') := by
  have := (hh.allocCell hs).modifyObj (n := n) fun o => { o with stokes := h.stokes.size }
  refine ⟨this.datas, this.headers, ?_, this.default, this.size, this.list, this.like⟩
  have := this.objs
  unfold Heap.setStokes
  dsimp only
  rw [← this, hh.size]

end

/-! ## Single operations -/

theorem blind_resolveDic (dic : Option AngleDic) : BlindM (resolveDic dic) := by
  intro h h' hh
  unfold resolveDic
  rw [hh.default]
  cases dic with
  | some d => exact ⟨rfl, hh⟩
  | none =>
    cases h.defaultDic with
    | some d => exact ⟨rfl, hh⟩
    | none => exact ⟨rfl, hh.datas, hh.headers, hh.objs, rfl, hh.size, hh.list, hh.like⟩

theorem blind_updateStokes (n : Nat) : BlindM (updateStokes n) :=
  BlindM.bind (BlindM.read fun _ _ hh => hh.theo n) fun _ => BlindM.bind BlindM.lift fun _ =>
    RelM.modify fun _ _ hh => hh.setStokes (LikeVec.rfl' _)

theorem blind_setData (n : Nat) (d : Img ℝ) : BlindM (M.modify fun h => h.setData n d) := RelM.modify fun _ _ hh => hh.setData d

theorem blind_modifyObj (n : Nat) (f : ImgObj → ImgObj) : BlindM (M.modify fun h => h.modifyObj n f) :=
  RelM.modify fun _ _ hh => hh.modifyObj f

theorem Blind.freshList {h h' : Heap} (hh : Blind h h') : h'.freshList = h.freshList := by
  unfold Heap.freshList
  rw [hh.objs]

theorem blind_modifyList (n : Nat) (f : Nat → ImgObj → ImgObj) : BlindM (M.modify fun h => h.modifyObj n (f h.freshList)) :=
  RelM.modify fun _ _ hh => by rw [hh.freshList]; exact hh.modifyObj _

theorem blind_update (n : Nat) (d : Img ℝ) : BlindM (updateDataAndStokes n d) :=
  BlindM.bind (blind_setData n d) fun _ => blind_updateStokes n

theorem blind_newFromImage (k : Nat) (dic : Option AngleDic) : BlindM (newFromImage k dic) :=
  BlindM.bind (blind_resolveDic dic) fun _ => BlindM.bind (BlindM.read fun _ _ hh => by rw [hh.objs]) fun _ =>
  BlindM.bind (RelM.modify fun _ _ hh => ⟨hh.datas, hh.headers, by dsimp only; rw [hh.objs], hh.default, hh.size, hh.list, hh.like⟩)
    fun _ => BlindM.pure

theorem blind_newFromArray (d : Img ℝ) (dic : Option AngleDic) : BlindM (newFromArray d dic) := by
  refine BlindM.bind (blind_resolveDic dic) fun dc => BlindM.bind BlindM.lift fun S =>
    BlindM.bind (BlindM.read fun _ _ hh => by rw [hh.objs]) fun _ => BlindM.bind (RelM.modify ?_) fun _ => BlindM.pure
  intro h h' hh
  have := hh.allocCell (LikeVec.rfl' ⟨S, false⟩)
  refine ⟨?_, ?_, ?_, this.default, this.size, this.list, this.like⟩
  · dsimp only; rw [hh.datas]
  · dsimp only; rw [hh.headers]
  · dsimp only; rw [hh.objs, hh.datas, hh.headers, hh.size]

theorem blind_subtractDark (n dark : Nat) : BlindM (subtractDark n dark) :=
  BlindM.bind (BlindM.read fun _ _ hh => by rw [hh.data, hh.data]) fun _ => BlindM.bind BlindM.lift fun d =>
  BlindM.bind (blind_setData n d) fun _ =>
  BlindM.bind (RelM.modify fun _ _ hh => by rw [← hh.data]; exact hh.setData _) fun _ =>
  BlindM.bind (blind_updateStokes n) fun _ => blind_modifyObj n _

theorem blind_correctFlat (junk : Nat → Nat → ℝ) (n flat : Nat) : BlindM (correctFlat junk n flat) :=
  BlindM.bind (BlindM.read fun _ _ hh => by rw [hh.data, hh.data]) fun _ => BlindM.bind BlindM.lift fun d =>
  BlindM.bind (blind_setData n d) fun _ => BlindM.bind (blind_updateStokes n) fun _ => blind_modifyObj n _

theorem blind_correctIfov (n : Nat) : BlindM (correctIfov n) :=
  BlindM.bind (BlindM.read fun _ _ hh => by rw [hh.data]) fun _ => BlindM.bind BlindM.lift fun d => blind_update n d

theorem blind_demosaic (n : Nat) (mode : String) : BlindM (demosaicObj n mode) :=
  BlindM.bind (BlindM.read fun _ _ hh => by rw [hh.data]) fun _ => BlindM.bind BlindM.lift fun d =>
  BlindM.bind (blind_modifyList n fun l o => { o with demosaicedImages := some d, isDemosaiced := true, demosaicedList := l })
    fun _ => blind_updateStokes n

/-! ## Work on the maps -/

/-- Success and shape of the result depend on the shape of the argument only. -/
def FormOnly (f : Img ℝ → Py (Img ℝ)) : Prop := ∀ A B, Like A B → PyRel Like (f A) (f B)

theorem rel_setPlane (c : Nat) (k : Fin 3) {a b : Img ℝ} (hab : Like a b) : RelM Eq (setPlane c k a) (setPlane c k b) := by
  refine RelM.bind (R := LikeVec) (RelM.read fun h h' hh => ⟨hh.list c, hh.like c⟩) fun s s' hs =>
    RelM.bind (R := Like) (RelM.lift ?_) fun p q hpq => RelM.modify fun h h' hh => hh.setCell c ⟨hs.1, ?_⟩
  · rw [hs.1]
    split
    · exact hab
    · unfold assignPlane
      rw [← (hs.2 k).1, ← (hs.2 k).2, ← hab.1, ← hab.2]
      split
      · exact ⟨rfl, rfl⟩
      · rfl
  · intro j
    dsimp only
    split
    · exact hpq
    · exact hs.2 j

theorem rel_rewritePlanes (c : Nat) {f : Img ℝ → Py (Img ℝ)} (hf : FormOnly f) : BlindM (rewritePlanes c f) := by
  have rd : ∀ p : Fin 3, RelM (PyRel Like) (M.read fun h => f ((h.stokes.cell c).planes p))
      (M.read fun h => f ((h.stokes.cell c).planes p)) := fun p => RelM.read fun h h' hh => hf _ _ (hh.like c p)
  exact RelM.bind (rd 0) fun _ _ h0 => RelM.bind (RelM.lift h0) fun _ _ h0 => RelM.bind (rel_setPlane c 0 h0) fun _ _ _ =>
    RelM.bind (rd 1) fun _ _ h1 => RelM.bind (RelM.lift h1) fun _ _ h1 => RelM.bind (rel_setPlane c 1 h1) fun _ _ _ =>
    RelM.bind (rd 2) fun _ _ h2 => RelM.bind (RelM.lift h2) fun _ _ h2 => rel_setPlane c 2 h2

theorem npWhere_form {A A' B B' : Img ℝ} (mask : Img Bool) (hA : Like A A') (hB : Like B B') :
    PyRel Like (npWhere mask A B) (npWhere mask A' B') := by
  unfold npWhere
  rw [← hA.1, ← hA.2, ← hB.1, ← hB.2]
  refine PyRel.bind (PyRel.refl _) fun a b hab => ?_
  cases hab
  refine PyRel.bind (PyRel.refl _) fun a b hab => ?_
  cases hab
  refine PyRel.bind (PyRel.refl _) fun a b hab => ?_
  cases hab
  refine PyRel.bind (PyRel.refl _) fun a b hab => ?_
  cases hab
  exact ⟨rfl, rfl⟩

theorem form_roi (y x r fill : ℝ) (b : Bool) : FormOnly fun A => occulterRoi A y x r fill b := by
  intro A B hAB
  dsimp only
  unfold occulterRoi roiFromPolar roiMask
  dsimp only
  rw [← hAB.1, ← hAB.2]
  refine PyRel.bind (PyRel.refl _) fun m m' hm => ?_
  cases hm
  exact npWhere_form m hAB (Like.rfl' _)

theorem form_pil (angle : ℝ) : FormOnly (pilRotate angle) := fun _ _ h => h

theorem form_congrid (ny nx : Nat) : FormOnly fun A => congrid A ny nx := by
  intro A B hAB
  dsimp only
  unfold congrid
  rw [← hAB.1, ← hAB.2]
  split
  · rfl
  · exact ⟨rfl, rfl⟩

theorem form_demodulatePlain (d : Img ℝ) {S S' : Fin 3 → Img ℝ} (hS : ∀ p, Like (S p) (S' p)) (D : Demodulator ℝ) :
    PyRel (fun T T' => ∀ p, Like (T p) (T' p)) (demodulatePlain d S D) (demodulatePlain d S' D) := by
  unfold demodulatePlain
  refine PyRel.bind (PyRel.refl _) fun a b hab => ?_
  cases hab
  refine PyRel.bind (PyRel.refl _) fun T T' hT => ?_
  cases hT
  cases D.fitFoundFlags with
  | none => exact fun p => Like.rfl' _
  | some flags =>
    refine PyRel.bind (npWhere_form _ (Like.rfl' _) (hS 0)) fun a a' ha =>
      PyRel.bind (npWhere_form _ (Like.rfl' _) (hS 1)) fun b b' hb =>
      PyRel.bind (npWhere_form _ (Like.rfl' _) (hS 2)) fun c c' hc => ?_
    intro p
    fin_cases p
    · exact ha
    · exact hb
    · exact hc

theorem blind_maskDemosaiced (n : Nat) (y x r fill : ℝ) : BlindM (maskDemosaiced n y x r fill) := by
  refine BlindM.bind (BlindM.read fun _ _ hh => hh.obj n) fun o => BlindM.bind (BlindM.read fun _ _ hh => hh.data n) fun d => ?_
  split
  · exact BlindM.pure
  · exact BlindM.lift
  · exact BlindM.bind BlindM.lift fun s => blind_modifyList n fun l o => { o with demosaicedImages := some s, demosaicedList := l }

theorem blind_maskOcculter (n : Nat) (y x r over fill : ℝ) : BlindM (maskOcculter n y x r over fill) := by
  refine BlindM.bind (BlindM.read fun _ _ hh => by rw [hh.data]) fun _ => BlindM.bind BlindM.lift fun d =>
    BlindM.bind (blind_setData n d) fun _ => BlindM.bind (blind_maskDemosaiced n _ _ _ _) fun _ =>
    BlindM.bind (BlindM.read fun _ _ hh => hh.obj n) fun o => ?_
  split
  · exact rel_rewritePlanes _ (form_roi _ _ _ _ _)
  · exact rel_rewritePlanes _ (form_roi _ _ _ _ _)

theorem blind_rotate {rot : Img ℝ → Py (Img ℝ)} (hrot : FormOnly rot) (k : Nat) : BlindM (rotateObj rot k) :=
  BlindM.bind (BlindM.read fun _ _ hh => by rw [hh.data]) fun _ => BlindM.bind BlindM.lift fun d =>
  BlindM.bind (BlindM.read fun _ _ hh => by rw [hh.obj]) fun c => BlindM.bind (rel_rewritePlanes c hrot) fun _ =>
  BlindM.bind (blind_newFromImage k none) fun n => BlindM.bind (blind_setData n d) fun _ =>
  BlindM.bind (blind_modifyObj n _) fun _ => BlindM.pure

theorem blind_derive (k : Nat) {f : Heap → Py (Img ℝ)} (hf : ∀ h h', Blind h h' → f h = f h') : BlindM (deriveObj k f) :=
  BlindM.bind (BlindM.read hf) fun _ => BlindM.bind BlindM.lift fun d => BlindM.bind (blind_newFromImage k none) fun n =>
  BlindM.bind (blind_update n d) fun _ => BlindM.pure

theorem blind_rebin (k : Nat) (b : Int) : BlindM (rebinObj k b) := by
  unfold rebinObj
  split
  · exact BlindM.lift
  · exact BlindM.bind (blind_newFromImage k none) fun n => BlindM.bind (BlindM.read fun _ _ hh => by rw [hh.data]) fun _ =>
      BlindM.bind BlindM.lift fun d => BlindM.bind (blind_update n d) fun _ => BlindM.pure

theorem blind_congrid (k ny nx : Nat) : BlindM (congridObj k ny nx) := by
  refine BlindM.bind (BlindM.read fun _ _ hh => by rw [hh.data]) fun _ => BlindM.bind BlindM.lift fun d =>
    BlindM.bind (blind_newFromImage k none) fun n => BlindM.bind (blind_setData n d) fun _ => ?_
  refine RelM.bind (R := LikeVec) (RelM.read fun h h' hh => ?_) fun s s' hs => ?_
  · unfold Heap.stokesOf
    rw [← hh.obj]
    exact ⟨hh.list _, hh.like _⟩
  · refine RelM.bind (RelM.lift (form_congrid _ _ _ _ (hs.2 0))) fun a a' ha =>
      RelM.bind (RelM.lift (form_congrid _ _ _ _ (hs.2 1))) fun b b' hb =>
      RelM.bind (RelM.lift (form_congrid _ _ _ _ (hs.2 2))) fun c c' hc =>
      RelM.bind (RelM.modify fun h h' hh => hh.setStokes ⟨rfl, ?_⟩) fun _ _ _ => BlindM.pure
    intro p
    fin_cases p
    · exact ha
    · exact hb
    · exact hc

theorem blind_demodulate (k : Nat) (D : Demodulator ℝ) (dem : Bool) : BlindM (demodulateObj k D dem) := by
  refine BlindM.bind (blind_newFromImage k none) fun n => ?_
  cases dem with
  | true =>
    exact BlindM.bind (blind_demosaic n _) fun _ => BlindM.bind (BlindM.read fun _ _ hh => by rw [hh.data, hh.dic]) fun _ =>
      BlindM.bind BlindM.lift fun S => BlindM.bind (RelM.modify fun _ _ hh => hh.setStokes (LikeVec.rfl' _)) fun _ =>
      BlindM.bind (blind_modifyObj n _) fun _ => BlindM.pure
  | false =>
    refine RelM.bind (R := PyRel fun T T' => ∀ p, Like (T p) (T' p)) (RelM.read fun h h' hh => ?_) fun x x' hx =>
      RelM.bind (RelM.lift hx) fun S S' hS => RelM.bind (RelM.modify fun _ _ hh => hh.setStokes ⟨rfl, hS⟩) fun _ _ _ =>
      BlindM.bind (blind_modifyObj n _) fun _ => BlindM.pure
    rw [← hh.data]
    refine form_demodulatePlain _ ?_ D
    unfold Heap.stokesOf
    rw [← hh.obj]
    exact hh.like _

theorem blind_corrections (junk : Nat → Nat → ℝ) (n : Nat) (dark flat : Option Nat) :
    BlindM (applyCorrections junk n dark flat) := by
  unfold applyCorrections
  split
  · exact BlindM.pure
  · exact blind_subtractDark n _
  · exact blind_correctFlat junk n _
  · exact BlindM.bind (blind_subtractDark n _) fun _ => blind_correctFlat junk n _

theorem blind_namedOpt (images : List Nat) (k : Option Nat) : BlindM (namedOpt images k) := by
  cases k with
  | none => exact BlindM.pure
  | some k => exact BlindM.bind BlindM.lift fun _ => BlindM.pure

theorem blind_header (n i : Nat) :
    BlindM (M.modify fun h => h.modifyObj n (fun o => { o with header := (h.objs.cell i).header })) :=
  RelM.modify fun h h' hh => by rw [← hh.obj i]; exact hh.modifyObj _

/-- A call: rotations are those of PIL. -/
theorem blind_exec (images : List Nat) (o : Op) (hrot : ∀ i rot, o = .rotate i rot → FormOnly rot) : BlindM (exec images o) := by
  have nm : ∀ {β : Type} {i : Nat} {f : Nat → M β}, (∀ k, BlindM (f k)) → BlindM (named images i >>= f) :=
    fun hf => BlindM.bind BlindM.lift hf
  have ret : ∀ {m : M Nat}, BlindM m → BlindM (m >>= fun n => (pure (some n) : M (Option Nat))) :=
    fun hm => BlindM.bind hm fun _ => BlindM.pure
  cases o with
  | setDefault dic =>
    exact BlindM.bind (RelM.modify fun _ _ hh => ⟨hh.datas, hh.headers, hh.objs, rfl, hh.size, hh.list, hh.like⟩) fun _ =>
      BlindM.pure
  | fromArray d dic dark flat junk =>
    exact BlindM.bind (blind_namedOpt _ _) fun dk => BlindM.bind (blind_namedOpt _ _) fun fl =>
      BlindM.bind (blind_newFromArray d dic) fun n => BlindM.bind (blind_corrections junk n dk fl) fun _ => BlindM.pure
  | fromImage i dic dark flat junk =>
    exact nm fun k => BlindM.bind (blind_namedOpt _ _) fun dk => BlindM.bind (blind_namedOpt _ _) fun fl =>
      BlindM.bind (blind_newFromImage k dic) fun n => BlindM.bind (blind_corrections junk n dk fl) fun _ => BlindM.pure
  | rebin i b => exact nm fun k => ret (blind_rebin k b)
  | congrid i ny nx => exact nm fun k => ret (blind_congrid k ny nx)
  | rotate i rot => exact nm fun k => ret (blind_rotate (hrot i rot rfl) k)
  | demodulate i D dem => exact nm fun k => ret (blind_demodulate k D dem)
  | shift i y x m => exact nm fun k => ret (blind_derive k fun _ _ hh => by rw [hh.data])
  | cleanHotPixels i f med =>
    exact nm fun k => nm fun f => ret (blind_derive k fun _ _ hh => by rw [hh.data, hh.data])
  | arithImage op i j junk =>
    exact nm fun k => nm fun j => ret (BlindM.bind (blind_derive k fun _ _ hh => by rw [hh.data, hh.data]) fun n =>
      BlindM.bind (blind_header n k) fun _ => BlindM.pure)
  | arithNumber op i c junk =>
    exact nm fun k => ret (BlindM.bind (BlindM.read fun _ _ hh => by rw [hh.data]) fun _ => BlindM.bind BlindM.lift fun d =>
      BlindM.bind (BlindM.read fun _ _ hh => hh.dic k) fun dc => BlindM.bind (blind_newFromArray d _) fun n =>
      BlindM.bind (blind_header n k) fun _ => BlindM.pure)
  | demosaic i mode => exact nm fun k => BlindM.bind (blind_demosaic k mode) fun _ => BlindM.pure
  | subtractDark i d => exact nm fun k => nm fun d => BlindM.bind (blind_subtractDark k d) fun _ => BlindM.pure
  | correctFlat i f junk => exact nm fun k => nm fun f => BlindM.bind (blind_correctFlat junk k f) fun _ => BlindM.pure
  | correctIfov i => exact nm fun k => BlindM.bind (blind_correctIfov k) fun _ => BlindM.pure
  | maskOcculter i y x r over fill =>
    exact nm fun k => BlindM.bind (blind_maskOcculter k y x r over fill) fun _ => BlindM.pure

/-! ## Sessions -/

theorem blind_writePixel (k : Nat) (y x : Int) (v : ℝ) : BlindM (writePixel k y x v) := by
  refine BlindM.bind (BlindM.read fun _ _ hh => hh.data k) fun d => ?_
  split
  · refine RelM.modify fun h h' hh => ⟨?_, hh.headers, hh.objs, hh.default, hh.size, hh.list, hh.like⟩
    dsimp only
    rw [hh.datas, hh.objs]
  · exact BlindM.lift

theorem blind_writeDemosaiced (k : Nat) (q : Fin 4) (y x : Int) (v : ℝ) : BlindM (writeDemosaicedPixel k q y x v) := by
  refine BlindM.bind (BlindM.read fun _ _ hh => hh.obj k) fun o => ?_
  split
  · exact BlindM.lift
  · split
    · refine RelM.modify fun h h' hh => ⟨hh.datas, hh.headers, ?_, hh.default, hh.size, hh.list, hh.like⟩
      unfold Heap.setList
      dsimp only
      rw [hh.objs]
    · exact BlindM.lift

theorem blind_step {s t : State} (hh : Blind s.heap t.heap) (hi : t.images = s.images) (o : Op)
    (hrot : ∀ i rot, o = .rotate i rot → FormOnly rot) :
    (exec s.images o s.heap).1 = (exec t.images o t.heap).1 ∧ Blind (step s o).heap (step t o).heap ∧
      (step t o).images = (step s o).images := by
  obtain ⟨h1, h2⟩ := blind_exec s.images o hrot _ _ hh
  rw [hi]
  refine ⟨h1.eq, by rw [step_heap, step_heap, hi]; exact h2, ?_⟩
  have h1 := h1.eq
  unfold step
  rw [hi]
  cases hx : exec s.images o s.heap with
  | mk a h =>
    cases hy : exec s.images o t.heap with
    | mk b h' =>
      rw [hx, hy] at h1
      cases h1
      cases a with
      | error e => rfl
      | ok r =>
        cases r with
        | none => rfl
        | some n => rfl

/-- A write into a map is invisible. -/
theorem blind_writeMap {s t : State} (hh : Blind s.heap t.heap) (i : Nat) (p : Fin 3) (y x : Int) (v : ℝ) :
    Blind (editStep s (.writeMap i p y x v)).heap t.heap := by
  rcases writeMap_cases s i p y x v with ⟨k, j, l, -, -, -, e⟩ | ⟨e, -⟩
  · rw [e]
    refine ⟨hh.datas, hh.headers, hh.objs, hh.default, hh.size, ?_, ?_⟩
    · intro c
      show _ = (if c = _ then (⟨_, (s.heap.stokesOf k).isList⟩ : StokesVec) else s.heap.stokes.cell c).isList
      split
      · rename_i h
        rw [h]
        exact hh.list _
      · exact hh.list c
    · intro c q
      show Like ((if c = _ then (⟨fun q => if q = p then (s.stokes k p).setPx j l v else s.stokes k q, _⟩ : StokesVec)
        else s.heap.stokes.cell c).planes q) _
      split
      · rename_i h
        rw [h]
        dsimp only
        split
        · rename_i hq
          rw [hq]
          exact hh.like _ p
        · exact hh.like _ q
      · exact hh.like c q
  · rw [e]
    exact hh

end

end Micropol
