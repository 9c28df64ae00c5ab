import Verif.Spec.EditDemosaiced
import Verif.Lemmas.Edit

/-! # Which images hold which list of demosaiced images -/

set_option autoImplicit false
set_option linter.unusedSectionVars false
set_option linter.unusedVariables false

namespace Micropol

noncomputable section

open Classical

/-- What an object says about its demosaiced images. -/
abbrev Mark : Type := Nat × Option (Fin 4 → Img ℝ) × Bool

def ImgObj.mark (o : ImgObj) : Mark := (o.demosaicedList, o.demosaicedImages, o.isDemosaiced)

/-- A list no object of `h0` but `k` holds. -/
def NewMark (h0 : Heap) (k : Nat) (m : Mark) : Prop :=
  m.2.2 = true ∧ (∃ d, m.2.1 = some d) ∧ m.1 ≠ 0 ∧ ∀ j, j < h0.objs.size → j ≠ k → m.1 ≠ (h0.objs.cell j).demosaicedList

/-- The objects are those of `h0`, but for `k`, and what that says satisfies `A`. -/
def DemP (h0 : Heap) (A : Mark → Prop) (k : Nat) (h : Heap) : Prop :=
  (h.objs.size = h0.objs.size ∧ ∀ j, j ≠ k → h.objs.cell j = h0.objs.cell j) ∧ A (h.objs.cell k).mark

section
variable {h0 h : Heap} {A : Mark → Prop} {k : Nat}

theorem DemP.mono {B : Mark → Prop} (hd : DemP h0 A k h) (hAB : ∀ m, A m → B m) : DemP h0 B k h := ⟨hd.1, hAB _ hd.2⟩

theorem DemP.modifyObj (hd : DemP h0 A k h) {f : ImgObj → ImgObj} (hf : ∀ o, (f o).mark = o.mark) : DemP h0 A k (h.modifyObj k f) := by
  refine ⟨⟨hd.1.1, fun j hj => ?_⟩, ?_⟩
  · show (h.objs.set k _).cell j = _
    rw [Store.set_cell_of_ne _ _ hj]
    exact hd.1.2 j hj
  · show A ((h.objs.set k _).cell k).mark
    rw [Store.set_cell_self, hf]
    exact hd.2

theorem DemP.setData (hd : DemP h0 A k h) (d : Img ℝ) : DemP h0 A k (h.setData k d) :=
  hd.modifyObj (f := fun o => { o with data := h.datas.size }) fun _ => rfl

theorem DemP.setStokes (hd : DemP h0 A k h) (d : StokesVec) : DemP h0 A k (h.setStokes k d) :=
  hd.modifyObj (f := fun o => { o with stokes := h.stokes.size }) fun _ => rfl

theorem list_lt_fresh (h : Heap) {j : Nat} (hj : j < h.objs.size) : (h.objs.cell j).demosaicedList < h.freshList := by
  have key : ∀ (l : List Nat) (a : Nat), a ∈ l → a ≤ l.foldr max 0 := by
    intro l
    induction l with
    | nil => intro a ha; cases ha
    | cons b l ih =>
      intro a ha
      rcases List.mem_cons.1 ha with e | ha
      · rw [e]; exact le_max_left _ _
      · exact (ih a ha).trans (le_max_right _ _)
  exact Nat.lt_succ_of_le (key _ _ (List.mem_map.2 ⟨j, List.mem_range.2 hj, rfl⟩))

theorem DemP.renew (hd : DemP h0 A k h) (s : Fin 4 → Img ℝ) : DemP h0 (NewMark h0 k) k (h.modifyObj k fun o =>
    { o with demosaicedImages := some s, isDemosaiced := true, demosaicedList := h.freshList }) := by
  refine ⟨⟨hd.1.1, fun j hj => ?_⟩, ?_⟩
  · show (h.objs.set k _).cell j = _
    rw [Store.set_cell_of_ne _ _ hj]
    exact hd.1.2 j hj
  · show NewMark h0 k ((h.objs.set k _).cell k).mark
    rw [Store.set_cell_self]
    refine ⟨rfl, ⟨s, rfl⟩, Nat.succ_ne_zero _, fun j hj hjk => ?_⟩
    rw [← hd.1.2 j hjk]
    exact Nat.ne_of_gt (list_lt_fresh h (by rw [hd.1.1]; exact hj))

theorem DemP.renew' (hd : DemP h0 A k h) (ht : (h.objs.cell k).isDemosaiced = true) (s : Fin 4 → Img ℝ) :
    DemP h0 (NewMark h0 k) k (h.modifyObj k fun o => { o with demosaicedImages := some s, demosaicedList := h.freshList }) := by
  have := hd.renew s
  unfold Heap.modifyObj at this ⊢
  dsimp only at this ⊢
  rw [show ({ h.objs.cell k with demosaicedImages := some s, demosaicedList := h.freshList } : ImgObj) =
    { h.objs.cell k with demosaicedImages := some s, isDemosaiced := true, demosaicedList := h.freshList } by rw [← ht]]
  exact this

/-! ## In place -/

theorem dem_updateStokes : Pres (DemP h0 A k) (updateStokes k) :=
  Pres.bind Pres.read fun _ => Pres.bind Pres.lift fun _ => Pres.modify fun _ hf => hf.setStokes _

theorem dem_update (d : Img ℝ) : Pres (DemP h0 A k) (updateDataAndStokes k d) :=
  Pres.bind (Pres.modify fun _ hf => hf.setData _) fun _ => dem_updateStokes

theorem dem_subtractDark (dark : Nat) : Pres (DemP h0 A k) (subtractDark k dark) :=
  Pres.bind Pres.read fun _ => Pres.bind Pres.lift fun _ =>
  Pres.bind (Pres.modify fun _ hf => hf.setData _) fun _ =>
  Pres.bind (Pres.modify fun _ hf => hf.setData _) fun _ =>
  Pres.bind dem_updateStokes fun _ => Pres.modify fun _ hf => hf.modifyObj fun _ => rfl

theorem dem_correctFlat (junk : Nat → Nat → ℝ) (flat : Nat) : Pres (DemP h0 A k) (correctFlat junk k flat) :=
  Pres.bind Pres.read fun _ => Pres.bind Pres.lift fun _ =>
  Pres.bind (Pres.modify fun _ hf => hf.setData _) fun _ =>
  Pres.bind dem_updateStokes fun _ => Pres.modify fun _ hf => hf.modifyObj fun _ => rfl

theorem dem_correctIfov : Pres (DemP h0 A k) (correctIfov k) :=
  Pres.bind Pres.read fun _ => Pres.bind Pres.lift fun _ => dem_update _

theorem dem_corrections (junk : Nat → Nat → ℝ) (dark flat : Option Nat) :
    Pres (DemP h0 A k) (applyCorrections junk k dark flat) := by
  unfold applyCorrections
  split
  · exact Pres.pure
  · exact dem_subtractDark _
  · exact dem_correctFlat junk _
  · exact Pres.bind (dem_subtractDark _) fun _ => dem_correctFlat junk _

theorem gives_demosaic (mode : String) :
    Triple (DemP h0 A k) (demosaicObj k mode) (fun _ => DemP h0 (NewMark h0 k) k) (fun _ => True) :=
  Triple.bind (weaken Pres.read) fun _ => Triple.bind (weaken Pres.lift) fun s =>
    Triple.bind (Q := fun _ => DemP h0 (NewMark h0 k) k) (Triple.modify fun _ hf => hf.renew s) fun _ => weaken dem_updateStokes

theorem dem_demosaic (hA : ∀ m, NewMark h0 k m → A m) (mode : String) : Pres (DemP h0 A k) (demosaicObj k mode) :=
  Pres.bind Pres.read fun _ => Pres.bind Pres.lift fun s =>
    Pres.bind (Pres.modify fun _ hf => (hf.renew s).mono hA) fun _ => dem_updateStokes

theorem dem_setPlane (c : Nat) (p : Fin 3) (a : Img ℝ) : Pres (DemP h0 A k) (setPlane c p a) :=
  Pres.bind Pres.read fun _ => Pres.bind Pres.lift fun _ => Pres.modify fun _ hf => hf

theorem dem_rewritePlanes (c : Nat) (f : Img ℝ → Py (Img ℝ)) : Pres (DemP h0 A k) (rewritePlanes c f) :=
  Pres.bind Pres.read fun _ => Pres.bind Pres.lift fun _ => Pres.bind (dem_setPlane c 0 _) fun _ =>
  Pres.bind Pres.read fun _ => Pres.bind Pres.lift fun _ => Pres.bind (dem_setPlane c 1 _) fun _ =>
  Pres.bind Pres.read fun _ => Pres.bind Pres.lift fun _ => dem_setPlane c 2 _

/-- The three outcomes of masking the demosaiced images. -/
theorem maskDem_run (y x r fill : ℝ) (h : Heap) :
    ((h.objs.cell k).isDemosaiced = false ∧ maskDemosaiced k y x r fill h = (.ok (), h)) ∨
    (∃ e, maskDemosaiced k y x r fill h = (.error e, h)) ∨
    ((h.objs.cell k).isDemosaiced = true ∧ ∃ s, maskDemosaiced k y x r fill h =
      (.ok (), h.modifyObj k fun o => { o with demosaicedImages := some s, demosaicedList := h.freshList })) := by
  unfold maskDemosaiced
  rw [run_read, run_read]
  cases ha : (h.objs.cell k).isDemosaiced with
  | false => exact Or.inl ⟨rfl, rfl⟩
  | true =>
    cases hb : (h.objs.cell k).demosaicedImages with
    | none => exact Or.inr (Or.inl ⟨_, rfl⟩)
    | some s =>
      dsimp only
      generalize mapFour _ s = z
      cases z with
      | error e => exact Or.inr (Or.inl ⟨e, rfl⟩)
      | ok s' => exact Or.inr (Or.inr ⟨rfl, s', rfl⟩)

theorem dem_maskDemosaiced (hA : ∀ m, NewMark h0 k m → A m) (y x r fill : ℝ) :
    Pres (DemP h0 A k) (maskDemosaiced k y x r fill) := by
  intro h hd
  rcases maskDem_run (k := k) y x r fill h with ⟨-, e⟩ | ⟨z, e⟩ | ⟨ht, s, e⟩
  · rw [e]; exact ⟨fun _ _ => hd, fun _ _ => hd⟩
  · rw [e]; exact ⟨fun _ _ => hd, fun _ _ => hd⟩
  · rw [e]; exact ⟨fun _ _ => (hd.renew' ht s).mono hA, fun _ _ => (hd.renew' ht s).mono hA⟩

theorem dem_maskTail (y x r fill : ℝ) : Pres (DemP h0 A k) (M.read (fun h => h.objs.cell k) >>= fun o =>
      if o.isDemosaiced then rewritePlanes o.stokes (fun A => occulterRoi A y x r fill false)
      else rewritePlanes o.stokes (fun A => occulterRoi A ((pyInt (y / 2) : ℤ) : ℝ) ((pyInt (x / 2) : ℤ) : ℝ)
        ((pyInt (r / 2) : ℤ) : ℝ) fill false)) := by
  refine Pres.bind Pres.read fun o => ?_
  split
  · exact dem_rewritePlanes _ _
  · exact dem_rewritePlanes _ _

theorem dem_mask (hA : ∀ m, NewMark h0 k m → A m) (y x r over fill : ℝ) :
    Pres (DemP h0 A k) (maskOcculter k y x r over fill) :=
  Pres.bind Pres.read fun _ => Pres.bind Pres.lift fun _ => Pres.bind (Pres.modify fun _ hf => hf.setData _) fun _ =>
    Pres.bind (dem_maskDemosaiced hA y x (r + over) fill) fun _ => dem_maskTail y x (r + over) fill

theorem gives_mask (hA : ∀ m, A m → m.2.2 = true) (y x r over fill : ℝ) :
    Triple (DemP h0 A k) (maskOcculter k y x r over fill) (fun _ => DemP h0 (NewMark h0 k) k) (fun _ => True) := by
  refine Triple.bind (weaken Pres.read) fun _ => Triple.bind (weaken Pres.lift) fun _ =>
    Triple.bind (weaken (Pres.modify fun _ hf => hf.setData _)) fun _ =>
    Triple.bind (Q := fun _ => DemP h0 (NewMark h0 k) k) ?_ fun _ => weaken (dem_maskTail y x (r + over) fill)
  intro h hd
  refine ⟨fun _ ha => ?_, fun _ _ => trivial⟩
  have ht : (h.objs.cell k).isDemosaiced = true := hA _ hd.2
  rcases maskDem_run (k := k) y x (r + over) fill h with ⟨hf, e⟩ | ⟨z, e⟩ | ⟨-, s, e⟩
  · rw [ht] at hf; cases hf
  · rw [e] at ha; cases ha
  · rw [e]; exact hd.renew' ht s

end

/-! ## New images -/

/-- `m` leaves what object `n` says about demosaiced images alone. -/
def KeepsMark {α : Type} (n : Nat) (m : M α) : Prop := ∀ (h0 : Heap) (A : Mark → Prop), Pres (DemP h0 A n) m

/-- `m` returns an object that says what `k` says. -/
def Shares (k : Nat) (R : Mark) (m : M Nat) : Prop :=
  Triple (fun h => (h.objs.cell k).mark = R) m (fun n h => (h.objs.cell n).mark = R) (fun _ => True)

theorem KeepsMark.out {α : Type} {n : Nat} {m : M α} (hm : KeepsMark n m) (h : Heap) : ((m h).2.objs.cell n).mark = (h.objs.cell n).mark :=
  (pres_out (hm h fun q => q = (h.objs.cell n).mark) (h := h) ⟨⟨rfl, fun _ _ => rfl⟩, rfl⟩).2

/-- Object `n` says `R`. -/
def Says (n : Nat) (R : Mark) (h : Heap) : Prop := (h.objs.cell n).mark = R

/-- From a heap in which `n` says `R`, `m` returns an object that says `R`. -/
abbrev Ends (n : Nat) (R : Mark) (m : M Nat) : Prop := Triple (Says n R) m (fun n h => Says n R h) (fun _ => True)

theorem Ends.pure {n : Nat} {R : Mark} : Ends n R (Pure.pure n : M Nat) := Triple.pure fun _ h => h

theorem Ends.step {n : Nat} {R : Mark} {α : Type} {m : M α} {f : α → M Nat} (hm : KeepsMark n m) (hf : ∀ a, Ends n R (f a)) :
    Ends n R (m >>= f) :=
  Triple.bind (Q := fun _ => Says n R) (fun h1 hh1 => ⟨fun _ _ => (hm.out h1).trans hh1, fun _ _ => trivial⟩) hf

theorem shares_from {k : Nat} {R : Mark} (dic : Option AngleDic) {g : Nat → M Nat} (hg : ∀ n, Ends n R (g n)) :
    Shares k R (newFromImage k dic >>= g) := by
  intro h hR
  rw [run_of_ok (newFromImage_run k dic h)]
  refine hg h.objs.size _ ?_
  show ((h.objs.alloc _).cell h.objs.size).mark = R
  rw [Store.alloc_cell_self]
  exact hR

theorem shares_read {k : Nat} {R : Mark} {α : Type} {f : Heap → Py α} {g : α → M Nat} (hg : ∀ a, Shares k R (g a)) :
    Shares k R (M.read f >>= fun x => M.lift x >>= g) := big_readLift hg

theorem KeepsMark.bind {α β : Type} {n : Nat} {m : M α} {f : α → M β} (hm : KeepsMark n m) (hf : ∀ a, KeepsMark n (f a)) :
    KeepsMark n (m >>= f) := fun h0 A => Pres.bind (hm h0 A) fun a => hf a h0 A
theorem KeepsMark.read {α : Type} {n : Nat} {f : Heap → α} : KeepsMark n (M.read f) := fun _ _ => Pres.read
theorem KeepsMark.lift {α : Type} {n : Nat} {f : Py α} : KeepsMark n (M.lift f) := fun _ _ => Pres.lift
theorem KeepsMark.flag {n : Nat} {f : Heap → ImgObj → ImgObj} (hf : ∀ h o, (f h o).mark = o.mark) :
    KeepsMark n (M.modify fun h => h.modifyObj n (f h)) := fun _ _ => Pres.modify fun h hd => hd.modifyObj (hf h)
theorem KeepsMark.setData {n : Nat} (d : Img ℝ) : KeepsMark n (M.modify fun h => h.setData n d) :=
  fun _ _ => Pres.modify fun _ hd => hd.setData d
theorem KeepsMark.setStokes {n : Nat} (d : StokesVec) : KeepsMark n (M.modify fun h => h.setStokes n d) :=
  fun _ _ => Pres.modify fun _ hd => hd.setStokes d
theorem KeepsMark.update {n : Nat} (d : Img ℝ) : KeepsMark n (updateDataAndStokes n d) := fun _ _ => dem_update d

theorem shares_derive {k : Nat} {R : Mark} (f : Heap → Py (Img ℝ)) : Shares k R (deriveObj k f) :=
  shares_read fun d => shares_from none fun _ => Ends.step (KeepsMark.update d) fun _ => Ends.pure

theorem shares_rebin {k : Nat} {R : Mark} (b : Int) : Shares k R (rebinObj k b) := by
  unfold rebinObj
  split
  · exact Triple.conseq (Triple.lift (E := fun _ => True) fun _ _ => trivial) (fun _ h => h) (fun _ _ h => by cases h.1)
      (fun _ h => h)
  · exact shares_from none fun n => Ends.step KeepsMark.read fun _ => Ends.step KeepsMark.lift fun d =>
      Ends.step (KeepsMark.update d) fun _ => Ends.pure

theorem shares_congrid {k : Nat} {R : Mark} (ny nx : Nat) : Shares k R (congridObj k ny nx) :=
  shares_read fun d => shares_from none fun n => Ends.step (KeepsMark.setData d) fun _ => Ends.step KeepsMark.read fun _ =>
    Ends.step KeepsMark.lift fun _ => Ends.step KeepsMark.lift fun _ => Ends.step KeepsMark.lift fun _ =>
    Ends.step (KeepsMark.setStokes _) fun _ => Ends.pure

theorem says_setPlane {k : Nat} {R : Mark} (c : Nat) (p : Fin 3) (a : Img ℝ) : Pres (Says k R) (setPlane c p a) :=
  Pres.bind Pres.read fun _ => Pres.bind Pres.lift fun _ => Pres.modify fun _ hf => hf

theorem says_rewritePlanes {k : Nat} {R : Mark} (c : Nat) (f : Img ℝ → Py (Img ℝ)) : Pres (Says k R) (rewritePlanes c f) :=
  Pres.bind Pres.read fun _ => Pres.bind Pres.lift fun _ => Pres.bind (says_setPlane c 0 _) fun _ =>
  Pres.bind Pres.read fun _ => Pres.bind Pres.lift fun _ => Pres.bind (says_setPlane c 1 _) fun _ =>
  Pres.bind Pres.read fun _ => Pres.bind Pres.lift fun _ => says_setPlane c 2 _

theorem shares_rotate {k : Nat} {R : Mark} (rot : Img ℝ → Py (Img ℝ)) : Shares k R (rotateObj rot k) :=
  shares_read fun d => Triple.bind (weaken (P := Says k R) Pres.read) fun c =>
    Triple.bind (weaken (P := Says k R) (says_rewritePlanes c rot)) fun _ =>
    shares_from none fun n => Ends.step (KeepsMark.setData d) fun _ =>
    Ends.step (KeepsMark.flag (f := fun _ o => { o with stokes := c }) fun _ _ => rfl) fun _ => Ends.pure

theorem shares_demodulate {k : Nat} {R : Mark} (D : Demodulator ℝ) : Shares k R (demodulateObj k D false) :=
  shares_from none fun n => Ends.step KeepsMark.read fun _ => Ends.step KeepsMark.lift fun _ =>
    Ends.step (KeepsMark.setStokes _) fun _ =>
    Ends.step (KeepsMark.flag (f := fun _ o => { o with isDemodulated := true }) fun _ _ => rfl) fun _ => Ends.pure

/-- An image made from an array has no demosaiced images. -/
theorem ends_newFromArray {P : Heap → Prop} (d : Img ℝ) (dic : Option AngleDic) :
    Triple P (newFromArray d dic) (fun n => Says n (0, none, false)) (fun _ => True) := by
  refine Triple.bind (weaken (P := fun _ => True) (fun _ _ => ⟨fun _ _ => trivial, fun _ _ => trivial⟩)
    |>.conseq (fun _ _ => trivial) (fun _ _ h => h) (fun _ h => h)) fun dc => ?_
  refine Triple.bind (weaken (P := fun _ => True) Pres.lift) fun S => ?_
  refine Triple.bind Triple.read fun n => ?_
  refine Triple.bind (Q := fun _ => Says n (0, none, false)) (Triple.modify ?_) fun _ => Triple.pure fun _ hh => hh
  rintro h ⟨rfl, -⟩
  show ((h.objs.alloc _).cell h.objs.size).mark = _
  rw [Store.alloc_cell_self]
  rfl

/-! ## Calls -/

theorem shares_exec {s : State} {o : Op} {i k : Nat} (hs : o.sharesDemosaiced = true) (hsrc : o.source = some i)
    (hk : s.images[i]? = some k) (R : Mark) :
    Triple (Says k R) (exec s.images o) (fun r h => ∀ n, r = some n → Says n R h) (fun _ => True) := by
  have recv : ∀ {β : Type} {Q : β → Heap → Prop} {f : Nat → M β}, Triple (Says k R) (f k) Q (fun _ => True) →
      Triple (Says k R) (named s.images i >>= f) Q (fun _ => True) := by
    intro β Q f hf
    refine Triple.bind (triple_named s.images i fun _ _ => trivial) fun k' => ?_
    intro h hh
    rw [hk] at hh
    obtain ⟨⟨⟩, hh⟩ := hh
    exact hf h hh
  have other : ∀ {j : Nat} {β : Type} {Q : β → Heap → Prop} {f : Nat → M β},
      (∀ j, Triple (Says k R) (f j) Q (fun _ => True)) → Triple (Says k R) (named s.images j >>= f) Q (fun _ => True) :=
    fun hf => Triple.bind (weaken Pres.lift) fun k => hf k
  have opt : ∀ {j : Option Nat} {β : Type} {Q : β → Heap → Prop} {f : Option Nat → M β},
      (∀ d, Triple (Says k R) (f d) Q (fun _ => True)) → Triple (Says k R) (namedOpt s.images j >>= f) Q (fun _ => True) := by
    intro j β Q f hf
    refine Triple.bind (Q := fun _ => Says k R) ?_ hf
    cases j with
    | none => exact Triple.pure fun h hh => hh
    | some j => exact Triple.bind (weaken Pres.lift) fun d => Triple.pure fun h hh => hh
  have ret : ∀ {mk : M Nat}, Shares k R mk → Triple (Says k R) (mk >>= fun n => (pure (some n) : M (Option Nat)))
      (fun r h => ∀ n, r = some n → Says n R h) (fun _ => True) := by
    intro mk hm
    refine Triple.bind hm fun n => Triple.pure ?_
    rintro h hh m ⟨⟩
    exact hh
  cases o with
  | fromImage i' dic dark flat junk =>
    cases hsrc
    refine recv (opt fun dk => opt fun fl => ?_)
    have := shares_from (k := k) (R := R) dic (g := fun n => applyCorrections junk n dk fl >>= fun _ => (pure n : M Nat)) fun n =>
      Ends.step (fun _ _ => dem_corrections junk dk fl) fun _ => Ends.pure
    intro h hh
    obtain ⟨h1, -⟩ := this h hh
    refine ⟨fun r hr => ?_, fun _ _ => trivial⟩
    rw [run_of_ok (newFromImage_run k dic h)] at hr h1 ⊢
    cases hx : applyCorrections junk h.objs.size dk fl { dicHeap dic h with objs := h.objs.alloc (h.objs.cell k) } with
    | mk a h2 =>
      cases a with
      | error e => rw [run_of_err hx] at hr; cases hr
      | ok u =>
        rw [run_of_ok hx] at hr h1 ⊢
        cases hr
        rintro n ⟨⟩
        exact h1 _ rfl
  | rebin i' b => cases hsrc; exact recv (ret (shares_rebin b))
  | congrid i' ny nx => cases hsrc; exact recv (ret (shares_congrid ny nx))
  | rotate i' rot => cases hsrc; exact recv (ret (shares_rotate rot))
  | demodulate i' D dem =>
    cases hsrc
    cases dem with
    | true => cases hs
    | false => exact recv (ret (shares_demodulate D))
  | shift i' y x m => cases hsrc; exact recv (ret (shares_derive _))
  | cleanHotPixels i' f med => cases hsrc; exact recv (other fun f => ret (shares_derive _))
  | arithImage op i' j junk =>
    cases hsrc
    exact recv (other fun j => ret (Triple.bind (shares_derive _) fun n =>
      Ends.step (KeepsMark.flag (f := fun h o => { o with header := (h.objs.cell k).header }) fun _ _ => rfl) fun _ => Ends.pure))
  | _ => cases hs

end

end Micropol
