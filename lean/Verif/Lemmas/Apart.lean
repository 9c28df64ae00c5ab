import Verif.Lemmas.MemoryOps

/-!
# Work on some objects leaves unrelated ones alone

`Conf Z h0 h`: since `h0` the objects of `Z` have not changed in any way, and no other object refers to their Stokes vectors and
headers.  Every call on images outside `Z` keeps this.
-/

set_option autoImplicit false
set_option linter.unusedSectionVars false

namespace Micropol

open M

noncomputable section

open Classical

structure Conf (Z : Nat → Prop) (h0 h : Heap) : Prop where
  wf : WF h
  size : h0.objs.size ≤ h.objs.size
  inside : ∀ z, Z z → z < h0.objs.size
  obj : ∀ z, Z z → h.objs.cell z = h0.objs.cell z
  data : ∀ z, Z z → h.datas.cell (h0.objs.cell z).data = h0.datas.cell (h0.objs.cell z).data
  stokes : ∀ z, Z z → h.stokes.cell (h0.objs.cell z).stokes = h0.stokes.cell (h0.objs.cell z).stokes
  header : ∀ z, Z z → h.headers.cell (h0.objs.cell z).header = h0.headers.cell (h0.objs.cell z).header
  apart : ∀ z b, Z z → ¬ Z b → b < h.objs.size →
    (h.objs.cell b).stokes ≠ (h0.objs.cell z).stokes ∧ (h.objs.cell b).header ≠ (h0.objs.cell z).header

/-- The object that is being worked on. -/
def ConfN (Z : Nat → Prop) (h0 : Heap) (n : Nat) (h : Heap) : Prop := Conf Z h0 h ∧ n < h.objs.size ∧ ¬ Z n

variable {Z : Nat → Prop} {h0 h : Heap} {n : Nat}

theorem Conf.zlt (hc : Conf Z h0 h) {z : Nat} (hz : Z z) : (h0.objs.cell z).data < h.datas.size ∧
    (h0.objs.cell z).stokes < h.stokes.size ∧ (h0.objs.cell z).header < h.headers.size := by
  have := hc.wf z (lt_of_lt_of_le (hc.inside z hz) hc.size)
  rw [hc.obj z hz] at this
  exact this

/-- Changing an object outside `Z`. -/
theorem ConfN.modifyObj (hc : ConfN Z h0 n h) {f : ImgObj → ImgObj}
    (hd : (f (h.objs.cell n)).data < h.datas.size)
    (hS : (f (h.objs.cell n)).stokes < h.stokes.size ∧ ∀ z, Z z → (f (h.objs.cell n)).stokes ≠ (h0.objs.cell z).stokes)
    (hH : (f (h.objs.cell n)).header < h.headers.size ∧ ∀ z, Z z → (f (h.objs.cell n)).header ≠ (h0.objs.cell z).header) :
    ConfN Z h0 n (h.modifyObj n f) := by
  obtain ⟨hc, hn, hz⟩ := hc
  have hne : ∀ z, Z z → z ≠ n := fun z hz' e => hz (e ▸ hz')
  refine ⟨⟨?_, hc.size, hc.inside, ?_, hc.data, hc.stokes, hc.header, ?_⟩, hn, hz⟩
  · intro k hk
    show ((h.objs.set n _).cell k).data < _ ∧ ((h.objs.set n _).cell k).stokes < _ ∧ ((h.objs.set n _).cell k).header < _
    by_cases e : k = n
    · subst e; rw [Store.set_cell_self]; exact ⟨hd, hS.1, hH.1⟩
    · rw [Store.set_cell_of_ne _ _ e]; exact hc.wf k hk
  · intro z hz'
    show (h.objs.set n _).cell z = _
    rw [Store.set_cell_of_ne _ _ (hne z hz')]
    exact hc.obj z hz'
  · intro z b hz' hb hlt
    show ((h.objs.set n _).cell b).stokes ≠ _ ∧ ((h.objs.set n _).cell b).header ≠ _
    by_cases e : b = n
    · subst e; rw [Store.set_cell_self]; exact ⟨hS.2 z hz', hH.2 z hz'⟩
    · rw [Store.set_cell_of_ne _ _ e]; exact hc.apart z b hz' hb hlt

theorem ConfN.plain (hc : ConfN Z h0 n h) {f : ImgObj → ImgObj}
    (hf : ∀ o, (f o).data = o.data ∧ (f o).stokes = o.stokes ∧ (f o).header = o.header) : ConfN Z h0 n (h.modifyObj n f) := by
  obtain ⟨e1, e2, e3⟩ := hf (h.objs.cell n)
  have w := hc.1.wf n hc.2.1
  refine hc.modifyObj (by rw [e1]; exact w.1) ⟨by rw [e2]; exact w.2.1, fun z hz => ?_⟩ ⟨by rw [e3]; exact w.2.2, fun z hz => ?_⟩
  · rw [e2]; exact (hc.1.apart z n hz hc.2.2 hc.2.1).1
  · rw [e3]; exact (hc.1.apart z n hz hc.2.2 hc.2.1).2

theorem Conf.allocData (hc : Conf Z h0 h) (d : Img ℝ) : Conf Z h0 { h with datas := h.datas.alloc d } :=
  ⟨fun k hk => ⟨(hc.wf k hk).1.trans (Nat.lt_succ_self _), (hc.wf k hk).2⟩, hc.size, hc.inside, hc.obj,
    fun z hz => (Store.alloc_cell_of_lt _ _ (hc.zlt hz).1).trans (hc.data z hz), hc.stokes, hc.header, hc.apart⟩

theorem Conf.allocStokes (hc : Conf Z h0 h) (v : StokesVec) : Conf Z h0 { h with stokes := h.stokes.alloc v } :=
  ⟨fun k hk => ⟨(hc.wf k hk).1, (hc.wf k hk).2.1.trans (Nat.lt_succ_self _), (hc.wf k hk).2.2⟩, hc.size, hc.inside, hc.obj,
    hc.data, fun z hz => (Store.alloc_cell_of_lt _ _ (hc.zlt hz).2.1).trans (hc.stokes z hz), hc.header, hc.apart⟩

theorem Conf.allocHeader (hc : Conf Z h0 h) (v : Header) : Conf Z h0 { h with headers := h.headers.alloc v } :=
  ⟨fun k hk => ⟨(hc.wf k hk).1, (hc.wf k hk).2.1, (hc.wf k hk).2.2.trans (Nat.lt_succ_self _)⟩, hc.size, hc.inside, hc.obj,
    hc.data, hc.stokes, fun z hz => (Store.alloc_cell_of_lt _ _ (hc.zlt hz).2.2).trans (hc.header z hz), hc.apart⟩

theorem Conf.setDefault (hc : Conf Z h0 h) (d : Option AngleDic) : Conf Z h0 { h with defaultDic := d } :=
  ⟨hc.wf, hc.size, hc.inside, hc.obj, hc.data, hc.stokes, hc.header, hc.apart⟩

/-- Writing a header or a Stokes vector that no object of `Z` refers to. -/
theorem Conf.setHeader (hc : Conf Z h0 h) {c : Nat} (v : Header) (hne : ∀ z, Z z → c ≠ (h0.objs.cell z).header) :
    Conf Z h0 { h with headers := h.headers.set c v } :=
  ⟨hc.wf, hc.size, hc.inside, hc.obj, hc.data, hc.stokes,
    fun z hz => (Store.set_cell_of_ne _ _ (hne z hz).symm).trans (hc.header z hz), hc.apart⟩

theorem Conf.setStokesCell (hc : Conf Z h0 h) {c : Nat} (v : StokesVec) (hne : ∀ z, Z z → c ≠ (h0.objs.cell z).stokes) :
    Conf Z h0 { h with stokes := h.stokes.set c v } :=
  ⟨hc.wf, hc.size, hc.inside, hc.obj, hc.data,
    fun z hz => (Store.set_cell_of_ne _ _ (hne z hz).symm).trans (hc.stokes z hz), hc.header, hc.apart⟩

theorem ConfN.setData (hc : ConfN Z h0 n h) (d : Img ℝ) : ConfN Z h0 n (h.setData n d) := by
  have w := hc.1.wf n hc.2.1
  have h1 : ConfN Z h0 n { h with datas := h.datas.alloc d, headers := h.headers.set (h.objs.cell n).header ⟨d.w, d.h⟩ } :=
    ⟨(hc.1.allocData d).setHeader _ fun z hz => (hc.1.apart z n hz hc.2.2 hc.2.1).2, hc.2.1, hc.2.2⟩
  exact h1.modifyObj (f := fun o => { o with data := h.datas.size }) (Nat.lt_succ_self _)
    ⟨w.2.1, fun z hz => (hc.1.apart z n hz hc.2.2 hc.2.1).1⟩ ⟨w.2.2, fun z hz => (hc.1.apart z n hz hc.2.2 hc.2.1).2⟩

theorem ConfN.setStokes (hc : ConfN Z h0 n h) (v : StokesVec) : ConfN Z h0 n (h.setStokes n v) := by
  have w := hc.1.wf n hc.2.1
  have h1 : ConfN Z h0 n { h with stokes := h.stokes.alloc v } := ⟨hc.1.allocStokes v, hc.2.1, hc.2.2⟩
  exact h1.modifyObj (f := fun o => { o with stokes := h.stokes.size }) w.1
    ⟨Nat.lt_succ_self _, fun z hz => (hc.1.zlt hz).2.1.ne'⟩ ⟨w.2.2, fun z hz => (hc.1.apart z n hz hc.2.2 hc.2.1).2⟩

/-- A new object. -/
theorem Conf.allocObj (hc : Conf Z h0 h) (o : ImgObj) (hd : o.data < h.datas.size)
    (hS : o.stokes < h.stokes.size ∧ ∀ z, Z z → o.stokes ≠ (h0.objs.cell z).stokes)
    (hH : o.header < h.headers.size ∧ ∀ z, Z z → o.header ≠ (h0.objs.cell z).header) :
    ConfN Z h0 h.objs.size { h with objs := h.objs.alloc o } := by
  have hz : ¬ Z h.objs.size := fun hz => absurd (hc.inside _ hz) (Nat.not_lt.2 hc.size)
  refine ⟨⟨?_, hc.size.trans (Nat.le_succ _), hc.inside, ?_, hc.data, hc.stokes, hc.header, ?_⟩, Nat.lt_succ_self _, hz⟩
  · intro k hk
    show ((h.objs.alloc o).cell k).data < _ ∧ ((h.objs.alloc o).cell k).stokes < _ ∧ ((h.objs.alloc o).cell k).header < _
    by_cases e : k = h.objs.size
    · subst e; rw [Store.alloc_cell_self]; exact ⟨hd, hS.1, hH.1⟩
    · rw [Store.alloc_cell_of_ne _ _ e]; exact hc.wf k (lt_of_le_of_ne (Nat.lt_succ_iff.1 hk) e)
  · intro z hz'
    show (h.objs.alloc o).cell z = _
    rw [Store.alloc_cell_of_lt _ _ (lt_of_lt_of_le (hc.inside z hz') hc.size)]
    exact hc.obj z hz'
  · intro z b hz' hb hlt
    show ((h.objs.alloc o).cell b).stokes ≠ _ ∧ ((h.objs.alloc o).cell b).header ≠ _
    by_cases e : b = h.objs.size
    · subst e; rw [Store.alloc_cell_self]; exact ⟨hS.2 z hz', hH.2 z hz'⟩
    · rw [Store.alloc_cell_of_ne _ _ e]; exact hc.apart z b hz' hb (lt_of_le_of_ne (Nat.lt_succ_iff.1 hlt) e)

/-! ## Programs -/

theorem conf_updateStokes : Pres (ConfN Z h0 n) (updateStokes n) :=
  Pres.bind Pres.read fun _ => Pres.bind Pres.lift fun _ => Pres.modify fun _ hc => hc.setStokes _

theorem conf_updateData (d : Img ℝ) : Pres (ConfN Z h0 n) (updateDataAndStokes n d) :=
  Pres.bind (Pres.modify fun _ hc => hc.setData d) fun _ => conf_updateStokes

theorem conf_subtractDark (j : Nat) : Pres (ConfN Z h0 n) (subtractDark n j) :=
  Pres.bind Pres.read fun _ => Pres.bind Pres.lift fun _ =>
  Pres.bind (Pres.modify fun _ hc => hc.setData _) fun _ =>
  Pres.bind (Pres.modify fun _ hc => hc.setData _) fun _ =>
  Pres.bind conf_updateStokes fun _ => Pres.modify fun _ hc => hc.plain fun _ => ⟨rfl, rfl, rfl⟩

theorem conf_correctFlat (junk : Nat → Nat → ℝ) (j : Nat) : Pres (ConfN Z h0 n) (correctFlat junk n j) :=
  Pres.bind Pres.read fun _ => Pres.bind Pres.lift fun _ =>
  Pres.bind (Pres.modify fun _ hc => hc.setData _) fun _ =>
  Pres.bind conf_updateStokes fun _ => Pres.modify fun _ hc => hc.plain fun _ => ⟨rfl, rfl, rfl⟩

theorem conf_correctIfov : Pres (ConfN Z h0 n) (correctIfov n) :=
  Pres.bind Pres.read fun _ => Pres.bind Pres.lift fun _ => conf_updateData _

theorem conf_demosaic (mode : String) : Pres (ConfN Z h0 n) (demosaicObj n mode) :=
  Pres.bind Pres.read fun _ => Pres.bind Pres.lift fun _ =>
  Pres.bind (Pres.modify fun _ hc => hc.plain fun _ => ⟨rfl, rfl, rfl⟩) fun _ => conf_updateStokes

theorem conf_applyCorrections (junk : Nat → Nat → ℝ) (dark flat : Option Nat) :
    Pres (ConfN Z h0 n) (applyCorrections junk n dark flat) := by
  unfold applyCorrections
  split
  · exact Pres.pure
  · exact conf_subtractDark _
  · exact conf_correctFlat junk _
  · exact Pres.bind (conf_subtractDark _) fun _ => conf_correctFlat junk _

/-- The object that is being worked on, with its Stokes vector. -/
def ConfS (Z : Nat → Prop) (h0 : Heap) (n c : Nat) (h : Heap) : Prop := ConfN Z h0 n h ∧ (h.objs.cell n).stokes = c

theorem conf_setPlane {c : Nat} (k : Fin 3) (a : Img ℝ) : Pres (ConfS Z h0 n c) (setPlane c k a) :=
  Pres.bind Pres.read fun _ => Pres.bind Pres.lift fun _ => Pres.modify fun h hc =>
    ⟨⟨hc.1.1.setStokesCell _ fun z hz => hc.2 ▸ (hc.1.1.apart z n hz hc.1.2.2 hc.1.2.1).1, hc.1.2⟩, hc.2⟩

theorem conf_rewritePlanes {c : Nat} (f : Img ℝ → Py (Img ℝ)) : Pres (ConfS Z h0 n c) (rewritePlanes c f) :=
  Pres.bind Pres.read fun _ => Pres.bind Pres.lift fun _ => Pres.bind (conf_setPlane 0 _) fun _ =>
  Pres.bind Pres.read fun _ => Pres.bind Pres.lift fun _ => Pres.bind (conf_setPlane 1 _) fun _ =>
  Pres.bind Pres.read fun _ => Pres.bind Pres.lift fun _ => conf_setPlane 2 _

theorem conf_rewriteOwn (f : Img ℝ → Py (Img ℝ)) :
    Pres (ConfN Z h0 n) (M.read (fun h => (h.objs.cell n).stokes) >>= fun c => rewritePlanes c f) := by
  intro h hc
  rw [run_read]
  obtain ⟨h1, h2⟩ := conf_rewritePlanes (Z := Z) (h0 := h0) (n := n) (c := (h.objs.cell n).stokes) f h ⟨hc, rfl⟩
  exact ⟨fun a ha => (h1 a ha).1, fun e he => (h2 e he).1⟩

theorem conf_maskDemosaiced (y x r fill : ℝ) : Pres (ConfN Z h0 n) (maskDemosaiced n y x r fill) := by
  refine Pres.bind Pres.read fun o => Pres.bind Pres.read fun d => ?_
  split
  · exact Pres.pure
  · exact Pres.lift
  · exact Pres.bind Pres.lift fun _ => Pres.modify fun _ hc => hc.plain fun _ => ⟨rfl, rfl, rfl⟩

theorem conf_maskOcculter (y x r over fill : ℝ) : Pres (ConfN Z h0 n) (maskOcculter n y x r over fill) := by
  refine Pres.bind Pres.read fun d => Pres.bind Pres.lift fun d => Pres.bind (Pres.modify fun _ hc => hc.setData d) fun _ =>
    Pres.bind (conf_maskDemosaiced y x _ fill) fun _ => ?_
  intro h hc
  rw [run_read]
  have key : ∀ f : Img ℝ → Py (Img ℝ), (∀ a, (rewritePlanes (h.objs.cell n).stokes f h).1 = .ok a →
      ConfN Z h0 n (rewritePlanes (h.objs.cell n).stokes f h).2) ∧
      (∀ e, (rewritePlanes (h.objs.cell n).stokes f h).1 = .error e → ConfN Z h0 n (rewritePlanes (h.objs.cell n).stokes f h).2) := by
    intro f
    obtain ⟨h1, h2⟩ := conf_rewritePlanes (Z := Z) (h0 := h0) (n := n) (c := (h.objs.cell n).stokes) f h ⟨hc, rfl⟩
    exact ⟨fun a ha => (h1 a ha).1, fun e he => (h2 e he).1⟩
  split
  · exact key _
  · exact key _

theorem conf_resolveDic (dic : Option AngleDic) : Pres (Conf Z h0) (resolveDic dic) := by
  intro h hf
  unfold resolveDic
  split
  · exact ⟨fun _ _ => hf, fun _ _ => hf⟩
  · split
    · exact ⟨fun _ _ => hf, fun _ _ => hf⟩
    · exact ⟨fun _ _ => hf.setDefault _, fun _ _ => hf.setDefault _⟩

/-- The object that is being worked on, with its Stokes vector: a copy has the same one. -/
theorem conf_newStokes {k c : Nat} (dic : Option AngleDic) :
    Triple (ConfS Z h0 k c) (newFromImage k dic) (fun n h => ConfS Z h0 n c h ∧ ConfN Z h0 k h) (Conf Z h0) := by
  have hres : Triple (ConfS Z h0 k c) (resolveDic dic) (fun _ => ConfS Z h0 k c) (Conf Z h0) := by
    intro h hc
    obtain ⟨h1, h2⟩ := conf_resolveDic dic h hc.1.1
    have hobj : (resolveDic dic h).2.objs = h.objs := by
      unfold resolveDic
      split
      · rfl
      · split <;> rfl
    exact ⟨fun a ha => ⟨⟨h1 a ha, by rw [hobj]; exact hc.1.2.1, hc.1.2.2⟩, by rw [hobj]; exact hc.2⟩, h2⟩
  refine Triple.bind hres fun _ => Triple.bind Triple.read fun n => ?_
  refine Triple.bind (Q := fun _ h => ConfS Z h0 n c h ∧ ConfN Z h0 k h) (Triple.modify ?_) fun _ => Triple.pure fun h hh => hh
  rintro h ⟨rfl, hc, hs⟩
  have w := hc.1.wf k hc.2.1
  have hnew := hc.1.allocObj (h.objs.cell k) w.1 ⟨w.2.1, fun z hz => (hc.1.apart z k hz hc.2.2 hc.2.1).1⟩
    ⟨w.2.2, fun z hz => (hc.1.apart z k hz hc.2.2 hc.2.1).2⟩
  refine ⟨⟨hnew, ?_⟩, ⟨hnew.1, hc.2.1.trans (Nat.lt_succ_self _), hc.2.2⟩⟩
  show ((h.objs.alloc _).cell h.objs.size).stokes = c
  rw [Store.alloc_cell_self]
  exact hs

/-- A copy of an object outside `Z`; `k` is still there. -/
theorem conf_newFromImage {k : Nat} (dic : Option AngleDic) :
    Triple (ConfN Z h0 k) (newFromImage k dic) (fun n h => ConfN Z h0 n h ∧ ConfN Z h0 k h) (Conf Z h0) := by
  intro h hc
  obtain ⟨h1, h2⟩ := conf_newStokes dic h (⟨hc, rfl⟩ : ConfS Z h0 k (h.objs.cell k).stokes h)
  exact ⟨fun a ha => ⟨(h1 a ha).1.1, (h1 a ha).2⟩, h2⟩

theorem conf_newFromArray (d : Img ℝ) (dic : Option AngleDic) :
    Triple (Conf Z h0) (newFromArray d dic) (fun n h => ConfN Z h0 n h) (Conf Z h0) := by
  refine Triple.bind (conf_resolveDic dic) fun dc => Triple.bind (Triple.lift fun _ h => h) fun s =>
    Triple.bind Triple.read fun n => ?_
  refine Triple.bind (Q := fun _ h => ConfN Z h0 n h) (Triple.modify ?_) fun _ => Triple.pure fun h hh => hh
  rintro h ⟨rfl, -, hc⟩
  have h1 := ((hc.allocData d).allocStokes ⟨s, false⟩).allocHeader ⟨d.w, d.h⟩
  exact h1.allocObj (blankObj h.datas.size h.stokes.size h.headers.size dc) (Nat.lt_succ_self _)
    ⟨Nat.lt_succ_self _, fun z hz => (hc.zlt hz).2.1.ne'⟩ ⟨Nat.lt_succ_self _, fun z hz => (hc.zlt hz).2.2.ne'⟩

/-! ## Calls -/

/-- What is known of the result of a call. -/
def ConfR (Z : Nat → Prop) (h0 : Heap) (r : Option Nat) (h : Heap) : Prop := Conf Z h0 h ∧ ∀ n, r = some n → n < h.objs.size ∧ ¬ Z n

theorem conf_ret {m : M Nat} {P : Heap → Prop} (hm : Triple P m (fun n => ConfN Z h0 n) (Conf Z h0)) :
    Triple P (m >>= fun n => (pure (some n) : M (Option Nat))) (ConfR Z h0) (Conf Z h0) :=
  Triple.bind hm fun n => Triple.pure fun h hh => ⟨hh.1, fun m hm => by cases hm; exact hh.2⟩

theorem conf_place {m : M Unit} {r : Option Nat} (hr : ∀ m, r = some m → m = n) (hm : Pres (ConfN Z h0 n) m) :
    Triple (ConfN Z h0 n) (m >>= fun _ => (pure r : M (Option Nat))) (ConfR Z h0) (Conf Z h0) :=
  Triple.bind (Triple.conseq hm (fun _ h => h) (fun _ _ h => h) (fun _ h => h.1)) fun _ => Triple.pure fun h hh =>
    ⟨hh.1, fun m hm => by rw [hr m hm]; exact hh.2⟩

/-- Work on a new copy of `k`. -/
theorem conf_copy {β : Type} {k : Nat} (dic : Option AngleDic) {f : Nat → M β} {Q : β → Heap → Prop}
    (hf : ∀ n, Triple (fun h => ConfN Z h0 n h ∧ ConfN Z h0 k h) (f n) Q (Conf Z h0)) :
    Triple (ConfN Z h0 k) (newFromImage k dic >>= f) Q (Conf Z h0) := Triple.bind (conf_newFromImage dic) hf

theorem conf_work {β : Type} {m : M β} {P : Heap → Prop} (hP : ∀ h, P h → ConfN Z h0 n h) (hm : Pres (ConfN Z h0 n) m) :
    Triple P (m >>= fun _ => (pure n : M Nat)) (fun n => ConfN Z h0 n) (Conf Z h0) :=
  Triple.bind (Triple.conseq hm hP (fun _ _ h => h) (fun _ h => h.1)) fun _ => Triple.pure fun _ hh => hh

theorem conf_derive {k : Nat} (F : Heap → Py (Img ℝ)) :
    Triple (ConfN Z h0 k) (deriveObj k F) (fun n => ConfN Z h0 n) (Conf Z h0) := by
  refine Triple.readLift (fun _ h => h.1) fun d => ?_
  refine Triple.conseq (P := ConfN Z h0 k) ?_ (fun _ h => h.2) (fun _ _ h => h) (fun _ h => h)
  exact conf_copy none fun n => conf_work (fun _ h => h.1) (conf_updateData d)

/-- Giving an object the header of another outside `Z`. -/
theorem ConfN.shareHeader {k : Nat} (hc : ConfN Z h0 n h) (hk : ConfN Z h0 k h) :
    ConfN Z h0 n (h.modifyObj n (fun o => { o with header := (h.objs.cell k).header })) := by
  have w := hc.1.wf n hc.2.1
  exact hc.modifyObj w.1 ⟨w.2.1, fun z hz => (hc.1.apart z n hz hc.2.2 hc.2.1).1⟩
    ⟨(hk.1.wf k hk.2.1).2.2, fun z hz => (hk.1.apart z k hz hk.2.2 hk.2.1).2⟩

theorem ConfN.shareStokes {c : Nat} (hc : ConfN Z h0 n h) (hk : ∃ k, ConfN Z h0 k h ∧ (h.objs.cell k).stokes = c) :
    ConfN Z h0 n (h.modifyObj n (fun o => { o with stokes := c })) := by
  obtain ⟨k, hk, rfl⟩ := hk
  have w := hc.1.wf n hc.2.1
  exact hc.modifyObj w.1 ⟨(hk.1.wf k hk.2.1).2.1, fun z hz => (hk.1.apart z k hz hk.2.2 hk.2.1).1⟩
    ⟨w.2.2, fun z hz => (hc.1.apart z n hz hc.2.2 hc.2.1).2⟩

end

end Micropol
