import Verif.Model.Object

/-!
# Frame reasoning for the object model

`Triple P m Q E`: from a heap satisfying `P`, the program `m` ends normally with `Q` or with an exception and `E`.
-/

set_option autoImplicit false

namespace Micropol

open M

/-! ## Stores -/

namespace Store
variable {α : Type}

@[simp] theorem alloc_size (s : Store α) (a : α) : (s.alloc a).size = s.size + 1 := rfl
@[simp] theorem set_size (s : Store α) (i : Nat) (a : α) : (s.set i a).size = s.size := rfl
@[simp] theorem alloc_cell_self (s : Store α) (a : α) : (s.alloc a).cell s.size = a := if_pos rfl
theorem alloc_cell_of_ne (s : Store α) (a : α) {k : Nat} (h : k ≠ s.size) : (s.alloc a).cell k = s.cell k := if_neg h
theorem alloc_cell_of_lt (s : Store α) (a : α) {k : Nat} (h : k < s.size) : (s.alloc a).cell k = s.cell k :=
  if_neg (Nat.ne_of_lt h)
@[simp] theorem set_cell_self (s : Store α) (i : Nat) (a : α) : (s.set i a).cell i = a := if_pos rfl
theorem set_cell_of_ne (s : Store α) {i k : Nat} (a : α) (h : k ≠ i) : (s.set i a).cell k = s.cell k := if_neg h

end Store

/-! ## Triples -/

def Triple {α : Type} (P : Heap → Prop) (m : M α) (Q : α → Heap → Prop) (E : Heap → Prop) : Prop :=
  ∀ h, P h → (∀ a, (m h).1 = .ok a → Q a (m h).2) ∧ (∀ e, (m h).1 = .error e → E (m h).2)

section
variable {α β : Type} {P P' : Heap → Prop} {Q Q' : α → Heap → Prop} {R : β → Heap → Prop} {E E' : Heap → Prop}

theorem Triple.bind {m : M α} {f : α → M β} (hm : Triple P m Q E) (hf : ∀ a, Triple (Q a) (f a) R E) :
    Triple P (m >>= f) R E := by
  intro h hP
  have key : (m >>= f) h = match m h with | (.ok a, h1) => f a h1 | (.error e, h1) => (.error e, h1) := rfl
  obtain ⟨h1, h2⟩ := hm h hP
  rw [key]
  cases hmh : m h with
  | mk r hh =>
    rw [hmh] at h1 h2
    cases r with
    | ok a =>
      exact hf a hh (h1 a rfl)
    | error e =>
      exact ⟨fun a ha => (by cases ha), fun _ _ => h2 e rfl⟩

theorem Triple.conseq {m : M α} (hm : Triple P m Q E) (hP : ∀ h, P' h → P h) (hQ : ∀ a h, Q a h → Q' a h)
    (hE : ∀ h, E h → E' h) : Triple P' m Q' E' := by
  intro h hp
  obtain ⟨h1, h2⟩ := hm h (hP h hp)
  exact ⟨fun a ha => hQ a _ (h1 a ha), fun e he => hE _ (h2 e he)⟩

theorem Triple.read {f : Heap → α} : Triple P (M.read f) (fun a h => a = f h ∧ P h) E := by
  intro h hP
  refine ⟨fun a ha => ?_, fun e he => by cases he⟩
  cases ha
  exact ⟨rfl, hP⟩

theorem Triple.lift {x : Py α} (hE : ∀ h, P h → E h) : Triple P (M.lift x) (fun a h => x = .ok a ∧ P h) E := by
  intro h hP
  exact ⟨fun a ha => ⟨ha, hP⟩, fun e _ => hE h hP⟩

theorem Triple.modify {g : Heap → Heap} {Q : Unit → Heap → Prop} (hg : ∀ h, P h → Q () (g h)) :
    Triple P (M.modify g) Q E := by
  intro h hP
  exact ⟨fun _ _ => hg h hP, fun e he => by cases he⟩

theorem Triple.pure {a : α} (hQ : ∀ h, P h → Q a h) : Triple P (Pure.pure a : M α) Q E := by
  intro h hP
  refine ⟨fun b hb => ?_, fun e he => by cases he⟩
  cases hb
  exact hQ h hP

/-- Reading and then raising or going on. -/
theorem Triple.readLift {f : Heap → Py α} (hE : ∀ h, P h → E h) {k : α → M β}
    (hk : ∀ a, Triple (fun h => (∃ h1, f h1 = .ok a ∧ P h1) ∧ P h) (k a) R E) :
    Triple P (M.read f >>= fun x => M.lift x >>= k) R E := by
  refine Triple.bind Triple.read (fun x => ?_)
  refine Triple.bind (Triple.lift (fun h hh => hE h hh.2)) (fun a => ?_)
  refine (hk a).conseq ?_ (fun _ _ q => q) (fun _ e => e)
  rintro h ⟨h1, h2, h3⟩
  exact ⟨⟨h, h2 ▸ h1, h3⟩, h3⟩

end

/-- The invariant `P` is preserved, whether or not an exception is raised. -/
def Pres {α : Type} (P : Heap → Prop) (m : M α) : Prop := Triple P m (fun _ => P) P

section
variable {α β : Type} {P : Heap → Prop}

theorem Pres.bind {m : M α} {f : α → M β} (hm : Pres P m) (hf : ∀ a, Pres P (f a)) : Pres P (m >>= f) :=
  Triple.bind hm hf

theorem Pres.read {f : Heap → α} : Pres P (M.read f) :=
  Triple.conseq Triple.read (fun _ h => h) (fun _ _ h => h.2) (fun _ h => h)

theorem Pres.lift {x : Py α} : Pres P (M.lift x) :=
  Triple.conseq (Triple.lift (fun _ h => h)) (fun _ h => h) (fun _ _ h => h.2) (fun _ h => h)

theorem Pres.pure {a : α} : Pres P (Pure.pure a : M α) := Triple.pure (fun _ h => h)

theorem Pres.modify {g : Heap → Heap} (hg : ∀ h, P h → P (g h)) : Pres P (M.modify g) := Triple.modify hg

end

/-! ## Frames -/

/-- Every attribute of every object refers to something that exists. -/
def WF (h : Heap) : Prop :=
  ∀ k, k < h.objs.size → (h.objs.cell k).data < h.datas.size ∧ (h.objs.cell k).stokes < h.stokes.size ∧
    (h.objs.cell k).header < h.headers.size

/-- What a program may have changed since `h`: objects in `W`, Stokes vectors in `S`, headers in `H`; no pixel array and
no angle dictionary. -/
structure Frame (W S H : Nat → Prop) (h h' : Heap) : Prop where
  dataSize : h.datas.size ≤ h'.datas.size
  data : ∀ k, k < h.datas.size → h'.datas.cell k = h.datas.cell k
  stokesSize : h.stokes.size ≤ h'.stokes.size
  stokes : ∀ k, k < h.stokes.size → ¬ S k → h'.stokes.cell k = h.stokes.cell k
  headerSize : h.headers.size ≤ h'.headers.size
  header : ∀ k, k < h.headers.size → ¬ H k → h'.headers.cell k = h.headers.cell k
  objSize : h.objs.size ≤ h'.objs.size
  obj : ∀ k, k < h.objs.size → ¬ W k → h'.objs.cell k = h.objs.cell k
  dic : ∀ k, k < h.objs.size → (h'.objs.cell k).dic = (h.objs.cell k).dic
  hdr : ∀ k, k < h.objs.size → (h'.objs.cell k).header = (h.objs.cell k).header

theorem Frame.refl {W S H : Nat → Prop} (h : Heap) : Frame W S H h h :=
  ⟨le_rfl, fun _ _ => rfl, le_rfl, fun _ _ _ => rfl, le_rfl, fun _ _ _ => rfl, le_rfl, fun _ _ _ => rfl, fun _ _ => rfl,
    fun _ _ => rfl⟩

/-- Frame from a fixed heap, with well-formedness now. -/
def FW (W S H : Nat → Prop) (h0 h : Heap) : Prop := Frame W S H h0 h ∧ WF h

section
variable {W S H : Nat → Prop} {h0 : Heap}

theorem FW.modifyObj {h : Heap} {n : Nat} {f : ImgObj → ImgObj} (hf : FW W S H h0 h) (hn : n < h.objs.size)
    (hW : n < h0.objs.size → W n ∧ (f (h.objs.cell n)).dic = (h.objs.cell n).dic ∧
      (f (h.objs.cell n)).header = (h.objs.cell n).header)
    (hr : (f (h.objs.cell n)).data < h.datas.size ∧ (f (h.objs.cell n)).stokes < h.stokes.size ∧
      (f (h.objs.cell n)).header < h.headers.size) : FW W S H h0 (h.modifyObj n f) := by
  obtain ⟨fr, wf⟩ := hf
  refine ⟨⟨fr.dataSize, fr.data, fr.stokesSize, fr.stokes, fr.headerSize, fr.header, fr.objSize, ?_, ?_, ?_⟩, ?_⟩
  · intro k hk hWk
    have : k ≠ n := by rintro rfl; exact hWk (hW hk).1
    show ((h.objs.set n _).cell k) = _
    rw [Store.set_cell_of_ne _ _ this]
    exact fr.obj k hk hWk
  · intro k hk
    show ((h.objs.set n _).cell k).dic = _
    by_cases hkn : k = n
    · subst hkn
      rw [Store.set_cell_self, (hW hk).2.1]
      exact fr.dic k hk
    · rw [Store.set_cell_of_ne _ _ hkn]
      exact fr.dic k hk
  · intro k hk
    show ((h.objs.set n _).cell k).header = _
    by_cases hkn : k = n
    · subst hkn
      rw [Store.set_cell_self, (hW hk).2.2]
      exact fr.hdr k hk
    · rw [Store.set_cell_of_ne _ _ hkn]
      exact fr.hdr k hk
  · intro k hk
    show ((h.objs.set n _).cell k).data < _ ∧ ((h.objs.set n _).cell k).stokes < _ ∧ ((h.objs.set n _).cell k).header < _
    by_cases hkn : k = n
    · subst hkn
      rw [Store.set_cell_self]
      exact hr
    · rw [Store.set_cell_of_ne _ _ hkn]
      exact wf k hk

theorem FW.allocData {h : Heap} (hf : FW W S H h0 h) (d : Img ℝ) :
    FW W S H h0 { h with datas := h.datas.alloc d } := by
  obtain ⟨fr, wf⟩ := hf
  refine ⟨⟨?_, ?_, fr.stokesSize, fr.stokes, fr.headerSize, fr.header, fr.objSize, fr.obj, fr.dic, fr.hdr⟩, ?_⟩
  · exact fr.dataSize.trans (Nat.le_succ _)
  · intro k hk
    show (h.datas.alloc d).cell k = _
    rw [Store.alloc_cell_of_lt _ _ (lt_of_lt_of_le hk fr.dataSize)]
    exact fr.data k hk
  · intro k hk
    obtain ⟨a, b, c⟩ := wf k hk
    exact ⟨Nat.lt_succ_of_lt a, b, c⟩

theorem FW.allocStokes {h : Heap} (hf : FW W S H h0 h) (s : StokesVec) :
    FW W S H h0 { h with stokes := h.stokes.alloc s } := by
  obtain ⟨fr, wf⟩ := hf
  refine ⟨⟨fr.dataSize, fr.data, ?_, ?_, fr.headerSize, fr.header, fr.objSize, fr.obj, fr.dic, fr.hdr⟩, ?_⟩
  · exact fr.stokesSize.trans (Nat.le_succ _)
  · intro k hk hS
    show (h.stokes.alloc s).cell k = _
    rw [Store.alloc_cell_of_lt _ _ (lt_of_lt_of_le hk fr.stokesSize)]
    exact fr.stokes k hk hS
  · intro k hk
    obtain ⟨a, b, c⟩ := wf k hk
    exact ⟨a, Nat.lt_succ_of_lt b, c⟩

theorem FW.allocHeader {h : Heap} (hf : FW W S H h0 h) (s : Header) :
    FW W S H h0 { h with headers := h.headers.alloc s } := by
  obtain ⟨fr, wf⟩ := hf
  refine ⟨⟨fr.dataSize, fr.data, fr.stokesSize, fr.stokes, ?_, ?_, fr.objSize, fr.obj, fr.dic, fr.hdr⟩, ?_⟩
  · exact fr.headerSize.trans (Nat.le_succ _)
  · intro k hk hS
    show (h.headers.alloc s).cell k = _
    rw [Store.alloc_cell_of_lt _ _ (lt_of_lt_of_le hk fr.headerSize)]
    exact fr.header k hk hS
  · intro k hk
    obtain ⟨a, b, c⟩ := wf k hk
    exact ⟨a, b, Nat.lt_succ_of_lt c⟩

theorem FW.allocObj {h : Heap} (hf : FW W S H h0 h) (o : ImgObj) (ho : o.data < h.datas.size ∧
    o.stokes < h.stokes.size ∧ o.header < h.headers.size) : FW W S H h0 { h with objs := h.objs.alloc o } := by
  obtain ⟨fr, wf⟩ := hf
  refine ⟨⟨fr.dataSize, fr.data, fr.stokesSize, fr.stokes, fr.headerSize, fr.header, ?_, ?_, ?_, ?_⟩, ?_⟩
  · exact fr.objSize.trans (Nat.le_succ _)
  · intro k hk hS
    show (h.objs.alloc o).cell k = _
    rw [Store.alloc_cell_of_lt _ _ (lt_of_lt_of_le hk fr.objSize)]
    exact fr.obj k hk hS
  · intro k hk
    show ((h.objs.alloc o).cell k).dic = _
    rw [Store.alloc_cell_of_lt _ _ (lt_of_lt_of_le hk fr.objSize)]
    exact fr.dic k hk
  · intro k hk
    show ((h.objs.alloc o).cell k).header = _
    rw [Store.alloc_cell_of_lt _ _ (lt_of_lt_of_le hk fr.objSize)]
    exact fr.hdr k hk
  · intro k hk
    show ((h.objs.alloc o).cell k).data < _ ∧ ((h.objs.alloc o).cell k).stokes < _ ∧
      ((h.objs.alloc o).cell k).header < _
    rcases Nat.lt_succ_iff_lt_or_eq.mp hk with hk | rfl
    · rw [Store.alloc_cell_of_lt _ _ hk]
      exact wf k hk
    · rw [Store.alloc_cell_self]
      exact ho

theorem FW.setStokesCell {h : Heap} (hf : FW W S H h0 h) (c : Nat) (s : StokesVec) (hS : c < h0.stokes.size → S c) :
    FW W S H h0 { h with stokes := h.stokes.set c s } := by
  obtain ⟨fr, wf⟩ := hf
  refine ⟨⟨fr.dataSize, fr.data, fr.stokesSize, ?_, fr.headerSize, fr.header, fr.objSize, fr.obj, fr.dic, fr.hdr⟩, wf⟩
  intro k hk hSk
  show (h.stokes.set c s).cell k = _
  rw [Store.set_cell_of_ne _ _ (by rintro rfl; exact hSk (hS hk))]
  exact fr.stokes k hk hSk

theorem FW.setHeaderCell {h : Heap} (hf : FW W S H h0 h) (c : Nat) (s : Header) (hH : c < h0.headers.size → H c) :
    FW W S H h0 { h with headers := h.headers.set c s } := by
  obtain ⟨fr, wf⟩ := hf
  refine ⟨⟨fr.dataSize, fr.data, fr.stokesSize, fr.stokes, fr.headerSize, ?_, fr.objSize, fr.obj, fr.dic, fr.hdr⟩, wf⟩
  intro k hk hSk
  show (h.headers.set c s).cell k = _
  rw [Store.set_cell_of_ne _ _ (by rintro rfl; exact hSk (hH hk))]
  exact fr.header k hk hSk

theorem FW.setDefault {h : Heap} (hf : FW W S H h0 h) (d : Option AngleDic) : FW W S H h0 { h with defaultDic := d } := by
  obtain ⟨fr, wf⟩ := hf
  exact ⟨⟨fr.dataSize, fr.data, fr.stokesSize, fr.stokes, fr.headerSize, fr.header, fr.objSize, fr.obj, fr.dic, fr.hdr⟩, wf⟩

theorem FW.setData {h : Heap} {n : Nat} (d : Img ℝ) (hf : FW W S H h0 h) (hn : n < h.objs.size)
    (hW : n < h0.objs.size → W n) (hH : (h.objs.cell n).header < h0.headers.size → H (h.objs.cell n).header) :
    FW W S H h0 (h.setData n d) := by
  have wf := hf.2 n hn
  have h1 := (hf.allocData d).modifyObj (n := n) (f := fun o => { o with data := h.datas.size }) hn
    (fun hk => ⟨hW hk, rfl, rfl⟩) ⟨Nat.lt_succ_self _, wf.2.1, wf.2.2⟩
  exact h1.setHeaderCell _ _ hH

theorem FW.setStokes {h : Heap} {n : Nat} (s : StokesVec) (hf : FW W S H h0 h) (hn : n < h.objs.size)
    (hW : n < h0.objs.size → W n) : FW W S H h0 (h.setStokes n s) := by
  have wf := hf.2 n hn
  exact (hf.allocStokes s).modifyObj (n := n) (f := fun o => { o with stokes := h.stokes.size }) hn
    (fun hk => ⟨hW hk, rfl, rfl⟩) ⟨wf.1, Nat.lt_succ_self _, wf.2.2⟩

/-- Frame together with one object that may be written: it exists and its header is known. -/
def FWn (W S H : Nat → Prop) (h0 : Heap) (n hd : Nat) (h : Heap) : Prop :=
  FW W S H h0 h ∧ n < h.objs.size ∧ (h.objs.cell n).header = hd

theorem FWn.setData {h : Heap} {n hd : Nat} (d : Img ℝ) (hf : FWn W S H h0 n hd h)
    (hW : n < h0.objs.size → W n) (hH : hd < h0.headers.size → H hd) : FWn W S H h0 n hd (h.setData n d) := by
  refine ⟨hf.1.setData d hf.2.1 hW (by rw [hf.2.2]; exact hH), hf.2.1, ?_⟩
  show ((h.objs.set n _).cell n).header = hd
  rw [Store.set_cell_self]
  exact hf.2.2

theorem FWn.setStokes {h : Heap} {n hd : Nat} (s : StokesVec) (hf : FWn W S H h0 n hd h)
    (hW : n < h0.objs.size → W n) : FWn W S H h0 n hd (h.setStokes n s) := by
  refine ⟨hf.1.setStokes s hf.2.1 hW, hf.2.1, ?_⟩
  show ((h.objs.set n _).cell n).header = hd
  rw [Store.set_cell_self]
  exact hf.2.2

theorem FWn.modifyPlain {h : Heap} {n hd : Nat} {f : ImgObj → ImgObj} (hf : FWn W S H h0 n hd h)
    (hW : n < h0.objs.size → W n) (hp : ∀ o, (f o).data = o.data ∧ (f o).stokes = o.stokes ∧ (f o).header = o.header ∧
      (f o).dic = o.dic) : FWn W S H h0 n hd (h.modifyObj n f) := by
  obtain ⟨p1, p2, p3, p4⟩ := hp (h.objs.cell n)
  refine ⟨hf.1.modifyObj hf.2.1 (fun hk => ⟨hW hk, p4, p3⟩) ?_, hf.2.1, ?_⟩
  · rw [p1, p2, p3]
    exact hf.1.2 n hf.2.1
  · show ((h.objs.set n _).cell n).header = hd
    rw [Store.set_cell_self, p3]
    exact hf.2.2

/-! ## Frames of the building blocks -/

variable {n hd : Nat}

theorem pres_updateStokes (hW : n < h0.objs.size → W n) : Pres (FWn W S H h0 n hd) (updateStokes n) :=
  Pres.bind Pres.read fun _ => Pres.bind Pres.lift fun _ => Pres.modify fun _ hf => hf.setStokes _ hW

theorem pres_updateDataAndStokes (d : Img ℝ) (hW : n < h0.objs.size → W n) (hH : hd < h0.headers.size → H hd) :
    Pres (FWn W S H h0 n hd) (updateDataAndStokes n d) :=
  Pres.bind (Pres.modify fun _ hf => hf.setData d hW hH) fun _ => pres_updateStokes hW

theorem pres_subtractDark (dark : Nat) (hW : n < h0.objs.size → W n) (hH : hd < h0.headers.size → H hd) :
    Pres (FWn W S H h0 n hd) (subtractDark n dark) :=
  Pres.bind Pres.read fun _ => Pres.bind Pres.lift fun _ =>
  Pres.bind (Pres.modify fun _ hf => hf.setData _ hW hH) fun _ =>
  Pres.bind (Pres.modify fun _ hf => hf.setData _ hW hH) fun _ =>
  Pres.bind (pres_updateStokes hW) fun _ =>
  Pres.modify fun _ hf => hf.modifyPlain hW fun _ => ⟨rfl, rfl, rfl, rfl⟩

theorem pres_correctFlat (junk : Nat → Nat → ℝ) (flat : Nat) (hW : n < h0.objs.size → W n)
    (hH : hd < h0.headers.size → H hd) : Pres (FWn W S H h0 n hd) (correctFlat junk n flat) :=
  Pres.bind Pres.read fun _ => Pres.bind Pres.lift fun _ =>
  Pres.bind (Pres.modify fun _ hf => hf.setData _ hW hH) fun _ =>
  Pres.bind (pres_updateStokes hW) fun _ =>
  Pres.modify fun _ hf => hf.modifyPlain hW fun _ => ⟨rfl, rfl, rfl, rfl⟩

theorem pres_correctIfov (hW : n < h0.objs.size → W n) (hH : hd < h0.headers.size → H hd) :
    Pres (FWn W S H h0 n hd) (correctIfov n) :=
  Pres.bind Pres.read fun _ => Pres.bind Pres.lift fun _ => pres_updateDataAndStokes _ hW hH

theorem pres_demosaicObj (mode : String) (hW : n < h0.objs.size → W n) :
    Pres (FWn W S H h0 n hd) (demosaicObj n mode) :=
  Pres.bind Pres.read fun _ => Pres.bind Pres.lift fun _ =>
  Pres.bind (Pres.modify fun _ hf => hf.modifyPlain hW fun _ => ⟨rfl, rfl, rfl, rfl⟩) fun _ => pres_updateStokes hW

theorem pres_setPlane (c : Nat) (k : Fin 3) (a : Img ℝ) (hS : c < h0.stokes.size → S c) :
    Pres (FW W S H h0) (setPlane c k a) :=
  Pres.bind Pres.read fun _ => Pres.bind Pres.lift fun _ => Pres.modify fun _ hf => hf.setStokesCell _ _ hS

theorem pres_rewritePlanes (c : Nat) (f : Img ℝ → Py (Img ℝ)) (hS : c < h0.stokes.size → S c) :
    Pres (FW W S H h0) (rewritePlanes c f) :=
  Pres.bind Pres.read fun _ => Pres.bind Pres.lift fun _ => Pres.bind (pres_setPlane c 0 _ hS) fun _ =>
  Pres.bind Pres.read fun _ => Pres.bind Pres.lift fun _ => Pres.bind (pres_setPlane c 1 _ hS) fun _ =>
  Pres.bind Pres.read fun _ => Pres.bind Pres.lift fun _ => pres_setPlane c 2 _ hS

theorem pres_maskDemosaiced (y x r fill : ℝ) (hW : n < h0.objs.size → W n) :
    Pres (FWn W S H h0 n hd) (maskDemosaiced n y x r fill) := by
  refine Pres.bind Pres.read fun o => Pres.bind Pres.read fun d => ?_
  split
  · exact Pres.pure
  · exact Pres.lift
  · exact Pres.bind Pres.lift fun _ => Pres.modify fun _ hf => hf.modifyPlain hW fun _ => ⟨rfl, rfl, rfl, rfl⟩

/-- The masked object keeps its Stokes reference. -/
theorem pres_maskOcculter (st : Nat) (y x r over fill : ℝ) (hW : n < h0.objs.size → W n)
    (hH : hd < h0.headers.size → H hd) (hS : st < h0.stokes.size → S st) :
    Triple (fun h => FWn W S H h0 n hd h ∧ (h.objs.cell n).stokes = st) (maskOcculter n y x r over fill)
      (fun _ => FW W S H h0) (FW W S H h0) := by
  have hE : ∀ h, (FWn W S H h0 n hd h ∧ (h.objs.cell n).stokes = st) → FW W S H h0 h := fun h hh => hh.1.1
  refine Triple.readLift hE fun d => ?_
  refine Triple.bind (Q := fun _ h => FWn W S H h0 n hd h ∧ (h.objs.cell n).stokes = st) (Triple.modify ?_) fun _ => ?_
  · rintro h ⟨-, hf, hst⟩
    refine ⟨hf.setData d hW hH, ?_⟩
    show ((h.objs.set n _).cell n).stokes = st
    rw [Store.set_cell_self]
    exact hst
  refine Triple.bind (Q := fun _ h => FWn W S H h0 n hd h ∧ (h.objs.cell n).stokes = st) ?_ fun _ => ?_
  · refine Triple.bind Triple.read fun o => Triple.bind Triple.read fun d' => ?_
    split
    · exact Triple.pure fun h hh => hh.2.2
    · exact Triple.conseq (Triple.lift fun h hh => hE h hh) (fun h hh => hh.2.2) (fun _ h hh => hh.2) (fun _ hh => hh)
    · refine Triple.bind (Triple.lift fun h hh => hE h hh.2.2) fun s => Triple.modify ?_
      rintro h ⟨-, -, -, hf, hst⟩
      refine ⟨hf.modifyPlain hW fun _ => ⟨rfl, rfl, rfl, rfl⟩, ?_⟩
      show ((h.objs.set n _).cell n).stokes = st
      rw [Store.set_cell_self]
      exact hst
  refine Triple.bind Triple.read fun o => ?_
  have hpre : ∀ f : Img ℝ → Py (Img ℝ), Triple (fun h => o = h.objs.cell n ∧ FWn W S H h0 n hd h ∧
      (h.objs.cell n).stokes = st) (rewritePlanes o.stokes f) (fun _ => FW W S H h0) (FW W S H h0) := by
    intro f h hh
    obtain ⟨ho, hf, hst⟩ := hh
    have hs : o.stokes < h0.stokes.size → S o.stokes := by rw [ho, hst]; exact hS
    exact pres_rewritePlanes o.stokes f hs h hf.1
  split
  · exact hpre _
  · exact hpre _

theorem pres_resolveDic (dic : Option AngleDic) : Pres (FW W S H h0) (resolveDic dic) := by
  intro h hf
  unfold resolveDic
  split
  · exact ⟨fun _ _ => hf, fun _ _ => hf⟩
  · split
    · exact ⟨fun _ _ => hf, fun _ _ => hf⟩
    · exact ⟨fun _ _ => hf.setDefault _, fun _ _ => hf.setDefault _⟩

/-- A copy is a new object sharing everything with its source. -/
theorem triple_newFromImage {i : Nat} (dic : Option AngleDic) (hi : i < h0.objs.size) :
    Triple (FW W S H h0) (newFromImage i dic)
      (fun n h => FWn W S H h0 n (h.objs.cell i).header h ∧ h0.objs.size ≤ n ∧ h.objs.cell n = h.objs.cell i)
      (FW W S H h0) := by
  refine Triple.bind (pres_resolveDic dic) fun _ => ?_
  refine Triple.bind Triple.read fun n => ?_
  refine Triple.bind (Q := fun _ h => FWn W S H h0 n (h.objs.cell i).header h ∧ h0.objs.size ≤ n ∧
    h.objs.cell n = h.objs.cell i) (Triple.modify ?_) fun _ => Triple.pure fun h hh => hh
  rintro h ⟨rfl, hf⟩
  have hi' : i < h.objs.size := lt_of_lt_of_le hi hf.1.objSize
  refine ⟨⟨hf.allocObj _ (hf.2 i hi'), Nat.lt_succ_self _, ?_⟩, hf.1.objSize, ?_⟩
  · show ((h.objs.alloc _).cell h.objs.size).header = ((h.objs.alloc _).cell i).header
    rw [Store.alloc_cell_self, Store.alloc_cell_of_lt _ _ hi']
  · show ((h.objs.alloc _).cell h.objs.size) = ((h.objs.alloc _).cell i)
    rw [Store.alloc_cell_self, Store.alloc_cell_of_lt _ _ hi']

/-- A constructed image shares nothing. -/
theorem triple_newFromArray (d : Img ℝ) (dic : Option AngleDic) :
    Triple (FW W S H h0) (newFromArray d dic)
      (fun n h => FWn W S H h0 n (h.objs.cell n).header h ∧ h0.objs.size ≤ n ∧ h0.headers.size ≤ (h.objs.cell n).header)
      (FW W S H h0) := by
  refine Triple.bind (pres_resolveDic dic) fun dc => ?_
  refine Triple.bind (Triple.lift fun _ h => h) fun s => ?_
  refine Triple.bind Triple.read fun n => ?_
  refine Triple.bind (Q := fun _ h => FWn W S H h0 n (h.objs.cell n).header h ∧ h0.objs.size ≤ n ∧
    h0.headers.size ≤ (h.objs.cell n).header) (Triple.modify ?_) fun _ => Triple.pure fun h hh => hh
  rintro h ⟨rfl, -, hf⟩
  have h1 := ((hf.allocData d).allocStokes ⟨s, false⟩).allocHeader ⟨d.w, d.h⟩
  refine ⟨⟨h1.allocObj _ ⟨Nat.lt_succ_self _, Nat.lt_succ_self _, Nat.lt_succ_self _⟩, Nat.lt_succ_self _, rfl⟩,
    hf.1.objSize, ?_⟩
  show h0.headers.size ≤ ((h.objs.alloc _).cell h.objs.size).header
  rw [Store.alloc_cell_self]
  exact hf.1.headerSize

end

end Micropol
