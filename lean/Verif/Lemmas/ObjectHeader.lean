import Verif.Lemmas.ObjectShape

/-! # Header size keywords along a history -/

set_option autoImplicit false

namespace Micropol

open M Classical

noncomputable section

/-- The size keywords of object `n` are those of its data. -/
def HdrOK (n : Nat) (h : Heap) : Prop := h.headerOf n = ⟨(h.dataOf n).w, (h.dataOf n).h⟩

theorem pres_of {α : Type} {P : Heap → Prop} {m : M α} (hm : ∀ h, P h → P (m h).2) : Pres P m :=
  fun h hP => ⟨fun _ _ => hm h hP, fun _ _ => hm h hP⟩

theorem pres_snd {α : Type} {P : Heap → Prop} {m : M α} (hm : Pres P m) {h : Heap} (hP : P h) : P (m h).2 := by
  obtain ⟨h1, h2⟩ := hm h hP
  cases hr : (m h).1 with
  | ok a => exact h1 a hr
  | error e => exact h2 e hr

/-- Establishing a property by whatever route, if no exception is raised. -/
theorem Triple.of_pres {α : Type} {P : Heap → Prop} {m : M α} (hm : Pres P m) : Triple P m (fun _ => P) (fun _ => True) :=
  Triple.conseq hm (fun _ h => h) (fun _ _ h => h) (fun _ _ => trivial)

theorem hdr_setData (n : Nat) (d : Img ℝ) (h : Heap) : HdrOK n (h.setData n d) := by
  unfold HdrOK Heap.headerOf Heap.dataOf Heap.setData Heap.modifyObj
  simp

theorem hdr_modifyObj {n : Nat} {f : ImgObj → ImgObj} (h : Heap) (hh : HdrOK n h)
    (hd : (f (h.objs.cell n)).data = (h.objs.cell n).data) (hH : (f (h.objs.cell n)).header = (h.objs.cell n).header) :
    HdrOK n (h.modifyObj n f) := by
  unfold HdrOK Heap.headerOf Heap.dataOf Heap.modifyObj at *
  dsimp only
  rw [Store.set_cell_self, hd, hH]
  exact hh

theorem hdr_setStokes {n : Nat} {s : StokesVec} (h : Heap) (hh : HdrOK n h) : HdrOK n (h.setStokes n s) :=
  hdr_modifyObj (h := { h with stokes := h.stokes.alloc s }) hh rfl rfl

theorem pres_hdr_updateStokes (n : Nat) : Pres (HdrOK n) (updateStokes n) :=
  Pres.bind Pres.read fun _ => Pres.bind Pres.lift fun _ => Pres.modify fun h hh => hdr_setStokes h hh

theorem pres_hdr_setPlane (n c : Nat) (k : Fin 3) (a : Img ℝ) : Pres (HdrOK n) (setPlane c k a) :=
  Pres.bind Pres.read fun _ => Pres.bind Pres.lift fun _ => Pres.modify fun h hh => hh

theorem pres_hdr_rewrite (n c : Nat) (f : Img ℝ → Py (Img ℝ)) : Pres (HdrOK n) (rewritePlanes c f) :=
  Pres.bind Pres.read fun _ => Pres.bind Pres.lift fun _ => Pres.bind (pres_hdr_setPlane n c 0 _) fun _ =>
  Pres.bind Pres.read fun _ => Pres.bind Pres.lift fun _ => Pres.bind (pres_hdr_setPlane n c 1 _) fun _ =>
  Pres.bind Pres.read fun _ => Pres.bind Pres.lift fun _ => pres_hdr_setPlane n c 2 _

/-- From any heap: `setData n` and then something that keeps the header of `n` right. -/
theorem triple_setData {β : Type} {P : Heap → Prop} {Q : β → Heap → Prop} (n : Nat) (g : Heap → Img ℝ) {k : Unit → M β}
    (hk : Triple (HdrOK n) (k ()) Q (fun _ => True)) :
    Triple P (M.modify (fun h => h.setData n (g h)) >>= k) Q (fun _ => True) :=
  Triple.bind (Triple.modify (Q := fun _ => HdrOK n) fun h _ => hdr_setData n (g h) h) fun _ => hk

theorem triple_skip {α β : Type} {P : Heap → Prop} {Q : β → Heap → Prop} {m : M α} {k : α → M β}
    (hk : ∀ a, Triple (fun _ => True) (k a) Q (fun _ => True)) : Triple P (m >>= k) Q (fun _ => True) :=
  Triple.bind (Q := fun _ _ => True) (fun _ _ => ⟨fun _ _ => trivial, fun _ _ => trivial⟩) hk

theorem triple_weaken {α : Type} {P : Heap → Prop} {m : M α} {Q : α → Heap → Prop}
    (hm : Triple (fun _ => True) m Q (fun _ => True)) : Triple P m Q (fun _ => True) :=
  Triple.conseq hm (fun _ _ => trivial) (fun _ _ h => h) (fun _ h => h)

theorem triple_ret {n : Nat} {P : Heap → Prop} (hP : ∀ h, P h → HdrOK n h) :
    Triple P (pure n : M Nat) (fun m h => HdrOK m h) (fun _ => True) := Triple.pure hP

theorem hdr_updateData (n : Nat) (d : Img ℝ) :
    Triple (fun _ => True) (updateDataAndStokes n d) (fun _ => HdrOK n) (fun _ => True) :=
  triple_setData n (fun _ => d) (Triple.of_pres (pres_hdr_updateStokes n))

theorem hdr_subtractDark (n j : Nat) :
    Triple (fun _ => True) (subtractDark n j) (fun _ => HdrOK n) (fun _ => True) := by
  unfold subtractDark
  refine triple_skip fun _ => triple_skip fun _ => triple_setData n (fun _ => _) ?_
  refine triple_setData n (fun h => (h.dataOf n).map (fun v => if v ≥ 0 then v else 0)) ?_
  exact Triple.bind (Triple.of_pres (pres_hdr_updateStokes n)) fun _ =>
    Triple.modify fun h hh => hdr_modifyObj h hh rfl rfl

theorem hdr_correctFlat (junk : Nat → Nat → ℝ) (n j : Nat) :
    Triple (fun _ => True) (correctFlat junk n j) (fun _ => HdrOK n) (fun _ => True) := by
  unfold correctFlat
  refine triple_skip fun _ => triple_skip fun _ => triple_setData n (fun _ => _) ?_
  exact Triple.bind (Triple.of_pres (pres_hdr_updateStokes n)) fun _ =>
    Triple.modify fun h hh => hdr_modifyObj h hh rfl rfl

theorem hdr_correctIfov (n : Nat) :
    Triple (fun _ => True) (correctIfov n) (fun _ => HdrOK n) (fun _ => True) := by
  unfold correctIfov
  exact triple_skip fun _ => triple_skip fun _ => hdr_updateData n _

theorem hdr_maskOcculter (n : Nat) (y x r over fill : ℝ) :
    Triple (fun _ => True) (maskOcculter n y x r over fill) (fun _ => HdrOK n) (fun _ => True) := by
  unfold maskOcculter
  refine triple_skip fun _ => triple_skip fun _ => triple_setData n (fun _ => _) ?_
  refine Triple.bind (Q := fun _ => HdrOK n) (Triple.of_pres ?_) fun _ => ?_
  · unfold maskDemosaiced
    refine Pres.bind Pres.read fun _ => Pres.bind Pres.read fun _ => ?_
    split
    · exact Pres.pure
    · exact Pres.lift
    · exact Pres.bind Pres.lift fun _ => Pres.modify fun h hh => hdr_modifyObj h hh rfl rfl
  · refine Triple.bind (Triple.of_pres Pres.read) fun o => ?_
    split
    · exact Triple.of_pres (pres_hdr_rewrite n _ _)
    · exact Triple.of_pres (pres_hdr_rewrite n _ _)

/-- With at least one correction the header is right afterwards; without one it is left as it is. -/
theorem hdr_applyCorrections (junk : Nat → Nat → ℝ) (n : Nat) (dark flat : Option Nat) (hne : dark ≠ none ∨ flat ≠ none) :
    Triple (fun _ => True) (applyCorrections junk n dark flat) (fun _ => HdrOK n) (fun _ => True) := by
  cases dark with
  | none =>
    cases flat with
    | none => simp at hne
    | some f => exact hdr_correctFlat junk n f
  | some d =>
    cases flat with
    | none => exact hdr_subtractDark n d
    | some f => exact triple_skip fun _ => hdr_correctFlat junk n f

theorem hdr_derive (i : Nat) (F : Heap → Py (Img ℝ)) :
    Triple (fun _ => True) (deriveObj i F) (fun n => HdrOK n) (fun _ => True) := by
  unfold deriveObj
  exact triple_skip fun _ => triple_skip fun _ => triple_skip fun n =>
    Triple.bind (hdr_updateData n _) fun _ => triple_ret fun _ h => h

theorem hdr_derive_shared (i : Nat) (F : Heap → Py (Img ℝ)) :
    Triple (fun h => i < h.objs.size) (deriveObj i F)
      (fun n h => HdrOK n h ∧ (h.objs.cell i).header = (h.objs.cell n).header) (fun _ => True) := by
  intro h hi
  unfold deriveObj
  rw [run_read]
  cases F h with
  | error e => rw [run_lift_err]; exact ⟨fun a ha => (by cases ha), fun _ _ => trivial⟩
  | ok d =>
    rw [run_lift_ok, run_of_ok (newFromImage_run i none h)]
    have hne : i ≠ h.objs.size := Nat.ne_of_lt hi
    have hcell : (copyHeap i none h).objs = h.objs.alloc (h.objs.cell i) := by
      obtain ⟨d, hd⟩ := dicHeap_eq none h
      unfold copyHeap
      rw [hd]
    have hstart : HdrOK h.objs.size ((copyHeap i none h).setData h.objs.size d) ∧
        (((copyHeap i none h).setData h.objs.size d).objs.cell i).header =
          (((copyHeap i none h).setData h.objs.size d).objs.cell h.objs.size).header := by
      refine ⟨hdr_setData _ _ _, ?_⟩
      show (((copyHeap i none h).objs.set h.objs.size _).cell i).header =
        (((copyHeap i none h).objs.set h.objs.size _).cell h.objs.size).header
      rw [Store.set_cell_self, Store.set_cell_of_ne _ _ hne, hcell,
        Store.alloc_cell_self, Store.alloc_cell_of_lt _ _ hi]
    have hp : Triple (fun h' => HdrOK h.objs.size h' ∧ (h'.objs.cell i).header = (h'.objs.cell h.objs.size).header)
        (updateStokes h.objs.size >>= fun _ => (pure h.objs.size : M Nat))
        (fun n h' => HdrOK n h' ∧ (h'.objs.cell i).header = (h'.objs.cell n).header) (fun _ => True) := by
      refine Triple.bind (Triple.of_pres ?_) fun _ => Triple.pure fun _ hh => hh
      refine Pres.bind Pres.read fun _ => Pres.bind Pres.lift fun _ => Pres.modify fun h' hh' => ⟨hdr_setStokes h' hh'.1, ?_⟩
      show ((h'.objs.set h.objs.size _).cell i).header = ((h'.objs.set h.objs.size _).cell h.objs.size).header
      rw [Store.set_cell_self, Store.set_cell_of_ne _ _ hne]
      exact hh'.2
    exact hp _ hstart

theorem hdr_arrayHeap (d : Img ℝ) (S : Fin 3 → Img ℝ) (dic : Option AngleDic) (h : Heap) :
    HdrOK h.objs.size (arrayHeap d S dic h) := by
  unfold HdrOK Heap.headerOf Heap.dataOf arrayHeap blankObj
  dsimp only
  rw [Store.alloc_cell_self]
  dsimp only
  rw [Store.alloc_cell_self, Store.alloc_cell_self]

theorem hdr_newFromArray (d : Img ℝ) (dic : Option AngleDic) :
    Triple (fun _ => True) (newFromArray d dic) (fun n => HdrOK n) (fun _ => True) := by
  intro h _
  rw [newFromArray_run]
  cases dataStokes d (dicVal dic h) with
  | error e => exact ⟨fun a ha => (by cases ha), fun _ _ => trivial⟩
  | ok S =>
    refine ⟨fun a ha => ?_, fun _ _ => trivial⟩
    cases ha
    exact hdr_arrayHeap d S dic h

/-! ## Right after a call that gives an image new data -/

theorem named_skip {β : Type} {images : List Nat} {i : Nat} {k : Nat → M β} {Q : β → Heap → Prop} {P : Heap → Prop}
    (hk : ∀ a, Triple (fun _ => True) (k a) Q (fun _ => True)) : Triple P (named images i >>= k) Q (fun _ => True) :=
  triple_skip hk

/-- The result of such a call has the right header. -/
theorem hdr_exec {images : List Nat} {N : Nat} (himg : ∀ k ∈ images, k < N) (o : Op) (ho : o.setsData = true) :
    Triple (fun h => N ≤ h.objs.size) (exec images o) (fun r h => ∀ n, r = some n → HdrOK n h) (fun _ => True) := by
  have ret : ∀ n, Triple (fun h => HdrOK n h) (pure (some n) : M (Option Nat)) (fun r h => ∀ m, r = some m → HdrOK m h)
      (fun _ => True) := by
    intro n
    refine Triple.pure fun h hh m hm => ?_
    injection hm with hm
    rw [← hm]; exact hh
  have fin : ∀ {P : Heap → Prop} {mk : M Nat}, Triple P mk (fun n => HdrOK n) (fun _ => True) →
      Triple P (mk >>= fun n => (pure (some n) : M (Option Nat))) (fun r h => ∀ m, r = some m → HdrOK m h)
        (fun _ => True) := fun hmk => Triple.bind hmk ret
  unfold exec
  cases o with
  | fromArray d dic dark flat junk =>
    dsimp only
    refine triple_skip fun dk => triple_skip fun fl => ?_
    refine Triple.bind (hdr_newFromArray d dic) fun n => ?_
    refine Triple.bind (Q := fun _ => HdrOK n) ?_ fun _ => ret n
    by_cases hne : dk ≠ none ∨ fl ≠ none
    · exact triple_weaken (hdr_applyCorrections junk n dk fl hne)
    · simp only [not_or, not_not] at hne
      obtain ⟨rfl, rfl⟩ := hne
      exact Triple.pure fun _ h => h
  | fromImage i dic dark flat junk =>
    dsimp only
    have hne : dark ≠ none ∨ flat ≠ none := by
      change (dark.isSome || flat.isSome) = true at ho
      cases dark <;> cases flat <;> simp_all
    refine triple_skip fun i => ?_
    have hopt : ∀ (x : Option Nat) (k : Option Nat → M (Option Nat)) (Q : Option Nat → Heap → Prop),
        (∀ y, (x ≠ none → y ≠ none) → Triple (fun _ => True) (k y) Q (fun _ => True)) →
        Triple (fun _ => True) (namedOpt images x >>= k) Q (fun _ => True) := by
      intro x k Q hk
      cases x with
      | none => exact hk none (fun h => absurd rfl h)
      | some j =>
        show Triple _ ((named images j >>= fun a => pure (some a)) >>= k) _ _
        have : (named images j >>= fun a => (pure (some a) : M (Option Nat))) >>= k =
            (named images j >>= fun a => k (some a)) := by
          funext h
          rw [run_bind]
          rfl
        rw [this]
        exact triple_skip fun a => hk (some a) (fun _ => by simp)
    refine hopt dark _ _ fun dk hdk => hopt flat _ _ fun fl hfl => ?_
    refine triple_skip fun n => ?_
    refine Triple.bind (hdr_applyCorrections junk n dk fl ?_) fun _ => ret n
    rcases hne with h | h
    · exact Or.inl (hdk h)
    · exact Or.inr (hfl h)
  | rebin i b =>
    dsimp only
    refine named_skip fun i => fin ?_
    unfold rebinObj
    split
    · exact fun _ _ => ⟨fun a ha => (by cases ha), fun _ _ => trivial⟩
    · exact triple_skip fun n => triple_skip fun _ => triple_skip fun _ =>
        Triple.bind (hdr_updateData n _) fun _ => triple_ret fun _ h => h
  | congrid i ny nx =>
    dsimp only
    refine named_skip fun i => fin ?_
    unfold congridObj
    refine triple_skip fun _ => triple_skip fun _ => triple_skip fun n => triple_setData n (fun _ => _) ?_
    dsimp only
    refine Triple.bind (Triple.of_pres Pres.read) fun _ => ?_
    refine Triple.bind (Triple.of_pres Pres.lift) fun _ => ?_
    refine Triple.bind (Triple.of_pres Pres.lift) fun _ => ?_
    refine Triple.bind (Triple.of_pres Pres.lift) fun _ => ?_
    refine Triple.bind (Triple.modify (Q := fun _ => HdrOK n) fun h hh => hdr_setStokes h hh) fun _ => ?_
    exact triple_ret fun _ h => h
  | rotate i rot =>
    dsimp only
    refine named_skip fun i => fin ?_
    unfold rotateObj
    refine triple_skip fun _ => triple_skip fun _ => triple_skip fun c => triple_skip fun _ => triple_skip fun n =>
      triple_setData n (fun _ => _) ?_
    refine Triple.bind (Triple.modify (Q := fun _ => HdrOK n) fun h hh => hdr_modifyObj h hh rfl rfl) fun _ => ?_
    exact triple_ret fun _ h => h
  | shift i y x m =>
    dsimp only
    exact named_skip fun i => fin (hdr_derive i _)
  | cleanHotPixels i f median =>
    dsimp only
    exact named_skip fun i => named_skip fun f => fin (hdr_derive i _)
  | arithImage op i j junk =>
    dsimp only
    intro h hN
    cases hx : images[i]? with
    | none => rw [run_named_none hx]; exact ⟨fun a ha => (by cases ha), fun _ _ => trivial⟩
    | some i' =>
      rw [run_named hx]
      have hi : i' < h.objs.size := lt_of_lt_of_le (himg i' (List.mem_of_getElem? hx)) hN
      cases hy : images[j]? with
      | none => rw [run_named_none hy]; exact ⟨fun a ha => (by cases ha), fun _ _ => trivial⟩
      | some j' =>
        rw [run_named hy]
        refine fin (P := fun h => i' < h.objs.size) ?_ h hi
        unfold arithImageObj
        refine Triple.bind (hdr_derive_shared i' _) fun n => ?_
        refine Triple.bind (Triple.modify (Q := fun _ => HdrOK n) fun h hh => ?_) fun _ => triple_ret fun _ h => h
        exact hdr_modifyObj h hh.1 rfl hh.2
  | subtractDark i d =>
    dsimp only
    exact named_skip fun i => named_skip fun d => Triple.bind (hdr_subtractDark i d) fun _ => ret i
  | correctFlat i f junk =>
    dsimp only
    exact named_skip fun i => named_skip fun f => Triple.bind (hdr_correctFlat junk i f) fun _ => ret i
  | correctIfov i =>
    dsimp only
    exact named_skip fun i => Triple.bind (hdr_correctIfov i) fun _ => ret i
  | maskOcculter i y x r over fill =>
    dsimp only
    refine triple_skip fun _ => triple_skip fun _ => ?_
    exact Triple.pure fun h _ n hn => by cases hn
  | _ => cases ho

/-! ## All headers at once -/

/-- All objects have even sides and right headers. -/
def AllHdr (h : Heap) : Prop := WF h ∧ ∀ k, k < h.objs.size → EvenImg (h.dataOf k) ∧ HdrOK k h

theorem AllHdr.defaultDic {h : Heap} (hJ : AllHdr h) (d : Option AngleDic) : AllHdr { h with defaultDic := d } := hJ

theorem AllHdr.setData {h : Heap} (hJ : AllHdr h) {i : Nat} (hi : i < h.objs.size) {d : Img ℝ}
    (hd : d.h = (h.dataOf i).h ∧ d.w = (h.dataOf i).w) : AllHdr (h.setData i d) := by
  have hhd : ∀ c, (h.headers.set (h.objs.cell i).header ⟨d.w, d.h⟩).cell c = h.headers.cell c := by
    intro c
    by_cases hc : c = (h.objs.cell i).header
    · subst hc
      rw [Store.set_cell_self, hd.1, hd.2]
      exact ((hJ.2 i hi).2).symm
    · exact Store.set_cell_of_ne _ _ hc
  refine ⟨?_, ?_⟩
  · intro k hk
    show ((h.objs.set i _).cell k).data < h.datas.size + 1 ∧ ((h.objs.set i _).cell k).stokes < h.stokes.size ∧
      ((h.objs.set i _).cell k).header < h.headers.size
    by_cases hki : k = i
    · subst hki
      rw [Store.set_cell_self]
      exact ⟨Nat.lt_succ_self _, (hJ.1 k hk).2⟩
    · rw [Store.set_cell_of_ne _ _ hki]
      exact ⟨Nat.lt_succ_of_lt (hJ.1 k hk).1, (hJ.1 k hk).2⟩
  · intro k hk
    have hk' : k < h.objs.size := hk
    by_cases hki : k = i
    · subst hki
      refine ⟨?_, hdr_setData k d h⟩
      have : (h.setData k d).dataOf k = d := congrArg ImgView.data (setData_view h k d)
      rw [this]
      exact even_of_shape (hJ.2 k hk').1 hd
    · have hobj : (h.setData i d).objs.cell k = h.objs.cell k := Store.set_cell_of_ne _ _ hki
      have hdat : (h.setData i d).dataOf k = h.dataOf k := by
        unfold Heap.dataOf
        rw [hobj]
        exact Store.alloc_cell_of_lt _ _ (hJ.1 k hk').1
      unfold HdrOK Heap.headerOf
      rw [hdat, hobj]
      refine ⟨(hJ.2 k hk').1, ?_⟩
      exact (hhd _).trans (hJ.2 k hk').2

theorem AllHdr.modifyObj {h : Heap} (hJ : AllHdr h) {i : Nat} {f : ImgObj → ImgObj}
    (hd : (f (h.objs.cell i)).data = (h.objs.cell i).data) (hH : (f (h.objs.cell i)).header = (h.objs.cell i).header)
    (hs : (f (h.objs.cell i)).stokes < h.stokes.size) : AllHdr (h.modifyObj i f) := by
  refine ⟨?_, ?_⟩
  · intro k hk
    show ((h.objs.set i _).cell k).data < _ ∧ ((h.objs.set i _).cell k).stokes < _ ∧ ((h.objs.set i _).cell k).header < _
    by_cases hki : k = i
    · subst hki
      rw [Store.set_cell_self, hd, hH]
      exact ⟨(hJ.1 k hk).1, hs, (hJ.1 k hk).2.2⟩
    · rw [Store.set_cell_of_ne _ _ hki]
      exact hJ.1 k hk
  · intro k hk
    have e : ((h.modifyObj i f).objs.cell k).data = (h.objs.cell k).data ∧
        ((h.modifyObj i f).objs.cell k).header = (h.objs.cell k).header := by
      show ((h.objs.set i _).cell k).data = _ ∧ ((h.objs.set i _).cell k).header = _
      by_cases hki : k = i
      · subst hki
        rw [Store.set_cell_self]
        exact ⟨hd, hH⟩
      · rw [Store.set_cell_of_ne _ _ hki]
        exact ⟨rfl, rfl⟩
    unfold HdrOK Heap.headerOf Heap.dataOf
    rw [e.1, e.2]
    exact hJ.2 k hk

theorem AllHdr.stokesSet {h : Heap} (hJ : AllHdr h) (c : Nat) (sv : StokesVec) :
    AllHdr { h with stokes := h.stokes.set c sv } := hJ

theorem AllHdr.setStokes {h : Heap} (hJ : AllHdr h) {i : Nat} {s : StokesVec} : AllHdr (h.setStokes i s) := by
  have hJ1 : AllHdr { h with stokes := h.stokes.alloc s } :=
    ⟨fun k hk => ⟨(hJ.1 k hk).1, Nat.lt_succ_of_lt (hJ.1 k hk).2.1, (hJ.1 k hk).2.2⟩, hJ.2⟩
  exact hJ1.modifyObj (f := fun o => { o with stokes := h.stokes.size }) rfl rfl (Nat.lt_succ_self _)

theorem copyHeap_cell (i : Nat) (dic : Option AngleDic) (h : Heap) :
    (copyHeap i dic h).datas = h.datas ∧ (copyHeap i dic h).stokes = h.stokes ∧ (copyHeap i dic h).headers = h.headers ∧
    (copyHeap i dic h).objs = h.objs.alloc (h.objs.cell i) := by
  obtain ⟨d, hd⟩ := dicHeap_eq dic h
  unfold copyHeap
  rw [hd]
  exact ⟨rfl, rfl, rfl, rfl⟩

theorem AllHdr.copy {h : Heap} (hJ : AllHdr h) {i : Nat} (hi : i < h.objs.size) (dic : Option AngleDic) :
    AllHdr (copyHeap i dic h) := by
  refine ⟨wf_copyHeap hJ.1 hi dic, ?_⟩
  obtain ⟨e1, e2, e3, e4⟩ := copyHeap_cell i dic h
  intro k hk
  rw [e4] at hk
  have hcell : ∃ k', k' < h.objs.size ∧ (copyHeap i dic h).objs.cell k = h.objs.cell k' := by
    rw [e4]
    by_cases hkn : k = h.objs.size
    · subst hkn
      exact ⟨i, hi, Store.alloc_cell_self _ _⟩
    · have : k < h.objs.size := by
        have := Nat.lt_succ_iff.1 hk
        omega
      exact ⟨k, this, Store.alloc_cell_of_lt _ _ this⟩
  obtain ⟨k', hk', hc⟩ := hcell
  unfold HdrOK Heap.headerOf Heap.dataOf
  rw [hc, e1, e3]
  exact hJ.2 k' hk'

theorem AllHdr.array {h : Heap} (hJ : AllHdr h) {d : Img ℝ} {dic : Option AngleDic} {S : Fin 3 → Img ℝ}
    (hd : EvenImg d) : AllHdr (arrayHeap d S dic h) := by
  refine ⟨wf_arrayHeap hJ.1 d S dic, ?_⟩
  intro k hk
  by_cases hkn : k = h.objs.size
  · subst hkn
    refine ⟨?_, hdr_arrayHeap d S dic h⟩
    have : (arrayHeap d S dic h).dataOf h.objs.size = d := congrArg ImgView.data (arrayHeap_view d S dic h)
    rw [this]
    exact hd
  · have hk' : k < h.objs.size := by
      have : k < h.objs.size + 1 := hk
      omega
    have hview := arrayHeap_view_old d S dic hJ.1 hk'
    have hdat : (arrayHeap d S dic h).dataOf k = h.dataOf k := congrArg ImgView.data hview
    have hobj : (arrayHeap d S dic h).objs.cell k = h.objs.cell k := Store.alloc_cell_of_lt _ _ hk'
    unfold HdrOK Heap.headerOf
    rw [hdat, hobj]
    refine ⟨(hJ.2 k hk').1, ?_⟩
    have : (arrayHeap d S dic h).headers.cell (h.objs.cell k).header = h.headers.cell (h.objs.cell k).header :=
      Store.alloc_cell_of_lt _ _ (hJ.1 k hk').2.2
    rw [this]
    exact (hJ.2 k hk').2

/-- All headers are right, and there are at least `N` objects. -/
def AllHdrN (N : Nat) (h : Heap) : Prop := AllHdr h ∧ N ≤ h.objs.size

theorem pres_all_updateStokes (N i : Nat) : Pres (AllHdrN N) (updateStokes i) :=
  Pres.bind Pres.read fun _ => Pres.bind Pres.lift fun _ => Pres.modify fun _ hh => ⟨hh.1.setStokes, hh.2⟩

theorem pres_all_flag {N i : Nat} (hi : i < N) {f : ImgObj → ImgObj} (hd : ∀ o, (f o).data = o.data)
    (hH : ∀ o, (f o).header = o.header) (hs : ∀ o, (f o).stokes = o.stokes) :
    Pres (AllHdrN N) (M.modify (fun h => h.modifyObj i f)) :=
  Pres.modify fun h hh => ⟨hh.1.modifyObj (hd _) (hH _) (by rw [hs]; exact (hh.1.1 i (lt_of_lt_of_le hi hh.2)).2.1), hh.2⟩

theorem pres_all_flag' {N i : Nat} (hi : i < N) {f : Heap → ImgObj → ImgObj} (hd : ∀ h o, (f h o).data = o.data)
    (hH : ∀ h o, (f h o).header = o.header) (hs : ∀ h o, (f h o).stokes = o.stokes) :
    Pres (AllHdrN N) (M.modify (fun h => h.modifyObj i (f h))) :=
  Pres.modify fun h hh => ⟨hh.1.modifyObj (hd _ _) (hH _ _) (by rw [hs]; exact (hh.1.1 i (lt_of_lt_of_le hi hh.2)).2.1), hh.2⟩

theorem pres_all_rewrite (N c : Nat) (f : Img ℝ → Py (Img ℝ)) : Pres (AllHdrN N) (rewritePlanes c f) := by
  have hp : ∀ (k : Fin 3) a, Pres (AllHdrN N) (setPlane c k a) := fun k a =>
    Pres.bind Pres.read fun _ => Pres.bind Pres.lift fun _ => Pres.modify fun h hh => hh
  exact Pres.bind Pres.read fun _ => Pres.bind Pres.lift fun _ => Pres.bind (hp 0 _) fun _ =>
    Pres.bind Pres.read fun _ => Pres.bind Pres.lift fun _ => Pres.bind (hp 1 _) fun _ =>
    Pres.bind Pres.read fun _ => Pres.bind Pres.lift fun _ => hp 2 _

/-- Reading new data of the same shape and storing them. -/
theorem pres_all_set {β : Type} {N i : Nat} (hi : i < N) {F : Heap → Py (Img ℝ)} {k : Img ℝ → Unit → M β}
    (hF : ∀ h d, AllHdrN N h → F h = .ok d → d.h = (h.dataOf i).h ∧ d.w = (h.dataOf i).w)
    (hk : ∀ d, Pres (AllHdrN N) (k d ())) :
    Pres (AllHdrN N) (M.read F >>= fun x => M.lift x >>= fun d => M.modify (fun h => h.setData i d) >>= k d) := by
  refine pres_of fun h hh => ?_
  rw [run_read]
  cases hx : F h with
  | error e => rw [run_lift_err]; exact hh
  | ok d =>
    rw [run_lift_ok, run_modify]
    exact pres_snd (hk d) ⟨hh.1.setData (lt_of_lt_of_le hi hh.2) (hF h d hh hx), hh.2⟩

theorem AllHdrN.even {N i : Nat} {h : Heap} (hh : AllHdrN N h) (hi : i < N) : EvenImg (h.dataOf i) :=
  (hh.1.2 i (lt_of_lt_of_le hi hh.2)).1

theorem pres_all_subtractDark {N i j : Nat} (hi : i < N) (hj : j < N) : Pres (AllHdrN N) (subtractDark i j) := by
  refine pres_all_set hi ?_ fun d => ?_
  · intro h d hh hd
    exact npBinAt_even (hh.even hi) (hh.even hj) hd
  · refine Pres.bind (Pres.modify fun h hh => ⟨hh.1.setData (lt_of_lt_of_le hi hh.2) ⟨rfl, rfl⟩, hh.2⟩) fun _ => ?_
    exact Pres.bind (pres_all_updateStokes N i) fun _ => pres_all_flag hi (fun _ => rfl) (fun _ => rfl) (fun _ => rfl)

theorem pres_all_correctFlat {N i j : Nat} (junk : Nat → Nat → ℝ) (hi : i < N) (hj : j < N) :
    Pres (AllHdrN N) (correctFlat junk i j) := by
  refine pres_all_set hi ?_ fun d => ?_
  · intro h d hh hd
    exact correctFlatData_shape (hh.even hi) (hh.even hj) hd
  · exact Pres.bind (pres_all_updateStokes N i) fun _ => pres_all_flag hi (fun _ => rfl) (fun _ => rfl) (fun _ => rfl)

theorem pres_all_applyCorrections {N n : Nat} (junk : Nat → Nat → ℝ) (hn : n < N) {dark flat : Option Nat}
    (hd : ∀ j, dark = some j → j < N) (hf : ∀ j, flat = some j → j < N) :
    Pres (AllHdrN N) (applyCorrections junk n dark flat) := by
  unfold applyCorrections
  split
  · exact Pres.pure
  · exact pres_all_subtractDark hn (hd _ rfl)
  · exact pres_all_correctFlat junk hn (hf _ rfl)
  · exact Pres.bind (pres_all_subtractDark hn (hd _ rfl)) fun _ => pres_all_correctFlat junk hn (hf _ rfl)

theorem pres_all_mask {N i : Nat} (hi : i < N) (y x r over fill : ℝ) :
    Pres (AllHdrN N) (maskOcculter i y x r over fill) := by
  refine pres_all_set hi ?_ fun d => ?_
  · intro h d hh hd
    exact occulterRoi_shape (hh.even hi) hd
  · refine Pres.bind ?_ fun _ => Pres.bind Pres.read fun _ => ?_
    · unfold maskDemosaiced
      refine Pres.bind Pres.read fun _ => Pres.bind Pres.read fun _ => ?_
      split
      · exact Pres.pure
      · exact Pres.lift
      · exact Pres.bind Pres.lift fun s => pres_all_flag' (f := fun h o => { o with demosaicedImages := some s, demosaicedList := h.freshList })
          hi (fun _ _ => rfl) (fun _ _ => rfl) (fun _ _ => rfl)
    · split
      · exact pres_all_rewrite N _ _
      · exact pres_all_rewrite N _ _

theorem AllHdrN.mono {N M : Nat} {h : Heap} (hh : AllHdrN M h) (hNM : N ≤ M) : AllHdrN N h := ⟨hh.1, hNM.trans hh.2⟩

/-- Making a copy and going on with it. -/
theorem copy_all {β : Type} {N i : Nat} (hi : i < N) (dic : Option AngleDic) {k : Nat → M β} {h : Heap} (hh : AllHdrN N h)
    (hk : AllHdrN (h.objs.size + 1) (copyHeap i dic h) → (copyHeap i dic h).dataOf h.objs.size = h.dataOf i →
      AllHdrN N (k h.objs.size (copyHeap i dic h)).2) :
    AllHdrN N ((newFromImage i dic >>= k) h).2 := by
  rw [run_of_ok (newFromImage_run i dic h)]
  refine hk ⟨hh.1.copy (lt_of_lt_of_le hi hh.2) dic, ?_⟩ (congrArg ImgView.data (copyHeap_view_new i dic h))
  rw [(copyHeap_cell i dic h).2.2.2]
  exact le_rfl

theorem AllHdr.shareHeader {h : Heap} (hJ : AllHdr h) {i n : Nat} (hi : i < h.objs.size) (hn : n < h.objs.size)
    (hd : (h.dataOf n).h = (h.dataOf i).h ∧ (h.dataOf n).w = (h.dataOf i).w) :
    AllHdr (h.modifyObj n (fun o => { o with header := (h.objs.cell i).header })) := by
  refine ⟨?_, ?_⟩
  · intro k hk
    show ((h.objs.set n _).cell k).data < _ ∧ ((h.objs.set n _).cell k).stokes < _ ∧ ((h.objs.set n _).cell k).header < _
    by_cases hki : k = n
    · subst hki
      rw [Store.set_cell_self]
      exact ⟨(hJ.1 k hk).1, (hJ.1 k hk).2.1, (hJ.1 i hi).2.2⟩
    · rw [Store.set_cell_of_ne _ _ hki]
      exact hJ.1 k hk
  · intro k hk
    by_cases hki : k = n
    · subst hki
      have hdat : (h.modifyObj k (fun o => { o with header := (h.objs.cell i).header })).dataOf k = h.dataOf k := by
        show h.datas.cell ((h.objs.set k _).cell k).data = _
        rw [Store.set_cell_self]
        rfl
      have hhdr : (h.modifyObj k (fun o => { o with header := (h.objs.cell i).header })).headerOf k = h.headerOf i := by
        show h.headers.cell ((h.objs.set k _).cell k).header = _
        rw [Store.set_cell_self]
        rfl
      unfold HdrOK
      rw [hdat, hhdr]
      refine ⟨(hJ.2 k hk).1, ?_⟩
      rw [hd.1, hd.2]
      exact (hJ.2 i hi).2
    · have hobj : (h.modifyObj n (fun o => { o with header := (h.objs.cell i).header })).objs.cell k = h.objs.cell k :=
        Store.set_cell_of_ne _ _ hki
      unfold HdrOK Heap.headerOf Heap.dataOf
      rw [hobj]
      exact hJ.2 k hk

/-- The result of `deriveObj` and its source have data of the same shape. -/
theorem triple_all_derive {N i : Nat} (hi : i < N) {F : Heap → Py (Img ℝ)}
    (hF : ∀ h d, AllHdrN N h → F h = .ok d → d.h = (h.dataOf i).h ∧ d.w = (h.dataOf i).w) :
    Triple (AllHdrN N) (deriveObj i F) (fun n h => AllHdrN N h ∧ n < h.objs.size ∧
      (h.dataOf n).h = (h.dataOf i).h ∧ (h.dataOf n).w = (h.dataOf i).w) (AllHdrN N) := by
  intro h hh
  unfold deriveObj
  rw [run_read]
  cases hx : F h with
  | error e => rw [run_lift_err]; exact ⟨fun a ha => (by cases ha), fun _ _ => hh⟩
  | ok d =>
    have hit : i < h.objs.size := lt_of_lt_of_le hi hh.2
    have hne : i ≠ h.objs.size := Nat.ne_of_lt hit
    have hN : N ≤ h.objs.size + 1 := hh.2.trans (Nat.le_succ _)
    rw [run_lift_ok, run_of_ok (newFromImage_run i none h)]
    have hdn : (copyHeap i none h).dataOf h.objs.size = h.dataOf i := congrArg ImgView.data (copyHeap_view_new i none h)
    have hdi : (copyHeap i none h).dataOf i = h.dataOf i := by
      obtain ⟨e1, e2, e3, e4⟩ := copyHeap_cell i none h
      unfold Heap.dataOf
      rw [e1, e4, Store.alloc_cell_of_lt _ _ hit]
    have hsz : (copyHeap i none h).objs.size = h.objs.size + 1 := by
      rw [(copyHeap_cell i none h).2.2.2]; rfl
    have hc : AllHdr (copyHeap i none h) := hh.1.copy hit none
    have hs1 := hc.setData (i := h.objs.size) (d := d) (by rw [hsz]; exact Nat.lt_succ_self _) (by
      rw [hdn]; exact hF h d hh hx)
    have hstart : AllHdrN (h.objs.size + 1) ((copyHeap i none h).setData h.objs.size d) ∧
        (((copyHeap i none h).setData h.objs.size d).dataOf h.objs.size).h =
          (((copyHeap i none h).setData h.objs.size d).dataOf i).h ∧
        (((copyHeap i none h).setData h.objs.size d).dataOf h.objs.size).w =
          (((copyHeap i none h).setData h.objs.size d).dataOf i).w := by
      have e1 : ((copyHeap i none h).setData h.objs.size d).dataOf h.objs.size = d :=
        congrArg ImgView.data (setData_view _ _ d)
      have e2 : ((copyHeap i none h).setData h.objs.size d).dataOf i = h.dataOf i := by
        have hobj : ((copyHeap i none h).setData h.objs.size d).objs.cell i = (copyHeap i none h).objs.cell i :=
          Store.set_cell_of_ne _ _ hne
        rw [← hdi]
        unfold Heap.dataOf
        rw [hobj]
        exact Store.alloc_cell_of_lt _ _ (hc.1 i (by rw [hsz]; omega)).1
      refine ⟨⟨hs1, ?_⟩, ?_⟩
      · show h.objs.size + 1 ≤ (copyHeap i none h).objs.size
        rw [hsz]
      · rw [e1, e2]
        exact hF h d hh hx
    have hp : Triple (fun h' => AllHdrN (h.objs.size + 1) h' ∧ (h'.dataOf h.objs.size).h = (h'.dataOf i).h ∧
          (h'.dataOf h.objs.size).w = (h'.dataOf i).w)
        (updateStokes h.objs.size >>= fun _ => (pure h.objs.size : M Nat))
        (fun n h' => AllHdrN N h' ∧ n < h'.objs.size ∧ (h'.dataOf n).h = (h'.dataOf i).h ∧ (h'.dataOf n).w = (h'.dataOf i).w)
        (AllHdrN N) := by
      refine Triple.bind (Q := fun _ h' => AllHdrN (h.objs.size + 1) h' ∧ (h'.dataOf h.objs.size).h = (h'.dataOf i).h ∧
          (h'.dataOf h.objs.size).w = (h'.dataOf i).w) (Triple.conseq (?_ : Pres (fun h' => AllHdrN (h.objs.size + 1) h' ∧
          (h'.dataOf h.objs.size).h = (h'.dataOf i).h ∧ (h'.dataOf h.objs.size).w = (h'.dataOf i).w) _)
          (fun _ h => h) (fun _ _ h => h) (fun _ h => h.1.mono hN)) fun _ => Triple.pure fun h' hh' =>
          ⟨hh'.1.mono hN, hh'.1.2, hh'.2⟩
      refine Pres.bind Pres.read fun _ => Pres.bind Pres.lift fun S => Pres.modify fun h' hh' =>
        ⟨⟨hh'.1.1.setStokes, hh'.1.2⟩, ?_⟩
      have e1 : ∀ S, (h'.setStokes h.objs.size S).dataOf h.objs.size = h'.dataOf h.objs.size := by
        intro S
        show h'.datas.cell ((h'.objs.set h.objs.size _).cell h.objs.size).data = _
        rw [Store.set_cell_self]; rfl
      have e2 : ∀ S, (h'.setStokes h.objs.size S).dataOf i = h'.dataOf i := by
        intro S
        show h'.datas.cell ((h'.objs.set h.objs.size _).cell i).data = _
        rw [Store.set_cell_of_ne _ _ hne]; rfl
      rw [e1, e2]
      exact hh'.2
    exact hp _ hstart

theorem pres_all_derive {N i : Nat} (hi : i < N) {F : Heap → Py (Img ℝ)}
    (hF : ∀ h d, AllHdrN N h → F h = .ok d → d.h = (h.dataOf i).h ∧ d.w = (h.dataOf i).w) :
    Pres (AllHdrN N) (deriveObj i F) :=
  Triple.conseq (triple_all_derive hi hF) (fun _ h => h) (fun _ _ h => h.1) (fun _ h => h)

/-- No call other than `rebin`, `congrid` and `clean_hot_pixels` spoils any header. -/
theorem all_exec {images : List Nat} {N : Nat} (himg : ∀ k ∈ images, k < N) (o : Op) (ho : o.resizes = false) :
    Pres (AllHdrN N) (exec images o) := by
  have nm : ∀ {β : Type} (i : Nat) (k : Nat → M β), (∀ a, a < N → Pres (AllHdrN N) (k a)) →
      Pres (AllHdrN N) (named images i >>= k) := by
    intro β i k hk
    refine pres_of fun h hh => ?_
    cases hx : images[i]? with
    | none => rw [run_named_none hx]; exact hh
    | some a => rw [run_named hx]; exact pres_snd (hk a (himg a (List.mem_of_getElem? hx))) hh
  have nmo : ∀ {β : Type} (i : Option Nat) (k : Option Nat → M β),
      (∀ a, (∀ j, a = some j → j < N) → Pres (AllHdrN N) (k a)) → Pres (AllHdrN N) (namedOpt images i >>= k) := by
    intro β i k hk
    refine pres_of fun h hh => ?_
    cases i with
    | none => rw [run_namedOpt_none]; exact pres_snd (hk none (fun j hj => by cases hj)) hh
    | some i =>
      cases hx : images[i]? with
      | none => rw [run_namedOpt_err hx]; exact hh
      | some a =>
        rw [run_namedOpt_some hx]
        exact pres_snd (hk (some a) (fun j hj => by cases hj; exact himg a (List.mem_of_getElem? hx))) hh
  unfold exec
  cases o with
  | setDefault dic => exact Pres.bind (Pres.modify fun h hh => hh) fun _ => Pres.pure
  | fromArray d dic dark flat junk =>
    dsimp only
    refine nmo dark _ fun dk hdk => nmo flat _ fun fl hfl => pres_of fun h hh => ?_
    have hrun := newFromArray_run d dic h
    cases hS : dataStokes d (dicVal dic h) with
    | error e =>
      rw [hS] at hrun
      rw [run_of_err hrun]
      obtain ⟨dd, hdd⟩ := dicHeap_eq dic h
      show AllHdrN N (dicHeap dic h)
      rw [hdd]
      exact hh
    | ok S =>
      rw [hS] at hrun
      rw [run_of_ok hrun]
      have hN : N ≤ h.objs.size + 1 := hh.2.trans (Nat.le_succ _)
      refine AllHdrN.mono ?_ hN
      refine pres_snd (P := AllHdrN (h.objs.size + 1)) (Pres.bind (pres_all_applyCorrections junk (Nat.lt_succ_self _)
        (fun j hj => lt_of_lt_of_le (hdk j hj) hN) (fun j hj => lt_of_lt_of_le (hfl j hj) hN)) fun _ => Pres.pure) ?_
      exact ⟨hh.1.array (dataStokes_even hS), le_rfl⟩
  | fromImage i dic dark flat junk =>
    dsimp only
    refine nm i _ fun i hi => nmo dark _ fun dk hdk => nmo flat _ fun fl hfl => pres_of fun h hh => ?_
    refine copy_all hi dic hh fun hc _ => ?_
    have hN : N ≤ h.objs.size + 1 := hh.2.trans (Nat.le_succ _)
    refine AllHdrN.mono ?_ hN
    exact pres_snd (P := AllHdrN (h.objs.size + 1)) (Pres.bind (pres_all_applyCorrections junk (Nat.lt_succ_self _)
      (fun j hj => lt_of_lt_of_le (hdk j hj) hN) (fun j hj => lt_of_lt_of_le (hfl j hj) hN)) fun _ => Pres.pure) hc
  | rotate i rot =>
    dsimp only
    refine nm i _ fun i hi => Pres.bind (pres_of fun h hh => ?_) fun _ => Pres.pure
    unfold rotateObj
    rw [run_read]
    cases hx : rotateData rot (h.dataOf i) with
    | error e => rw [run_lift_err]; exact hh
    | ok d =>
      rw [run_lift_ok, run_read]
      have hcell : (h.objs.cell i).stokes < h.stokes.size := (hh.1.1 i (lt_of_lt_of_le hi hh.2)).2.1
      rw [show ∀ k : Unit → M Nat, (rewritePlanes (h.objs.cell i).stokes rot >>= k) h =
        match (rewriteV rot (h.stokes.cell (h.objs.cell i).stokes)).1 with
        | .ok u => k u (h.withStokes (h.objs.cell i).stokes (rewriteV rot (h.stokes.cell (h.objs.cell i).stokes)).2)
        | .error e => (.error e, h.withStokes (h.objs.cell i).stokes (rewriteV rot (h.stokes.cell (h.objs.cell i).stokes)).2)
        from fun k => by
          have hr := rewritePlanes_run (h.objs.cell i).stokes rot h
          cases hq : (rewriteV rot (h.stokes.cell (h.objs.cell i).stokes)).1 with
          | ok u => rw [hq] at hr; rw [run_of_ok hr]
          | error e => rw [hq] at hr; rw [run_of_err hr]]
      have hh1 : AllHdrN N (h.withStokes (h.objs.cell i).stokes (rewriteV rot (h.stokes.cell (h.objs.cell i).stokes)).2) := hh
      split
      · refine copy_all hi none hh1 fun hc hd => ?_
        rw [run_modify, run_modify]
        have hN : N ≤ h.objs.size + 1 := hh.2.trans (Nat.le_succ _)
        refine AllHdrN.mono ?_ hN
        have hs1 := hc.1.setData (i := h.objs.size) (d := d) (lt_of_lt_of_le (Nat.lt_succ_self _) hc.2) (by
          rw [show (copyHeap i none _).dataOf h.objs.size = h.dataOf i from hd]
          exact rotateData_shape hx)
        refine ⟨hs1.modifyObj rfl rfl ?_, hc.2⟩
        show (h.objs.cell i).stokes < (copyHeap i none _).stokes.size
        rw [(copyHeap_cell _ _ _).2.1]
        exact hcell
      · exact hh1
  | demodulate i D dem =>
    dsimp only
    refine nm i _ fun i hi => Pres.bind (pres_of fun h hh => ?_) fun _ => Pres.pure
    unfold demodulateObj
    refine copy_all hi none hh fun hc _ => ?_
    have hN : N ≤ h.objs.size + 1 := hh.2.trans (Nat.le_succ _)
    refine AllHdrN.mono (pres_snd (P := AllHdrN (h.objs.size + 1)) ?_ hc) hN
    have hfin : Pres (AllHdrN (h.objs.size + 1)) (M.modify (fun h' => h'.modifyObj h.objs.size
        (fun o => { o with isDemodulated := true })) >>= fun _ => pure h.objs.size) :=
      Pres.bind (pres_all_flag (Nat.lt_succ_self _) (fun _ => rfl) (fun _ => rfl) (fun _ => rfl)) fun _ => Pres.pure
    split
    · refine Pres.bind ?_ fun _ => Pres.bind Pres.read fun _ => Pres.bind Pres.lift fun _ =>
        Pres.bind (Pres.modify fun _ hh => ⟨hh.1.setStokes, hh.2⟩) fun _ => hfin
      unfold demosaicObj
      exact Pres.bind Pres.read fun _ => Pres.bind Pres.lift fun s =>
        Pres.bind (pres_all_flag' (f := fun h o =>
          { o with demosaicedImages := some s, isDemosaiced := true, demosaicedList := h.freshList }) (Nat.lt_succ_self _) (fun _ _ => rfl) (fun _ _ => rfl) (fun _ _ => rfl)) fun _ =>
        pres_all_updateStokes _ _
    · exact Pres.bind Pres.read fun _ => Pres.bind Pres.lift fun _ =>
        Pres.bind (Pres.modify fun _ hh => ⟨hh.1.setStokes, hh.2⟩) fun _ => hfin
  | shift i y x m =>
    dsimp only
    refine nm i _ fun i hi => Pres.bind (pres_all_derive hi ?_) fun _ => Pres.pure
    intro h d hh hd
    exact shift_shape (hh.even hi) hd
  | arithImage op i j junk =>
    dsimp only
    refine nm i _ fun i hi => nm j _ fun j hj => Pres.bind (pres_of fun h hh => ?_) fun _ => Pres.pure
    unfold arithImageObj
    refine pres_snd (Triple.bind (triple_all_derive hi fun h d hh hd =>
      arithImage_shape (hh.even hi) (hh.even hj) hd) fun n => ?_) hh
    refine Triple.bind (Triple.modify (Q := fun _ => AllHdrN N) fun h hh => ?_) fun _ => Pres.pure
    exact ⟨hh.1.1.shareHeader (lt_of_lt_of_le hi hh.1.2) hh.2.1 hh.2.2, hh.1.2⟩
  | arithNumber op i c junk =>
    dsimp only
    refine nm i _ fun i hi => Pres.bind (pres_of fun h hh => ?_) fun _ => Pres.pure
    unfold arithNumberObj
    rw [run_read]
    cases hx : arithData op junk (h.dataOf i) (.number c) with
    | error e => rw [run_lift_err]; exact hh
    | ok d =>
      rw [run_lift_ok, run_read]
      have hrun := newFromArray_run d (some (h.dicOf i)) h
      cases hS : dataStokes d (dicVal (some (h.dicOf i)) h) with
      | error e =>
        rw [hS] at hrun
        rw [run_of_err hrun]
        obtain ⟨dd, hdd⟩ := dicHeap_eq (some (h.dicOf i)) h
        show AllHdrN N (dicHeap (some (h.dicOf i)) h)
        rw [hdd]
        exact hh
      | ok S =>
        rw [hS] at hrun
        rw [run_of_ok hrun]
        have hit : i < h.objs.size := lt_of_lt_of_le hi hh.2
        have hsz : (arrayHeap d S (some (h.dicOf i)) h).objs.size = h.objs.size + 1 := rfl
        have hJ := hh.1.array (dic := some (h.dicOf i)) (dataStokes_even hS) (S := S)
        refine ⟨hJ.shareHeader (i := i) (n := h.objs.size) (by rw [hsz]; omega) (by rw [hsz]; omega) ?_, ?_⟩
        · rw [show (arrayHeap d S (some (h.dicOf i)) h).dataOf h.objs.size = d from
              congrArg ImgView.data (arrayHeap_view d S _ h),
            show (arrayHeap d S (some (h.dicOf i)) h).dataOf i = h.dataOf i from
              congrArg ImgView.data (arrayHeap_view_old d S _ hh.1.1 hit)]
          exact arithNumber_shape hx
        · show N ≤ h.objs.size + 1
          exact hh.2.trans (Nat.le_succ _)
  | demosaic i mode =>
    dsimp only
    refine nm i _ fun i hi => Pres.bind ?_ fun _ => Pres.pure
    unfold demosaicObj
    exact Pres.bind Pres.read fun _ => Pres.bind Pres.lift fun s =>
      Pres.bind (pres_all_flag' (f := fun h o =>
          { o with demosaicedImages := some s, isDemosaiced := true, demosaicedList := h.freshList }) hi (fun _ _ => rfl) (fun _ _ => rfl) (fun _ _ => rfl)) fun _ => pres_all_updateStokes _ _
  | subtractDark i d =>
    dsimp only
    exact nm i _ fun i hi => nm d _ fun d hd => Pres.bind (pres_all_subtractDark hi hd) fun _ => Pres.pure
  | correctFlat i f junk =>
    dsimp only
    exact nm i _ fun i hi => nm f _ fun f hf => Pres.bind (pres_all_correctFlat junk hi hf) fun _ => Pres.pure
  | correctIfov i =>
    dsimp only
    refine nm i _ fun i hi => Pres.bind ?_ fun _ => Pres.pure
    refine pres_all_set hi ?_ fun d => pres_all_updateStokes _ _
    intro h d hh hd
    exact correctIfovData_shape (hh.even hi) hd
  | maskOcculter i y x r over fill =>
    dsimp only
    exact nm i _ fun i hi => Pres.bind (pres_all_mask hi y x r over fill) fun _ => Pres.pure
  | _ => cases ho

/-! ## Calls that leave the data alone -/

/-- Object `n` has header object `c`, whose content is `v`. -/
def HasHdr (n c : Nat) (v : Header) (h : Heap) : Prop := (h.objs.cell n).header = c ∧ h.headers.cell c = v

theorem HasHdr.modifyObj {n c m : Nat} {v : Header} {h : Heap} (hh : HasHdr n c v h) {f : ImgObj → ImgObj}
    (hf : ∀ o, (f o).header = o.header) : HasHdr n c v (h.modifyObj m f) := by
  refine ⟨?_, hh.2⟩
  show ((h.objs.set m _).cell n).header = c
  by_cases hnm : n = m
  · subst hnm
    rw [Store.set_cell_self, hf]
    exact hh.1
  · rw [Store.set_cell_of_ne _ _ hnm]
    exact hh.1

theorem HasHdr.setStokes {n c m : Nat} {v : Header} {h : Heap} (hh : HasHdr n c v h) {S : StokesVec} :
    HasHdr n c v (h.setStokes m S) :=
  HasHdr.modifyObj (h := { h with stokes := h.stokes.alloc S }) hh (f := fun o => { o with stokes := h.stokes.size })
    (fun _ => rfl)

theorem pres_has_demosaic (n c m : Nat) (v : Header) (mode : String) : Pres (HasHdr n c v) (demosaicObj m mode) := by
  unfold demosaicObj
  exact Pres.bind Pres.read fun _ => Pres.bind Pres.lift fun _ =>
    Pres.bind (Pres.modify fun h hh => hh.modifyObj fun _ => rfl) fun _ =>
    Pres.bind Pres.read fun _ => Pres.bind Pres.lift fun _ => Pres.modify fun h hh => hh.setStokes

/-- A call without pixel data of its own returns an image with the header object of its source, and leaves that header
as it was. -/
theorem inherit_exec {s : State} (hv : Valid s) (o : Op) (ho : o.setsData = false) {k : Nat} (hk : o.CalledOn s k) :
    Triple (fun h => h = s.heap) (exec s.images o)
      (fun r h => ∀ n, r = some n → HasHdr n (s.heap.objs.cell k).header (s.heap.headerOf k) h) (fun _ => True) := by
  obtain ⟨i, hsrc, hi⟩ := hk
  have hlt := mem_lt hv hi
  have ret : ∀ n, Triple (HasHdr n (s.heap.objs.cell k).header (s.heap.headerOf k)) (pure (some n) : M (Option Nat))
      (fun r h => ∀ n, r = some n → HasHdr n (s.heap.objs.cell k).header (s.heap.headerOf k) h) (fun _ => True) := by
    intro n
    refine Triple.pure fun h hh m hm => ?_
    injection hm with hm
    rw [← hm]; exact hh
  have hcopy : ∀ dic, HasHdr s.heap.objs.size (s.heap.objs.cell k).header (s.heap.headerOf k) (copyHeap k dic s.heap) := by
    intro dic
    obtain ⟨e1, e2, e3, e4⟩ := copyHeap_cell k dic s.heap
    refine ⟨?_, ?_⟩
    · rw [e4, Store.alloc_cell_self]
    · rw [e3]; rfl
  intro h hh
  subst hh
  unfold exec
  cases o with
  | fromImage i' dic dark flat junk =>
    cases hsrc
    cases dark with
    | some _ => cases ho
    | none =>
      cases flat with
      | some _ => cases ho
      | none =>
        dsimp only
        rw [run_named hi, run_namedOpt_none, run_namedOpt_none, run_of_ok (newFromImage_run k dic s.heap)]
        exact ret _ _ (hcopy dic)
  | demodulate i' D dem =>
    cases hsrc
    dsimp only
    rw [run_named hi]
    unfold demodulateObj
    rw [run_bind, run_of_ok (newFromImage_run k none s.heap)]
    refine Triple.bind (Q := fun n => HasHdr n (s.heap.objs.cell k).header (s.heap.headerOf k)) ?_ ret _ (hcopy none)
    have hfin : ∀ {m : Nat}, Triple (HasHdr m (s.heap.objs.cell k).header (s.heap.headerOf k))
        (M.modify (fun h' => h'.modifyObj m (fun o => { o with isDemodulated := true })) >>= fun _ => (pure m : M Nat))
        (fun n => HasHdr n (s.heap.objs.cell k).header (s.heap.headerOf k)) (fun _ => True) := fun {m} =>
      Triple.bind (Triple.modify (Q := fun _ => HasHdr m (s.heap.objs.cell k).header (s.heap.headerOf k))
        fun h hh => hh.modifyObj fun _ => rfl) fun _ => Triple.pure fun _ h => h
    split
    · exact Triple.bind (Triple.of_pres (pres_has_demosaic _ _ _ _ _)) fun _ =>
        Triple.bind (Triple.of_pres Pres.read) fun _ => Triple.bind (Triple.of_pres Pres.lift) fun _ =>
        Triple.bind (Triple.modify (Q := fun _ => HasHdr _ _ _) fun h hh => hh.setStokes) fun _ => hfin
    · exact Triple.bind (Triple.of_pres Pres.read) fun _ => Triple.bind (Triple.of_pres Pres.lift) fun _ =>
        Triple.bind (Triple.modify (Q := fun _ => HasHdr _ _ _) fun h hh => hh.setStokes) fun _ => hfin
  | arithNumber op i' c junk =>
    cases hsrc
    dsimp only
    rw [run_named hi]
    refine Triple.bind (P := fun h => h = s.heap) (Q := fun n => HasHdr n (s.heap.objs.cell k).header (s.heap.headerOf k)) ?_
      ret s.heap rfl
    intro h hh
    subst hh
    unfold arithNumberObj
    rw [run_read]
    cases hx : arithData op junk (s.heap.dataOf k) (.number c) with
    | error e => exact ⟨fun a ha => (by cases ha), fun _ _ => trivial⟩
    | ok d =>
      rw [run_lift_ok, run_read]
      have hrun := newFromArray_run d (some (s.heap.dicOf k)) s.heap
      cases hS : dataStokes d (dicVal (some (s.heap.dicOf k)) s.heap) with
      | error e =>
        rw [hS] at hrun
        rw [run_of_err hrun]
        exact ⟨fun a ha => (by cases ha), fun _ _ => trivial⟩
      | ok S =>
        rw [hS] at hrun
        rw [run_of_ok hrun, run_modify]
        refine ⟨fun a ha => ?_, fun _ _ => trivial⟩
        cases ha
        refine ⟨?_, ?_⟩
        · show ((Store.set (arrayHeap d S (some (s.heap.dicOf k)) s.heap).objs s.heap.objs.size _).cell s.heap.objs.size).header = _
          rw [Store.set_cell_self]
          show ((arrayHeap d S (some (s.heap.dicOf k)) s.heap).objs.cell k).header = _
          exact congrArg ImgObj.header (Store.alloc_cell_of_lt _ _ hlt)
        · exact Store.alloc_cell_of_lt _ _ (hv.1 k hlt).2.2
  | demosaic i' mode =>
    cases hsrc
    dsimp only
    rw [run_named hi]
    exact Triple.bind (Triple.of_pres (pres_has_demosaic k (s.heap.objs.cell k).header k (s.heap.headerOf k) mode))
      (fun _ => ret k) s.heap ⟨rfl, rfl⟩
  | setDefault d => cases hsrc
  | _ => cases ho

/-! ## Which header object an image has -/

def HdrRef (n c : Nat) (h : Heap) : Prop := (h.objs.cell n).header = c

theorem HdrRef.modifyObj {n c m : Nat} {h : Heap} (hh : HdrRef n c h) {f : ImgObj → ImgObj}
    (hf : ∀ o, (f o).header = o.header) : HdrRef n c (h.modifyObj m f) := by
  show ((h.objs.set m _).cell n).header = c
  by_cases hnm : n = m
  · subst hnm
    rw [Store.set_cell_self, hf]
    exact hh
  · rw [Store.set_cell_of_ne _ _ hnm]
    exact hh

theorem HdrRef.setData {n c m : Nat} {h : Heap} (hh : HdrRef n c h) {d : Img ℝ} : HdrRef n c (h.setData m d) :=
  HdrRef.modifyObj (h := { h with datas := h.datas.alloc d, headers := h.headers.set (h.objs.cell m).header ⟨d.w, d.h⟩ }) hh
    (f := fun o => { o with data := h.datas.size }) fun _ => rfl

theorem HdrRef.setStokes {n c m : Nat} {h : Heap} (hh : HdrRef n c h) {S : StokesVec} : HdrRef n c (h.setStokes m S) :=
  HdrRef.modifyObj (h := { h with stokes := h.stokes.alloc S }) hh (f := fun o => { o with stokes := h.stokes.size })
    (fun _ => rfl)

theorem pres_ref_updateStokes (n c m : Nat) : Pres (HdrRef n c) (updateStokes m) :=
  Pres.bind Pres.read fun _ => Pres.bind Pres.lift fun _ => Pres.modify fun _ hh => hh.setStokes

theorem pres_ref_updateData (n c m : Nat) (d : Img ℝ) : Pres (HdrRef n c) (updateDataAndStokes m d) :=
  Pres.bind (Pres.modify fun _ hh => hh.setData) fun _ => pres_ref_updateStokes n c m

theorem pres_ref_subtractDark (n c m j : Nat) : Pres (HdrRef n c) (subtractDark m j) :=
  Pres.bind Pres.read fun _ => Pres.bind Pres.lift fun _ => Pres.bind (Pres.modify fun _ hh => hh.setData) fun _ =>
  Pres.bind (Pres.modify fun _ hh => hh.setData) fun _ => Pres.bind (pres_ref_updateStokes n c m) fun _ =>
  Pres.modify fun _ hh => hh.modifyObj fun _ => rfl

theorem pres_ref_correctFlat (n c m j : Nat) (junk : Nat → Nat → ℝ) : Pres (HdrRef n c) (correctFlat junk m j) :=
  Pres.bind Pres.read fun _ => Pres.bind Pres.lift fun _ => Pres.bind (Pres.modify fun _ hh => hh.setData) fun _ =>
  Pres.bind (pres_ref_updateStokes n c m) fun _ => Pres.modify fun _ hh => hh.modifyObj fun _ => rfl

theorem pres_ref_applyCorrections (n c m : Nat) (junk : Nat → Nat → ℝ) (dark flat : Option Nat) :
    Pres (HdrRef n c) (applyCorrections junk m dark flat) := by
  unfold applyCorrections
  split
  · exact Pres.pure
  · exact pres_ref_subtractDark _ _ _ _
  · exact pres_ref_correctFlat _ _ _ _ _
  · exact Pres.bind (pres_ref_subtractDark _ _ _ _) fun _ => pres_ref_correctFlat _ _ _ _ _

theorem ref_new {k c : Nat} (dic : Option AngleDic) :
    Triple (HdrRef k c) (newFromImage k dic) (fun n h => HdrRef n c h) (fun _ => True) := by
  intro h hh
  rw [newFromImage_run]
  refine ⟨fun a ha => ?_, fun _ _ => trivial⟩
  cases ha
  show ((copyHeap k dic h).objs.cell h.objs.size).header = c
  rw [(copyHeap_cell k dic h).2.2.2, Store.alloc_cell_self]
  exact hh

theorem ref_pure {n c : Nat} : Triple (HdrRef n c) (pure n : M Nat) (fun n h => HdrRef n c h) (fun _ => True) :=
  Triple.pure fun _ h => h

theorem ref_derive {k c : Nat} (F : Heap → Py (Img ℝ)) :
    Triple (HdrRef k c) (deriveObj k F) (fun n h => HdrRef n c h) (fun _ => True) :=
  Triple.bind (Triple.of_pres Pres.read) fun _ => Triple.bind (Triple.of_pres Pres.lift) fun _ =>
  Triple.bind (ref_new none) fun n => Triple.bind (Triple.of_pres (pres_ref_updateData n c n _)) fun _ => ref_pure

/-- An image made from another one has its header object. -/
theorem ref_exec {s : State} (hv : Valid s) (o : Op) {k : Nat} (hk : o.CalledOn s k) (ho : o.inPlace = false) :
    Triple (fun h => h = s.heap) (exec s.images o)
      (fun r h => ∀ n, r = some n → HdrRef n (s.heap.objs.cell k).header h) (fun _ => True) := by
  by_cases hset : o.setsData = false
  · exact Triple.conseq (inherit_exec hv o hset hk) (fun _ h => h) (fun _ _ h n hn => (h n hn).1) (fun _ _ => trivial)
  obtain ⟨i, hsrc, hi⟩ := hk
  have fin : ∀ {mk : M Nat}, Triple (HdrRef k (s.heap.objs.cell k).header) mk
      (fun n h => HdrRef n (s.heap.objs.cell k).header h) (fun _ => True) →
      Triple (HdrRef k (s.heap.objs.cell k).header) (mk >>= fun n => (pure (some n) : M (Option Nat)))
      (fun r h => ∀ n, r = some n → HdrRef n (s.heap.objs.cell k).header h) (fun _ => True) := by
    intro mk hmk
    refine Triple.bind hmk fun n => Triple.pure fun h hh m hm => ?_
    injection hm with hm
    rw [← hm]; exact hh
  have nb : ∀ (f : Nat → M (Option Nat)), (named s.images i >>= f) = f k := fun f => funext fun h => run_named hi
  have nj : ∀ (j : Nat) (f : Nat → M (Option Nat)), (∀ a, Triple (HdrRef k (s.heap.objs.cell k).header) (f a)
      (fun r h => ∀ n, r = some n → HdrRef n (s.heap.objs.cell k).header h) (fun _ => True)) →
      Triple (HdrRef k (s.heap.objs.cell k).header) (named s.images j >>= f)
      (fun r h => ∀ n, r = some n → HdrRef n (s.heap.objs.cell k).header h) (fun _ => True) := by
    intro j f hf
    refine Triple.bind (Triple.of_pres ?_) hf
    unfold named
    split
    · exact Pres.pure
    · exact Pres.lift
  have ret : ∀ n, Triple (HdrRef n (s.heap.objs.cell k).header) (pure (some n) : M (Option Nat))
      (fun r h => ∀ n, r = some n → HdrRef n (s.heap.objs.cell k).header h) (fun _ => True) := by
    intro n
    refine Triple.pure fun h hh m hm => ?_
    injection hm with hm
    rw [← hm]; exact hh
  suffices hmain : Triple (HdrRef k (s.heap.objs.cell k).header) (exec s.images o)
      (fun r h => ∀ n, r = some n → HdrRef n (s.heap.objs.cell k).header h) (fun _ => True) ∨
      Triple (fun h => h = s.heap) (exec s.images o)
      (fun r h => ∀ n, r = some n → HdrRef n (s.heap.objs.cell k).header h) (fun _ => True) by
    rcases hmain with h | h
    · exact Triple.conseq h (fun h hh => by rw [hh]; rfl) (fun _ _ h => h) (fun _ h => h)
    · exact h
  unfold exec
  cases o with
  | fromImage i' dic dark flat junk =>
    cases hsrc
    dsimp only
    rw [nb]
    left
    have hopt : ∀ x, Pres (HdrRef k (s.heap.objs.cell k).header) (namedOpt s.images x) := by
      intro x
      cases x with
      | none => exact Pres.pure
      | some j =>
        refine Pres.bind ?_ fun _ => Pres.pure
        unfold named
        split
        · exact Pres.pure
        · exact Pres.lift
    refine Triple.bind (Triple.of_pres (hopt dark)) (fun _ => Triple.bind (Triple.of_pres (hopt flat)) fun _ => ?_)
    refine Triple.bind (ref_new dic) fun n => Triple.bind (Triple.of_pres (pres_ref_applyCorrections n _ n junk _ _)) fun _ => ?_
    exact ret n
  | rebin i' b =>
    cases hsrc
    dsimp only
    rw [nb]
    left
    refine fin ?_
    unfold rebinObj
    split
    · exact fun _ _ => ⟨fun a ha => (by cases ha), fun _ _ => trivial⟩
    · exact Triple.bind (ref_new none) fun n => Triple.bind (Triple.of_pres Pres.read) fun _ =>
        Triple.bind (Triple.of_pres Pres.lift) fun _ =>
        Triple.bind (Triple.of_pres (pres_ref_updateData n _ n _)) fun _ => ref_pure
  | congrid i' ny nx =>
    cases hsrc
    dsimp only
    rw [nb]
    left
    refine fin ?_
    unfold congridObj
    refine Triple.bind (Triple.of_pres Pres.read) fun _ => Triple.bind (Triple.of_pres Pres.lift) fun _ =>
      Triple.bind (ref_new none) fun n => ?_
    refine Triple.bind (Triple.of_pres (Pres.modify fun _ hh => hh.setData)) fun _ => ?_
    refine Triple.bind (Triple.of_pres Pres.read) fun _ => ?_
    refine Triple.bind (Triple.of_pres Pres.lift) fun _ => ?_
    refine Triple.bind (Triple.of_pres Pres.lift) fun _ => ?_
    refine Triple.bind (Triple.of_pres Pres.lift) fun _ => ?_
    exact Triple.bind (Triple.of_pres (Pres.modify fun _ hh => hh.setStokes)) fun _ => ref_pure
  | rotate i' rot =>
    cases hsrc
    dsimp only
    rw [nb]
    left
    refine fin ?_
    unfold rotateObj
    have hp : ∀ c' (kk : Fin 3) a, Pres (HdrRef k (s.heap.objs.cell k).header) (setPlane c' kk a) := fun c' kk a =>
      Pres.bind Pres.read fun _ => Pres.bind Pres.lift fun _ => Pres.modify fun h hh => hh
    refine Triple.bind (Triple.of_pres Pres.read) fun _ => Triple.bind (Triple.of_pres Pres.lift) fun _ =>
      Triple.bind (Triple.of_pres Pres.read) fun c => ?_
    refine Triple.bind (Triple.of_pres (?_ : Pres _ (rewritePlanes c rot))) fun _ => Triple.bind (ref_new none) fun n => ?_
    · exact Pres.bind Pres.read fun _ => Pres.bind Pres.lift fun _ => Pres.bind (hp c 0 _) fun _ =>
        Pres.bind Pres.read fun _ => Pres.bind Pres.lift fun _ => Pres.bind (hp c 1 _) fun _ =>
        Pres.bind Pres.read fun _ => Pres.bind Pres.lift fun _ => hp c 2 _
    · refine Triple.bind (Triple.of_pres (Pres.modify fun _ hh => hh.setData)) fun _ => ?_
      exact Triple.bind (Triple.of_pres (Pres.modify fun _ hh => hh.modifyObj fun _ => rfl)) fun _ => ref_pure
  | shift i' y x m =>
    cases hsrc
    dsimp only
    rw [nb]
    left
    exact fin (ref_derive _)
  | cleanHotPixels i' f median =>
    cases hsrc
    dsimp only
    rw [nb]
    left
    exact nj f _ fun f' => fin (ref_derive _)
  | arithImage op i' j junk =>
    cases hsrc
    dsimp only
    rw [nb]
    right
    refine Triple.bind (Q := fun _ h => h = s.heap) ?_ fun j' => Triple.bind ?_ ret
    · unfold named
      split
      · exact Triple.pure fun _ h => h
      · exact fun _ _ => ⟨fun a ha => (by cases ha), fun _ _ => trivial⟩
    have h2 := hdr_derive_shared k (fun h => arithData op junk (h.dataOf k) (.image (h.dataOf j'))) s.heap (mem_lt hv hi)
    have h1 := ref_derive (k := k) (c := (s.heap.objs.cell k).header)
      (fun h => arithData op junk (h.dataOf k) (.image (h.dataOf j'))) s.heap rfl
    unfold arithImageObj
    refine Triple.bind (Q := fun n h => HdrRef n (s.heap.objs.cell k).header h ∧
      (h.objs.cell k).header = (h.objs.cell n).header) ?_ fun n => ?_
    · intro h hh
      subst hh
      exact ⟨fun a ha => ⟨h1.1 a ha, (h2.1 a ha).2⟩, fun _ _ => trivial⟩
    · refine Triple.bind (Triple.modify (Q := fun _ => HdrRef n (s.heap.objs.cell k).header) fun h hh => ?_) fun _ => ref_pure
      show ((h.objs.set n _).cell n).header = _
      rw [Store.set_cell_self]
      exact hh.2.trans hh.1
  | fromArray => cases hsrc
  | demodulate => exact absurd rfl hset
  | arithNumber => exact absurd rfl hset
  | setDefault d => cases hsrc
  | _ => cases ho

end

end Micropol
