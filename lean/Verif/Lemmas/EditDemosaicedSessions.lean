import Verif.Lemmas.EditDemosaiced
import Verif.Lemmas.ObjectShape

/-! # Lists of demosaiced images through sessions -/

set_option autoImplicit false
set_option linter.unusedVariables false

namespace Micropol

noncomputable section

open Classical

/-! ## Results with demosaiced images of their own, or none -/

theorem new_demodulate {h0 : Heap} (k : Nat) (D : Demodulator ℝ) :
    Triple (fun h => h = h0) (demodulateObj k D true)
      (fun n h => NewMark h0 n (h.objs.cell n).mark ∧ n = h0.objs.size) (fun _ => True) := by
  rintro h rfl
  unfold demodulateObj
  rw [run_of_ok (newFromImage_run k none h)]
  generalize hh1 : ({ dicHeap none h with objs := h.objs.alloc _ } : Heap) = h1
  have hold : ∀ j, j < h.objs.size → h1.objs.cell j = h.objs.cell j := by
    intro j hj
    rw [← hh1]
    exact Store.alloc_cell_of_lt _ _ hj
  have hsz : h1.objs.size = h.objs.size + 1 := by rw [← hh1]; rfl
  have key : Triple (DemP h1 (fun _ => True) h.objs.size) (demosaicObj h.objs.size "adjacent" >>= fun _ =>
      M.read (fun h' => demodulateDemosaicing (h'.dataOf h.objs.size) (h'.dicOf h.objs.size) D) >>= fun S =>
      M.lift S >>= fun S => M.modify (fun h' => h'.setStokes h.objs.size ⟨S, false⟩) >>= fun _ =>
      M.modify (fun h' => h'.modifyObj h.objs.size (fun o => { o with isDemodulated := true })) >>= fun _ =>
      (pure h.objs.size : M Nat)) (fun n h' => NewMark h n (h'.objs.cell n).mark ∧ n = h.objs.size) (fun _ => True) := by
    refine Triple.bind (gives_demosaic "adjacent") fun _ => big_readLift fun S =>
      Triple.bind (weaken (Pres.modify fun _ hf => hf.setStokes _)) fun _ =>
      Triple.bind (weaken (Pres.modify fun _ hf => hf.modifyObj fun _ => rfl)) fun _ => Triple.pure ?_
    rintro h' ⟨-, a, b, c, d⟩
    refine ⟨⟨a, b, c, fun j hj hjk => ?_⟩, rfl⟩
    have := d j (by omega) hjk
    rw [hold j hj] at this
    exact this
  exact key h1 ⟨⟨rfl, fun _ _ => rfl⟩, trivial⟩

/-- What a returned object that shares with nobody says. -/
def OwnMark (h0 : Heap) (n : Nat) (m : Mark) : Prop := m = (0, none, false) ∨ NewMark h0 n m

theorem own_exec {s : State} {o : Op} (hin : o.inPlace = false) (hs : o.sharesDemosaiced = false) :
    Triple (fun h => h = s.heap) (exec s.images o) (fun r h => ∀ n, r = some n → OwnMark s.heap n (h.objs.cell n).mark)
      (fun _ => True) := by
  have named' : ∀ {i : Nat} {β : Type} {P : Heap → Prop} {Q : β → Heap → Prop} {f : Nat → M β},
      (∀ k, Triple P (f k) Q (fun _ => True)) → Triple P (named s.images i >>= f) Q (fun _ => True) :=
    fun hf => Triple.bind (weaken Pres.lift) fun k => hf k
  have opt : ∀ {j : Option Nat} {β : Type} {P : Heap → Prop} {Q : β → Heap → Prop} {f : Option Nat → M β},
      (∀ d, Triple P (f d) Q (fun _ => True)) → Triple P (namedOpt s.images j >>= f) Q (fun _ => True) := by
    intro j β P Q f hf
    refine Triple.bind (Q := fun _ => P) ?_ hf
    cases j with
    | none => exact Triple.pure fun h hh => hh
    | some j => exact Triple.bind (weaken Pres.lift) fun d => Triple.pure fun h hh => hh
  cases o with
  | setDefault dic =>
    exact Triple.bind (Q := fun _ _ => True) (Triple.modify fun _ _ => trivial) fun _ => Triple.pure fun _ _ n hn => nomatch hn
  | fromArray d dic dark flat junk =>
    refine opt fun dk => opt fun fl => Triple.bind (ends_newFromArray d dic) fun n => ?_
    have := Ends.step (n := n) (R := (0, none, false)) (f := fun _ => (pure n : M Nat))
      (fun _ _ => dem_corrections junk dk fl) fun _ => Ends.pure
    intro h hh
    have hk : KeepsMark n (applyCorrections junk n dk fl) := fun _ _ => dem_corrections junk dk fl
    have he := hk.out h
    cases hx : applyCorrections junk n dk fl h with
    | mk a h2 =>
      cases a with
      | error e => rw [run_of_err hx]; exact ⟨fun r hr => (by cases hr), fun _ _ => trivial⟩
      | ok u =>
        rw [run_of_ok hx]
        rw [hx] at he
        refine ⟨fun r hr => ?_, fun _ _ => trivial⟩
        cases hr
        rintro m ⟨⟩
        exact Or.inl (he.trans hh)
  | demodulate i D dem =>
    cases dem with
    | false => cases hs
    | true =>
      refine named' fun k => Triple.bind (new_demodulate k D) fun n => Triple.pure ?_
      rintro h hh m ⟨⟩
      exact Or.inr hh.1
  | arithNumber op i c junk =>
    refine named' fun k => Triple.bind (Q := fun n h => Says n (0, none, false) h) ?_ fun n => Triple.pure ?_
    · exact big_readLift fun d => Triple.bind (weaken Pres.read) fun dc =>
        Triple.bind (ends_newFromArray d _) fun n => Ends.step (KeepsMark.flag
          (f := fun h o => { o with header := (h.objs.cell k).header }) fun _ _ => rfl) fun _ => Ends.pure
    · rintro h hh m ⟨⟩
      exact Or.inl hh
  | fromImage i dic dark flat junk => cases hs
  | rebin i b => cases hs
  | congrid i ny nx => cases hs
  | rotate i rot => cases hs
  | shift i y x m => cases hs
  | cleanHotPixels i f med => cases hs
  | arithImage op i j junk => cases hs
  | demosaic i mode => cases hin
  | subtractDark i d => cases hin
  | correctFlat i f junk => cases hin
  | correctIfov i => cases hin
  | maskOcculter i y x r over fill => cases hin

/-! ## In place -/

theorem dem_exec {s : State} {o : Op} {i k : Nat} {h0 : Heap} {A : Mark → Prop} (hin : o.inPlace = true)
    (hsrc : o.source = some i) (hk : s.images[i]? = some k)
    (hA : o.renewsDemosaiced = true → ∀ m, NewMark h0 k m → A m) : Pres (DemP h0 A k) (exec s.images o) := by
  have recv : ∀ {β : Type} {f : Nat → M β}, Pres (DemP h0 A k) (f k) → Pres (DemP h0 A k) (named s.images i >>= f) := by
    intro β f hf
    refine Triple.bind (triple_named s.images i fun _ h => h) fun k' => ?_
    intro h hh
    rw [hk] at hh
    obtain ⟨⟨⟩, hh⟩ := hh
    exact hf h hh
  cases o with
  | demosaic i' mode => cases hsrc; exact recv (Pres.bind (dem_demosaic (hA rfl) mode) fun _ => Pres.pure)
  | subtractDark i' d => cases hsrc; exact recv (Pres.bind Pres.lift fun d => Pres.bind (dem_subtractDark d) fun _ => Pres.pure)
  | correctFlat i' f junk =>
    cases hsrc; exact recv (Pres.bind Pres.lift fun f => Pres.bind (dem_correctFlat junk f) fun _ => Pres.pure)
  | correctIfov i' => cases hsrc; exact recv (Pres.bind dem_correctIfov fun _ => Pres.pure)
  | maskOcculter i' y x r over fill => cases hsrc; exact recv (Pres.bind (dem_mask (hA rfl) y x r over fill) fun _ => Pres.pure)
  | _ => cases hin

theorem renews_exec {s : State} {o : Op} {i k : Nat} {h0 : Heap} {A : Mark → Prop} (hr : o.renewsDemosaiced = true)
    (hsrc : o.source = some i) (hk : s.images[i]? = some k)
    (hA : ∀ i y x r over fill, o = .maskOcculter i y x r over fill → ∀ m, A m → m.2.2 = true) :
    Triple (DemP h0 A k) (exec s.images o) (fun _ => DemP h0 (NewMark h0 k) k) (fun _ => True) := by
  have recv : ∀ {β : Type} {Q : β → Heap → Prop} {f : Nat → M β}, Triple (DemP h0 A k) (f k) Q (fun _ => True) →
      Triple (DemP h0 A k) (named s.images i >>= f) Q (fun _ => True) := by
    intro β Q f hf
    refine Triple.bind (triple_named s.images i fun _ _ => trivial) fun k' => ?_
    intro h hh
    rw [hk] at hh
    obtain ⟨⟨⟩, hh⟩ := hh
    exact hf h hh
  cases o with
  | demosaic i' mode => cases hsrc; exact recv (Triple.bind (gives_demosaic mode) fun _ => Triple.pure fun _ h => h)
  | maskOcculter i' y x r over fill =>
    cases hsrc
    exact recv (Triple.bind (gives_mask (hA _ _ _ _ _ _ rfl) y x r over fill) fun _ => Triple.pure fun _ h => h)
  | _ => cases hr

/-! ## Steps -/

/-- What an image says about its demosaiced images. -/
def markOf (s : State) (k : Nat) : Mark := (s.heap.objs.cell k).mark

theorem step_mark {s : State} (hv : Valid s) (o : Op) {k : Nat} (hk : k < s.heap.objs.size) :
    markOf (step s o) k = markOf s k ∨
      (o.renewsDemosaiced = true ∧ o.CalledOn s k ∧ NewMark s.heap k (markOf (step s o) k)) := by
  by_cases hW : o.W s k
  · obtain ⟨hin, i, hsrc, hi⟩ := hW
    cases hc : o.renewsDemosaiced with
    | true =>
      have := pres_out (dem_exec (h0 := s.heap) (A := fun m => m = markOf s k ∨ NewMark s.heap k m) hin hsrc hi
        (fun _ m hm => Or.inr hm)) (h := s.heap) ⟨⟨rfl, fun _ _ => rfl⟩, Or.inl rfl⟩
      rw [← step_heap] at this
      rcases this.2 with h | h
      · exact Or.inl h
      · exact Or.inr ⟨rfl, ⟨i, hsrc, hi⟩, h⟩
    | false =>
      have := pres_out (dem_exec (h0 := s.heap) (A := fun m => m = markOf s k) hin hsrc hi
        (fun h => by rw [hc] at h; cases h)) (h := s.heap) ⟨⟨rfl, fun _ _ => rfl⟩, rfl⟩
      rw [← step_heap] at this
      exact Or.inl this.2
  · left
    unfold markOf
    rw [(step_frame hv o).obj k hk hW]

theorem step_mark_new {s : State} (hv : Valid s) {o : Op} (hin : o.inPlace = false) {n : Nat}
    (hn : (exec s.images o s.heap).1 = .ok (some n)) :
    (o.sharesDemosaiced = true ∧ ∃ k, o.CalledOn s k ∧ markOf (step s o) n = markOf s k) ∨
    (o.sharesDemosaiced = false ∧ OwnMark s.heap n (markOf (step s o) n)) := by
  cases hs : o.sharesDemosaiced with
  | true =>
    left
    obtain ⟨i, hsrc⟩ : ∃ i, o.source = some i := by cases o <;> first | exact ⟨_, rfl⟩ | cases hs
    cases hi : s.images[i]? with
    | none =>
      exfalso
      cases o <;> first | (cases hs; done) | skip
      all_goals
        cases hsrc
        unfold exec at hn
        dsimp only at hn
        rw [run_named_none hi] at hn
        cases hn
    | some k =>
      refine ⟨rfl, k, ⟨i, hsrc, hi⟩, ?_⟩
      have := (shares_exec hs hsrc hi (markOf s k) s.heap rfl).1 _ hn n rfl
      rw [← step_heap] at this
      exact this
  | false =>
    right
    have := (own_exec hin hs s.heap rfl).1 _ hn n rfl
    rw [← step_heap] at this
    exact ⟨rfl, this⟩

theorem step_mark_renewed {s : State} (hv : Valid s) {o : Op} (hr : o.renewsDemosaiced = true) (hok : Succeeds s o) {k : Nat}
    (hk : o.CalledOn s k)
    (hA : ∀ i y x r over fill, o = .maskOcculter i y x r over fill → (markOf s k).2.2 = true) :
    NewMark s.heap k (markOf (step s o) k) := by
  obtain ⟨i, hsrc, hi⟩ := hk
  obtain ⟨a, ha⟩ := hok
  have := (renews_exec (h0 := s.heap) (A := fun m => m = markOf s k) hr hsrc hi
    (fun i y x r over fill e m hm => by rw [hm]; exact hA i y x r over fill e) s.heap ⟨⟨rfl, fun _ _ => rfl⟩, rfl⟩).1 a ha
  rw [← step_heap] at this
  exact this.2

theorem setList_mark (h : Heap) (l : Nat) (d : Fin 4 → Img ℝ) (k : Nat) : ((h.setList l d).objs.cell k).mark =
    ((h.objs.cell k).mark.1, if (h.objs.cell k).mark.1 = l then some d else (h.objs.cell k).mark.2.1, (h.objs.cell k).mark.2.2) := by
  rw [setList_cell]
  rfl

/-! ## The invariant -/

def GoodMark (m : Mark) : Prop := (m.1 = 0 ↔ m.2.1 = none) ∧ m.2.2 = m.2.1.isSome

structure ListInv (s : State) : Prop where
  good : ∀ k ∈ s.images, GoodMark (markOf s k)
  same : ∀ k ∈ s.images, ∀ n ∈ s.images, (markOf s k).1 = (markOf s n).1 → (markOf s k).2.1 = (markOf s n).2.1

theorem NewMark.good {h : Heap} {k : Nat} {m : Mark} (hm : NewMark h k m) : GoodMark m := by
  obtain ⟨a, ⟨d, b⟩, c, -⟩ := hm
  exact ⟨⟨fun e => absurd e c, fun e => by rw [b] at e; cases e⟩, by rw [a, b]; rfl⟩

theorem OwnMark.good {h : Heap} {k : Nat} {m : Mark} (hm : OwnMark h k m) : GoodMark m := by
  rcases hm with rfl | hm
  · exact ⟨⟨fun _ => rfl, fun _ => rfl⟩, rfl⟩
  · exact hm.good

theorem init_list : ListInv initState := ⟨fun k hk => (by cases hk), fun k hk => (by cases hk)⟩

/-- Old and new images of a call. -/
theorem step_old_new {s : State} (hv : Valid s) (o : Op) {k : Nat} (hk : k ∈ (step s o).images) :
    (k ∈ s.images ∧ k < s.heap.objs.size) ∨
      (o.inPlace = false ∧ s.heap.objs.size ≤ k ∧ (exec s.images o s.heap).1 = .ok (some k)) := by
  rcases step_images s o with h | ⟨n, hn, h⟩
  · rw [h] at hk
    exact Or.inl ⟨hk, hv.2 k hk⟩
  · rw [h, List.mem_append, List.mem_singleton] at hk
    rcases hk with hk | rfl
    · exact Or.inl ⟨hk, hv.2 k hk⟩
    · obtain ⟨h1, h2, h3⟩ := step_new hv o hn
      cases hin : o.inPlace with
      | false => exact Or.inr ⟨rfl, h3 hin, hn⟩
      | true =>
        obtain ⟨i, hsrc, hi⟩ := h2 hin
        exact Or.inl ⟨List.mem_of_getElem? hi, mem_lt hv hi⟩

theorem renews_inPlace {o : Op} (h : o.renewsDemosaiced = true) : o.inPlace = true := by
  cases o <;> first | rfl | (cases h; done)

/-- An image after a call that makes a new one: it says what some image before said, or is the new one with a list of its own. -/
theorem step_mark_mem {s : State} (hv : Valid s) {o : Op} (hin : o.inPlace = false) {k : Nat} (hk : k ∈ (step s o).images) :
    (∃ j ∈ s.images, markOf (step s o) k = markOf s j) ∨
      (s.heap.objs.size ≤ k ∧ (exec s.images o s.heap).1 = .ok (some k) ∧ OwnMark s.heap k (markOf (step s o) k)) := by
  rcases step_old_new hv o hk with ⟨hm, hlt⟩ | ⟨-, hge, hn⟩
  · rcases step_mark hv o hlt with h | ⟨h, -, -⟩
    · exact Or.inl ⟨k, hm, h⟩
    · rw [renews_inPlace h] at hin; cases hin
  · rcases step_mark_new hv hin hn with ⟨-, j, ⟨i, hsrc, hi⟩, h⟩ | ⟨-, h⟩
    · exact Or.inl ⟨j, List.mem_of_getElem? hi, h⟩
    · exact Or.inr ⟨hge, hn, h⟩

theorem called_unique {s : State} {o : Op} {k n : Nat} (hk : o.CalledOn s k) (hn : o.CalledOn s n) : k = n := by
  obtain ⟨i, hsrc, hi⟩ := hk
  obtain ⟨j, hsrc', hj⟩ := hn
  rw [hsrc] at hsrc'
  cases hsrc'
  rw [hi] at hj
  cases hj
  rfl

/-- Two different images after a call in place. -/
theorem step_pair {s : State} (hv : Valid s) (o : Op) {k n : Nat} (hk : k < s.heap.objs.size) (hn : n < s.heap.objs.size)
    (hne : k ≠ n) : (markOf (step s o) k = markOf s k ∧ markOf (step s o) n = markOf s n) ∨
      (markOf (step s o) k).1 ≠ (markOf (step s o) n).1 := by
  rcases step_mark hv o hk with a | ⟨-, hr, a⟩ <;> rcases step_mark hv o hn with b | ⟨-, hr', b⟩
  · exact Or.inl ⟨a, b⟩
  · right; rw [a]; exact fun h => b.2.2.2 k hk hne h.symm
  · right; rw [b]; exact a.2.2.2 n hn (Ne.symm hne)
  · exact absurd (called_unique hr hr') hne

theorem step_list {s : State} (hv : Valid s) (hI : ListInv s) (o : Op) : ListInv (step s o) := by
  have hlt : ∀ {k}, k ∈ s.images → k < s.heap.objs.size := fun hk => hv.2 _ hk
  cases hin : o.inPlace with
  | true =>
    have old : ∀ {k}, k ∈ (step s o).images → k ∈ s.images := by
      intro k hk
      rcases step_old_new hv o hk with h | ⟨h, -⟩
      · exact h.1
      · rw [hin] at h; cases h
    refine ⟨fun k hk => ?_, fun k hk n hn he => ?_⟩
    · rcases step_mark hv o (hlt (old hk)) with h | ⟨-, -, h⟩
      · rw [h]; exact hI.good k (old hk)
      · exact h.good
    · by_cases hne : k = n
      · rw [hne]
      · rcases step_pair hv o (hlt (old hk)) (hlt (old hn)) hne with ⟨a, b⟩ | h
        · rw [a, b] at he ⊢; exact hI.same k (old hk) n (old hn) he
        · exact absurd he h
  | false =>
    have one : ∀ {k n}, k ∈ (step s o).images → n ∈ (step s o).images → (∃ j ∈ s.images, markOf (step s o) k = markOf s j) →
        (s.heap.objs.size ≤ n ∧ (exec s.images o s.heap).1 = .ok (some n) ∧ OwnMark s.heap n (markOf (step s o) n)) →
        (markOf (step s o) k).1 = (markOf (step s o) n).1 → (markOf (step s o) k).2.1 = (markOf (step s o) n).2.1 := by
      rintro k n - - ⟨j, hj, e⟩ ⟨hge, -, h | h⟩ he
      · rw [e, h] at he ⊢
        exact (hI.good j hj).1.1 he
      · rw [e] at he
        exact absurd he.symm (h.2.2.2 j (hlt hj) (by have := hlt hj; omega))
    refine ⟨fun k hk => ?_, fun k hk n hn he => ?_⟩
    · rcases step_mark_mem hv hin hk with ⟨j, hj, h⟩ | ⟨-, -, h⟩
      · rw [h]; exact hI.good j hj
      · exact h.good
    · rcases step_mark_mem hv hin hk with a | a <;> rcases step_mark_mem hv hin hn with b | b
      · obtain ⟨j, hj, a⟩ := a
        obtain ⟨l, hl, b⟩ := b
        rw [a, b] at he ⊢
        exact hI.same j hj l hl he
      · exact one hk hn a b he
      · exact (one hn hk b a he.symm).symm
      · have := a.2.1.symm.trans b.2.1
        injection this with this
        injection this with this
        rw [this]

theorem writeDem_mark (s : State) (i : Nat) (q : Fin 4) (y x : Int) (v : ℝ) :
    (∃ k d j l, s.images[i]? = some k ∧ (markOf s k).2.1 = some d ∧ Img.resolve (d q).h y = some j ∧
      Img.resolve (d q).w x = some l ∧ ∀ n, markOf (editStep s (.writeDemosaiced i q y x v)) n =
        ((markOf s n).1, if (markOf s n).1 = (markOf s k).1 then some (fun r => if r = q then (d q).setPx j l v else d r)
          else (markOf s n).2.1, (markOf s n).2.2)) ∨
    (editStep s (.writeDemosaiced i q y x v) = s ∧
      ∀ k d, s.images[i]? = some k → (markOf s k).2.1 = some d → Img.resolve (d q).h y = none ∨ Img.resolve (d q).w x = none) := by
  rcases writeDem_cases s i q y x v with ⟨k, d, j, l, hi, hd, hj, hl, e⟩ | h
  · refine Or.inl ⟨k, d, j, l, hi, hd, hj, hl, fun n => ?_⟩
    rw [e]
    exact setList_mark _ _ _ n
  · exact Or.inr h

theorem editStep_list {s : State} (hv : Valid s) (hI : ListInv s) (e : Edit) : ListInv (editStep s e) := by
  have keep : ∀ t : State, t.images = s.images → t.heap.objs = s.heap.objs → ListInv t := by
    intro t h1 h2
    have : ∀ k, markOf t k = markOf s k := fun k => by unfold markOf; rw [h2]
    refine ⟨fun k hk => ?_, fun k hk n hn => ?_⟩
    · rw [this]; exact hI.good k (h1 ▸ hk)
    · rw [this, this]; exact hI.same k (h1 ▸ hk) n (h1 ▸ hn)
  cases e with
  | call o => exact step_list hv hI o
  | write i y x v => exact keep _ rfl (write_objs s i y x v).1
  | writeMap i p y x v => exact keep _ rfl (writeMap_objs s i p y x v).1
  | writeDemosaiced i q y x v =>
    rcases writeDem_mark s i q y x v with ⟨k, d, j, l, hi, hd, -, -, e⟩ | ⟨e, -⟩
    · have hks := List.mem_of_getElem? hi
      refine ⟨fun n hn => ?_, fun n hn m hm he => ?_⟩
      · obtain ⟨g1, g2⟩ := hI.good n hn
        rw [e]
        by_cases h : (markOf s n).1 = (markOf s k).1
        · have := hI.same n hn k hks h
          rw [hd] at this
          rw [if_pos h]
          refine ⟨⟨fun h0 => ?_, fun h0 => by cases h0⟩, ?_⟩
          · rw [g1.1 h0] at this; cases this
          · rw [this] at g2; exact g2
        · rw [if_neg h]
          exact ⟨g1, g2⟩
      · rw [e, e] at he ⊢
        dsimp only at he ⊢
        by_cases h : (markOf s n).1 = (markOf s k).1
        · rw [if_pos h, if_pos (he ▸ h)]
        · rw [if_neg h, if_neg (he ▸ h)]
          exact hI.same n hn m hm he
    · rw [e]; exact hI

theorem runEdits_list (es : List Edit) : ListInv (runEdits es) := by
  induction es using List.reverseRecOn with
  | nil => exact init_list
  | append_singleton l e ih => rw [runEdits_snoc]; exact editStep_list (runEdits_valid l) ih e

/-! ## Apart -/

/-- Different lists, or none. -/
def ListsApart (s : State) (k n : Nat) : Prop := (markOf s k).1 ≠ (markOf s n).1 ∨ (markOf s k).1 = 0

theorem ListsApart.symm {s : State} {k n : Nat} (h : ListsApart s k n) : ListsApart s n k := by
  rcases h with h | h
  · exact Or.inl h.symm
  · by_cases h' : (markOf s n).1 = 0
    · exact Or.inr h'
    · left; rw [h]; exact h'

theorem edit_lists {s : State} (e : Edit) (hne : ∀ o, e ≠ .call o) (k : Nat) :
    (markOf (editStep s e) k).1 = (markOf s k).1 := by
  cases e with
  | call o => exact absurd rfl (hne o)
  | write i y x v => unfold markOf; rw [(write_objs s i y x v).1]
  | writeMap i p y x v => unfold markOf; rw [(writeMap_objs s i p y x v).1]
  | writeDemosaiced i q y x v =>
    rcases writeDem_mark s i q y x v with ⟨k, d, j, l, -, -, -, -, e⟩ | ⟨e, -⟩
    · rw [e]
    · rw [e]

theorem listsApart_step {s : State} (hv : Valid s) (e : Edit) {k n : Nat} (hk : k < s.heap.objs.size)
    (hn : n < s.heap.objs.size) (hne : k ≠ n) (h : ListsApart s k n) : ListsApart (editStep s e) k n := by
  by_cases hc : ∃ o, e = .call o
  · obtain ⟨o, rfl⟩ := hc
    rcases step_pair hv o hk hn hne with ⟨a, b⟩ | h'
    · unfold ListsApart editStep
      rw [a, b]
      exact h
    · exact Or.inl h'
  · push Not at hc
    unfold ListsApart
    rw [edit_lists e hc, edit_lists e hc]
    exact h

theorem listsApart_run (es es' : List Edit) {k n : Nat} (hk : k < (runEdits es).heap.objs.size)
    (hn : n < (runEdits es).heap.objs.size) (hne : k ≠ n) (h : ListsApart (runEdits es) k n) :
    ListsApart (runEdits (es ++ es')) k n := by
  induction es' using List.reverseRecOn with
  | nil => rw [List.append_nil]; exact h
  | append_singleton l e ih =>
    rw [← List.append_assoc, runEdits_snoc]
    exact listsApart_step (runEdits_valid _) e (lt_of_lt_of_le hk (runEdits_size es l))
      (lt_of_lt_of_le hn (runEdits_size es l)) hne ih

/-- A write into a demosaiced image of `k` leaves those of `n`. -/
theorem writeDem_apart {s : State} (hI : ListInv s) (i : Nat) (q : Fin 4) (y x : Int) (v : ℝ) {k n : Nat}
    (hi : s.images[i]? = some k) (h : ListsApart s k n) :
    (editStep s (.writeDemosaiced i q y x v)).demosaiced n = s.demosaiced n := by
  rcases writeDem_mark s i q y x v with ⟨k', d, j, l, hi', hd, -, -, e⟩ | ⟨e, -⟩
  · rw [hi] at hi'
    cases hi'
    have := congrArg (fun m : Mark => m.2.1) (e n)
    refine this.trans ?_
    rcases h with h | h
    · exact if_neg (Ne.symm h)
    · rw [((hI.good k (List.mem_of_getElem? hi)).1.1 h)] at hd
      cases hd
  · rw [e]

theorem sameList_step {s : State} (hv : Valid s) (e : Edit) {k n : Nat} (hk : k < s.heap.objs.size)
    (hn : n < s.heap.objs.size) (h : (markOf s k).1 = (markOf s n).1)
    (hno : ∀ o, e = .call o → o.renewsDemosaiced = true → ¬ o.CalledOn s k ∧ ¬ o.CalledOn s n) :
    (markOf (editStep s e) k).1 = (markOf (editStep s e) n).1 := by
  by_cases hc : ∃ o, e = .call o
  · obtain ⟨o, rfl⟩ := hc
    show (markOf (step s o) k).1 = (markOf (step s o) n).1
    rcases step_mark hv o hk with a | ⟨hc, hr, -⟩
    · rcases step_mark hv o hn with b | ⟨hc, hr, -⟩
      · rw [a, b, h]
      · exact absurd hr (hno o rfl hc).2
    · exact absurd hr (hno o rfl hc).1
  · push Not at hc
    rw [edit_lists e hc, edit_lists e hc]
    exact h

/-! ## Recomputed Stokes maps -/

/-- I, Q and U are those of the demosaiced images `d`. -/
def DemV (d : Fin 4 → Img ℝ) (v : ImgView) : Prop :=
  v.isDemosaiced = true ∧ v.demosaicedImages = some d ∧ theoStokes d v.dic = .ok v.stokes.planes

theorem updateData_dem_ok {v : ImgView} {d : Img ℝ} {s : Fin 4 → Img ℝ} (hd : v.isDemosaiced = true)
    (hs : v.demosaicedImages = some s) (hok : (updateDataAndStokesV d v).1 = .ok ()) : DemV s (updateDataAndStokesV d v).2 := by
  unfold updateDataAndStokesV updateStokesV at hok ⊢
  obtain ⟨S, hS, e⟩ := withVal_ok hok
  rw [e]
  refine ⟨hd, hs, ?_⟩
  change (if v.isDemosaiced = true then _ else _) = _ at hS
  rw [hd, if_pos rfl] at hS
  change (match v.demosaicedImages with | some s => theoStokes s v.dic | none => .error .typeError) = _ at hS
  rw [hs] at hS
  exact hS

theorem subtractDarkV_dem {v : ImgView} {d : Img ℝ} {sd : Fin 4 → Img ℝ} (hd : v.isDemosaiced = true) (hs : v.demosaicedImages = some sd)
    (hok : (subtractDarkV d v).1 = .ok ()) : DemV sd (subtractDarkV d v).2 := by
  unfold subtractDarkV at hok ⊢
  obtain ⟨e, -, h⟩ := withVal_ok hok
  rw [h] at hok ⊢
  obtain ⟨w, h1, h2⟩ := andThen_ok hok
  have := updateData_dem_ok (v := v) (d := e) hd hs (by rw [h1])
  rw [h2]
  rw [h1] at this
  exact this

theorem correctFlatV_dem {junk : Nat → Nat → ℝ} {v : ImgView} {d : Img ℝ} {sd : Fin 4 → Img ℝ} (hd : v.isDemosaiced = true) (hs : v.demosaicedImages = some sd)
    (hok : (correctFlatV junk d v).1 = .ok ()) : DemV sd (correctFlatV junk d v).2 := by
  unfold correctFlatV at hok ⊢
  obtain ⟨e, -, h⟩ := withVal_ok hok
  rw [h] at hok ⊢
  obtain ⟨w, h1, h2⟩ := andThen_ok hok
  have := updateData_dem_ok (v := v) (d := e) hd hs (by rw [h1])
  rw [h2]
  rw [h1] at this
  exact this

theorem applyCorrectionsV_dem {junk : Nat → Nat → ℝ} {d f : Option (Img ℝ)} {v : ImgView} {sd : Fin 4 → Img ℝ} (hv : v.isDemosaiced = true) (hs : v.demosaicedImages = some sd)
    (hc : d.isSome = true ∨ f.isSome = true) (hok : (applyCorrectionsV junk d f v).1 = .ok ()) :
    DemV sd (applyCorrectionsV junk d f v).2 := by
  cases d with
  | none =>
    cases f with
    | none => simp at hc
    | some f => exact correctFlatV_dem hv hs hok
  | some d =>
    cases f with
    | none => exact subtractDarkV_dem hv hs hok
    | some f =>
      change (andThen _ _).1 = _ at hok
      change DemV sd (andThen _ _).2
      obtain ⟨w, h1, h2⟩ := andThen_ok hok
      have := subtractDarkV_dem (v := v) (d := d) hv hs (by rw [h1])
      rw [h1] at this
      rw [h2] at hok ⊢
      exact correctFlatV_dem this.1 this.2.1 hok

theorem value_dem {s : State} {o : Op} (ho : o.recomputes = true) (hn : ∀ op i c junk, o ≠ .arithNumber op i c junk) {v : ImgView} {sd : Fin 4 → Img ℝ} (hv : v.isDemosaiced = true) (hs : v.demosaicedImages = some sd)
    (hok : (o.value s v).1 = .ok ()) : DemV sd (o.value s v).2 := by
  cases o with
  | fromImage i dic dark flat junk =>
    change (optV _ _ _ _).1 = _ at hok
    change DemV sd (optV _ _ _ _).2
    obtain ⟨d, hd, e⟩ := optV_isSome hok
    rw [e] at hok ⊢
    obtain ⟨f, hf, e⟩ := optV_isSome hok
    rw [e] at hok ⊢
    refine applyCorrectionsV_dem hv hs ?_ hok
    rw [hd, hf]
    simpa [Op.recomputes] using ho
  | rebin i b =>
    change (if b ≤ 0 then (Except.error PyErr.valueError, v) else _).1 = _ at hok
    change DemV sd (if b ≤ 0 then (Except.error PyErr.valueError, v) else _).2
    split at hok
    · cases hok
    · rename_i hb
      rw [if_neg hb]
      obtain ⟨d, hd, e⟩ := withVal_ok hok
      rw [e] at hok ⊢
      exact updateData_dem_ok hv hs hok
  | shift i y x m =>
    obtain ⟨d, hd, e⟩ := withVal_ok hok
    change DemV sd (withVal _ _ _).2
    rw [e]
    change (withVal _ _ _).1 = _ at hok
    rw [e] at hok
    exact updateData_dem_ok hv hs hok
  | cleanHotPixels i f median =>
    obtain ⟨k, hk, e⟩ := secondV_ok hok
    change DemV sd (secondV _ _ _ _).2
    change (secondV _ _ _ _).1 = _ at hok
    rw [e] at hok ⊢
    obtain ⟨d, hd, e⟩ := withVal_ok hok
    rw [e] at hok ⊢
    exact updateData_dem_ok hv hs hok
  | arithImage op i j junk =>
    obtain ⟨k, hk, e⟩ := secondV_ok hok
    change DemV sd (secondV _ _ _ _).2
    change (secondV _ _ _ _).1 = _ at hok
    rw [e] at hok ⊢
    obtain ⟨d, hd, e⟩ := withVal_ok hok
    rw [e] at hok ⊢
    exact updateData_dem_ok hv hs hok
  | arithNumber op i c junk => exact absurd rfl (hn op i c junk)
  | subtractDark i j =>
    obtain ⟨k, hk, e⟩ := secondV_ok hok
    change DemV sd (secondV _ _ _ _).2
    change (secondV _ _ _ _).1 = _ at hok
    rw [e] at hok ⊢
    exact subtractDarkV_dem hv hs hok
  | correctFlat i j junk =>
    obtain ⟨k, hk, e⟩ := secondV_ok hok
    change DemV sd (secondV _ _ _ _).2
    change (secondV _ _ _ _).1 = _ at hok
    rw [e] at hok ⊢
    exact correctFlatV_dem hv hs hok
  | correctIfov i =>
    change (withVal _ _ _).1 = _ at hok
    change DemV sd (withVal _ _ _).2
    obtain ⟨d, hd, e⟩ := withVal_ok hok
    rw [e] at hok ⊢
    exact updateData_dem_ok hv hs hok
  | _ => cases ho

end

end Micropol
