import Verif.Lemmas.Memory

/-! # The calls of a session in two memories that show the same -/

set_option autoImplicit false
set_option linter.unusedSectionVars false

namespace Micropol

open M

noncomputable section

open Classical

variable {ρ ρ1 : Nat → Nat → Prop} {N N' i i' j j' : Nat}

/-- In place: the live objects stay what they are. -/
abbrev Par (ρ : Nat → Nat → Prop) {α : Type} (m m' : M α) : Prop := RelP (Sim ρ) (Sim ρ) (Sim ρ) Eq m m'

/-- The sizes of both memories as well. -/
def SimN (ρ : Nat → Nat → Prop) (N N' : Nat) : Heap → Heap → Prop := fun h h' => Sim ρ h h' ∧ h.objs.size = N ∧ h'.objs.size = N'

theorem Par.forget {α : Type} {m m' : M α} (hm : Par ρ1 m m') (hρ : ∀ a b, ρ a b → ρ1 a b) :
    RelP (Sim ρ) (Sim ρ1) (Sim ρ1) Eq m m' := hm.weaken (fun _ _ h => h) (fun _ _ h => h) fun _ _ h => h.mono hρ

/-- `read` and `lift` of something that is the same in both memories. -/
theorem sim_reads {α γ δ : Type} {E P S : Heap → Heap → Prop} {T : γ → δ → Prop} {f g : Heap → Py α} {k : α → M γ} {k' : α → M δ}
    (hE : ∀ h h', P h h' → E h h') (hf : ∀ h h', P h h' → g h' = f h) (hk : ∀ a, RelP E P S T (k a) (k' a)) :
    RelP E P S T (M.read f >>= fun x => M.lift x >>= k) (M.read g >>= fun x => M.lift x >>= k') :=
  RelP.reads (R := Eq) hE (fun h h' p => by rw [hf h h' p]; exact PyRel.refl _) fun a b e => by cases e; exact hk a

theorem Sim.dataOf {h h' : Heap} (hs : Sim ρ h h') (hi : ρ i i') : h'.dataOf i' = h.dataOf i := congrArg ImgView.data (hs.view hi)
theorem Sim.stokesOf {h h' : Heap} (hs : Sim ρ h h') (hi : ρ i i') : h'.stokesOf i' = h.stokesOf i := congrArg ImgView.stokes (hs.view hi)
theorem Sim.dicOf {h h' : Heap} (hs : Sim ρ h h') (hi : ρ i i') : h'.dicOf i' = h.dicOf i := congrArg ImgView.dic (hs.view hi)

theorem sim_updateStokes (hi : ρ i i') : Par ρ (updateStokes i) (updateStokes i') :=
  sim_reads (fun _ _ h => h) (fun h h' hs => by rw [theoOf_view, theoOf_view, hs.view hi]) fun S =>
    RelP.modify fun _ _ hs => hs.setStokes hi _

theorem sim_setData (hi : ρ i i') (d : Img ℝ) : Par ρ (M.modify fun h => h.setData i d) (M.modify fun h => h.setData i' d) :=
  RelP.modify fun _ _ hs => hs.setData hi d

theorem sim_update (hi : ρ i i') (d : Img ℝ) : Par ρ (updateDataAndStokes i d) (updateDataAndStokes i' d) :=
  RelP.bind (sim_setData hi d) fun _ _ _ => sim_updateStokes hi

theorem sim_subtractDark (hi : ρ i i') (hj : ρ j j') : Par ρ (subtractDark i j) (subtractDark i' j') :=
  sim_reads (fun _ _ h => h) (fun h h' hs => by rw [hs.dataOf hi, hs.dataOf hj]) fun d =>
    RelP.bind (sim_setData hi d) fun _ _ _ =>
    RelP.bind (R := Eq) (RelP.modify fun h h' hs => by rw [hs.dataOf hi]; exact hs.setData hi _) fun _ _ _ =>
    RelP.bind (sim_updateStokes hi) fun _ _ _ => RelP.modify fun _ _ hs => hs.modifyObj hi (fun _ => ⟨rfl, rfl, rfl, rfl⟩)
      (fun _ => ⟨rfl, rfl, rfl, rfl⟩) fun _ _ h1 h2 h3 h4 h5 => ⟨h1, h2, rfl, h4, h5⟩

theorem sim_correctFlat {junk : Nat → Nat → ℝ} (hi : ρ i i') (hj : ρ j j') : Par ρ (correctFlat junk i j) (correctFlat junk i' j') :=
  sim_reads (fun _ _ h => h) (fun h h' hs => by rw [hs.dataOf hi, hs.dataOf hj]) fun d =>
    RelP.bind (sim_setData hi d) fun _ _ _ =>
    RelP.bind (sim_updateStokes hi) fun _ _ _ => RelP.modify fun _ _ hs => hs.modifyObj hi (fun _ => ⟨rfl, rfl, rfl, rfl⟩)
      (fun _ => ⟨rfl, rfl, rfl, rfl⟩) fun _ _ h1 h2 h3 h4 h5 => ⟨h1, h2, h3, rfl, h5⟩

theorem sim_correctIfov (hi : ρ i i') : Par ρ (correctIfov i) (correctIfov i') :=
  sim_reads (fun _ _ h => h) (fun h h' hs => by rw [hs.dataOf hi]) fun d => sim_update hi d

theorem sim_demosaic (hi : ρ i i') (mode : String) : Par ρ (demosaicObj i mode) (demosaicObj i' mode) :=
  sim_reads (fun _ _ h => h) (fun h h' hs => by rw [hs.dataOf hi]) fun s =>
    RelP.bind (R := Eq) (RelP.modify fun _ _ hs => hs.modifyObj hi (fun _ => ⟨rfl, rfl, rfl, rfl⟩)
      (fun _ => ⟨rfl, rfl, rfl, rfl⟩) fun _ _ h1 h2 h3 h4 h5 => ⟨h1, rfl, h3, h4, rfl⟩) fun _ _ _ => sim_updateStokes hi

theorem sim_corrections {junk : Nat → Nat → ℝ} (hi : ρ i i') {dark flat dark' flat' : Option Nat}
    (hd : Option.Rel ρ dark dark') (hf : Option.Rel ρ flat flat') :
    Par ρ (applyCorrections junk i dark flat) (applyCorrections junk i' dark' flat') := by
  cases hd with
  | none =>
    cases hf with
    | none => exact RelP.pure rfl
    | some p => exact sim_correctFlat hi p
  | some q =>
    cases hf with
    | none => exact sim_subtractDark hi q
    | some p => exact RelP.bind (sim_subtractDark hi q) fun _ _ _ => sim_correctFlat hi p

/-! ## Work on the maps in place -/

/-- `i` and `i'` refer to the Stokes vectors `c` and `c'`. -/
def SimC (ρ : Nat → Nat → Prop) (N N' i i' c c' : Nat) : Heap → Heap → Prop :=
  fun h h' => SimN ρ N N' h h' ∧ (h.objs.cell i).stokes = c ∧ (h'.objs.cell i').stokes = c'

section
variable {c c' : Nat}

theorem SimC.cell {h h' : Heap} (hs : SimC ρ N N' i i' c c' h h') (hi : ρ i i') : h'.stokes.cell c' = h.stokes.cell c := by
  have := hs.1.1.stokesOf hi
  unfold Heap.stokesOf at this
  rwa [hs.2.1, hs.2.2] at this

theorem sim_setPlane (hi : ρ i i') (k : Fin 3) (a : Img ℝ) :
    RelP (Sim ρ) (SimC ρ N N' i i' c c') (SimC ρ N N' i i' c c') Eq (setPlane c k a) (setPlane c' k a) := by
  refine RelP.bind (R := Eq) (RelP.read fun h h' hs => (hs.cell hi).symm) fun s s' hs => ?_
  cases hs
  refine RelP.bind (R := Eq) (RelP.lift (fun _ _ h => h.1.1) (PyRel.refl _)) fun p q hpq => ?_
  cases hpq
  refine RelP.modify fun h h' hh => ?_
  obtain ⟨⟨h1, h2, h3⟩, rfl, rfl⟩ := hh
  exact ⟨⟨h1.setCell hi _, h2, h3⟩, rfl, rfl⟩

theorem sim_rewritePlanes (hi : ρ i i') (f : Img ℝ → Py (Img ℝ)) :
    RelP (Sim ρ) (SimC ρ N N' i i' c c') (SimC ρ N N' i i' c c') Eq (rewritePlanes c f) (rewritePlanes c' f) :=
  sim_reads (fun _ _ h => h.1.1) (fun _ _ hs => by rw [hs.cell hi]) fun _ => RelP.bind (sim_setPlane hi 0 _) fun _ _ _ =>
  sim_reads (fun _ _ h => h.1.1) (fun _ _ hs => by rw [hs.cell hi]) fun _ => RelP.bind (sim_setPlane hi 1 _) fun _ _ _ =>
  sim_reads (fun _ _ h => h.1.1) (fun _ _ hs => by rw [hs.cell hi]) fun _ => sim_setPlane hi 2 _

end

/-- Two objects with the same plain attributes. -/
def SameAttrs (o o' : ImgObj) : Prop := o'.isDemosaiced = o.isDemosaiced ∧ o'.demosaicedImages = o.demosaicedImages

theorem Sim.attrs {h h' : Heap} (hs : Sim ρ h h') (hi : ρ i i') : SameAttrs (h.objs.cell i) (h'.objs.cell i') :=
  ⟨congrArg ImgView.isDemosaiced (hs.view hi), congrArg ImgView.demosaicedImages (hs.view hi)⟩

theorem sim_maskDemosaiced (hi : ρ i i') (y x r fill : ℝ) : Par ρ (maskDemosaiced i y x r fill) (maskDemosaiced i' y x r fill) := by
  refine RelP.bind (R := SameAttrs) (RelP.read fun h h' hs => hs.attrs hi) fun o o' ho =>
    RelP.bind (R := Eq) (RelP.read fun h h' hs => (hs.dataOf hi).symm) fun d d' hd => ?_
  cases hd
  rw [ho.1, ho.2]
  cases o.isDemosaiced with
  | false => exact RelP.pure rfl
  | true =>
    cases o.demosaicedImages with
    | none => exact RelP.lift (fun _ _ h => h) rfl
    | some s =>
      refine RelP.bind (R := Eq) (RelP.lift (fun _ _ h => h) (PyRel.refl _)) fun t t' ht => ?_
      cases ht
      exact RelP.modify fun _ _ hs => hs.modifyObj hi (fun _ => ⟨rfl, rfl, rfl, rfl⟩)
        (fun _ => ⟨rfl, rfl, rfl, rfl⟩) fun _ _ h1 h2 h3 h4 h5 => ⟨h1, h2, h3, h4, rfl⟩

theorem sim_maskOcculter (hi : ρ i i') (y x r over fill : ℝ) :
    Par ρ (maskOcculter i y x r over fill) (maskOcculter i' y x r over fill) := by
  refine sim_reads (fun _ _ h => h) (fun h h' hs => by rw [hs.dataOf hi]) fun d =>
    RelP.bind (sim_setData hi d) fun _ _ _ => RelP.bind (sim_maskDemosaiced hi y x _ fill) fun _ _ _ => ?_
  intro h h' hs
  have e1 : ∀ k : ImgObj → M Unit, (M.read (fun h => h.objs.cell i) >>= k) h = k (h.objs.cell i) h := fun k => run_of_ok rfl
  have e2 : ∀ k : ImgObj → M Unit, (M.read (fun h => h.objs.cell i') >>= k) h' = k (h'.objs.cell i') h' := fun k => run_of_ok rfl
  rw [e1, e2, (hs.attrs hi).1]
  have hc : SimC ρ h.objs.size h'.objs.size i i' (h.objs.cell i).stokes (h'.objs.cell i').stokes h h' := ⟨⟨hs, rfl, rfl⟩, rfl, rfl⟩
  split
  · exact ((sim_rewritePlanes hi _).weaken (fun _ _ h => h) (fun _ _ h => h.1.1) fun _ _ h => h) h h' hc
  · exact ((sim_rewritePlanes hi _).weaken (fun _ _ h => h) (fun _ _ h => h.1.1) fun _ _ h => h) h h' hc

/-! ## New objects -/

theorem resolve_effect (dic : Option AngleDic) (h : Heap) :
    resolveDic dic h = (.ok (dic.getD h.nextDic), { h with defaultDic := (resolveDic dic h).2.defaultDic }) ∧
      (resolveDic dic h).2.nextDic = h.nextDic := by
  unfold resolveDic Heap.nextDic
  cases dic with
  | some d => exact ⟨rfl, rfl⟩
  | none =>
    cases hd : h.defaultDic with
    | some d => exact ⟨by simp only [hd, Option.getD_none, Option.getD_some]; rw [← hd], by simp [hd]⟩
    | none => exact ⟨by simp, by simp⟩

theorem Sim.withDefault {h h' : Heap} (hs : Sim ρ h h') {e e' : Option AngleDic} (hn : e'.getD polarCamAngles = e.getD polarCamAngles) :
    Sim ρ { h with defaultDic := e } { h' with defaultDic := e' } :=
  ⟨hn, hs.refs, hs.one, hs.view, hs.header, hs.shareS, hs.shareH⟩

theorem sim_resolveDic (dic : Option AngleDic) {P : Heap → Heap → Prop}
    (hP : ∀ h h' e e', P h h' → e'.getD polarCamAngles = e.getD polarCamAngles → P { h with defaultDic := e } { h' with defaultDic := e' })
    (hn : ∀ h h', P h h' → h'.nextDic = h.nextDic) : RelP (Sim ρ) P P Eq (resolveDic dic) (resolveDic dic) := by
  intro h h' hs
  obtain ⟨e1, n1⟩ := resolve_effect dic h
  obtain ⟨e2, n2⟩ := resolve_effect dic h'
  rw [e1, e2]
  refine ⟨?_, fun _ => hP _ _ _ _ hs ?_, fun ⟨_, h⟩ => by cases h⟩
  · show dic.getD h.nextDic = dic.getD h'.nextDic
    rw [hn h h' hs]
  · exact n2.trans ((hn h h' hs).trans n1.symm)

/-- The result is the new object of either memory. -/
def AreNew (N N' : Nat) : Nat → Nat → Prop := fun a b => a = N ∧ b = N'

abbrev NewPar (ρ : Nat → Nat → Prop) (N N' : Nat) (m m' : M Nat) : Prop :=
  RelP (Sim ρ) (SimN ρ N N') (Sim (withPair ρ N N')) (AreNew N N') m m'

theorem sim_newFromImage (hi : ρ i i') (dic : Option AngleDic) : NewPar ρ N N' (newFromImage i dic) (newFromImage i' dic) :=
  RelP.bind (R := Eq) (sim_resolveDic dic (fun h h' e e' hs hn => ⟨hs.1.withDefault hn, hs.2⟩) fun _ _ hs => hs.1.next) fun _ _ _ =>
  RelP.bind (R := AreNew N N') (RelP.read fun _ _ hs => hs.2) fun _ _ hab =>
  RelP.bind (R := Eq) (Q := Sim (withPair ρ N N')) (RelP.modify fun h h' hs => by
    obtain ⟨h1, rfl, rfl⟩ := hs
    exact h1.copy hi) fun _ _ _ => RelP.pure hab

theorem sim_newFromArray (d : Img ℝ) (dic : Option AngleDic) : NewPar ρ N N' (newFromArray d dic) (newFromArray d dic) := by
  refine RelP.bind (R := Eq) (sim_resolveDic dic (fun h h' e e' hs hn => ⟨hs.1.withDefault hn, hs.2⟩) fun _ _ hs => hs.1.next)
    fun dc dc' hdc => ?_
  cases hdc
  refine RelP.bind (R := Eq) (RelP.lift (fun _ _ h => h.1) (PyRel.refl _)) fun S S' hS => ?_
  cases hS
  exact RelP.bind (R := AreNew N N') (RelP.read fun _ _ hs => hs.2) fun _ _ hab =>
    RelP.bind (R := Eq) (Q := Sim (withPair ρ N N')) (RelP.modify fun h h' hs => by
      obtain ⟨h1, rfl, rfl⟩ := hs
      exact h1.fresh d S dc) fun _ _ _ => RelP.pure hab

/-- After a new object has been made. -/
theorem RelP.made {γ δ : Type} {T : γ → δ → Prop} {m m' : M Nat} {f : Nat → M γ} {f' : Nat → M δ} {S : Heap → Heap → Prop}
    (hm : NewPar ρ N N' m m') (hf : RelP (Sim ρ) (Sim (withPair ρ N N')) S T (f N) (f' N')) :
    RelP (Sim ρ) (SimN ρ N N') S T (m >>= f) (m' >>= f') :=
  RelP.bind hm fun a b hab => by rw [hab.1, hab.2]; exact hf

/-- An in place step on the new object. -/
theorem RelP.onNew {γ δ : Type} {T : γ → δ → Prop} {m m' : M Unit} {f : M γ} {f' : M δ} {S : Heap → Heap → Prop}
    (hm : Par (withPair ρ N N') m m') (hf : RelP (Sim ρ) (Sim (withPair ρ N N')) S T f f') :
    RelP (Sim ρ) (Sim (withPair ρ N N')) S T (m >>= fun _ => f) (m' >>= fun _ => f') :=
  RelP.bind (hm.forget fun _ _ h => Or.inr h) fun _ _ _ => hf

theorem retNew : RelP (Sim ρ) (Sim (withPair ρ N N')) (Sim (withPair ρ N N')) (AreNew N N') (Pure.pure N : M Nat) (Pure.pure N' : M Nat) :=
  RelP.pure ⟨rfl, rfl⟩

theorem simOld : ∀ h h', Sim (withPair ρ N N') h h' → Sim ρ h h' := fun _ _ h => h.mono fun _ _ h => Or.inr h

theorem sim_rebin (hi : ρ i i') (b : Int) : NewPar ρ N N' (rebinObj i b) (rebinObj i' b) := by
  unfold rebinObj
  split
  · intro h h' hs
    exact ⟨rfl, fun ⟨_, h⟩ => (by cases h), fun _ => hs.1⟩
  · exact RelP.made (sim_newFromImage hi none) (sim_reads simOld (fun _ _ hs => by rw [hs.dataOf (newPair ρ N N')]) fun d =>
      RelP.onNew (sim_update (newPair ρ N N') d) retNew)

theorem sim_derive (hi : ρ i i') {f g : Heap → Py (Img ℝ)} (hf : ∀ h h', Sim ρ h h' → g h' = f h) :
    NewPar ρ N N' (deriveObj i f) (deriveObj i' g) :=
  sim_reads (fun _ _ h => h.1) (fun h h' hs => hf h h' hs.1) fun d =>
    RelP.made (sim_newFromImage hi none) (RelP.onNew (sim_update (newPair ρ N N') d) retNew)

theorem sim_arithImage {op : Arith} {junk : Nat → Nat → ℝ} (hi : ρ i i') (hj : ρ j j') :
    NewPar ρ N N' (arithImageObj op junk i j) (arithImageObj op junk i' j') :=
  RelP.made (sim_derive hi fun h h' hs => by rw [hs.dataOf hi, hs.dataOf hj]) (RelP.bind (R := Eq)
    (RelP.modify fun h h' hs => hs.aliasHeader (newPair ρ N N') (oldPair hi)) fun _ _ _ => retNew)

theorem sim_arithNumber {op : Arith} {junk : Nat → Nat → ℝ} (hi : ρ i i') (c : ℝ) :
    NewPar ρ N N' (arithNumberObj op junk i c) (arithNumberObj op junk i' c) := by
  refine sim_reads (fun _ _ h => h.1) (fun h h' hs => by rw [hs.1.dataOf hi]) fun d =>
    RelP.bind (R := Eq) (RelP.read fun h h' hs => (hs.1.dicOf hi).symm) fun dc dc' hdc => ?_
  cases hdc
  exact RelP.made (sim_newFromArray d _) (RelP.bind (R := Eq)
    (RelP.modify fun h h' hs => hs.aliasHeader (newPair ρ N N') (oldPair hi)) fun _ _ _ => retNew)

theorem sim_congrid (hi : ρ i i') (ny nx : Nat) : NewPar ρ N N' (congridObj i ny nx) (congridObj i' ny nx) := by
  refine sim_reads (fun _ _ h => h.1) (fun h h' hs => by rw [hs.1.dataOf hi]) fun d =>
    RelP.made (sim_newFromImage hi none) (RelP.onNew (sim_setData (newPair ρ N N') d) ?_)
  refine RelP.bind (R := Eq) (RelP.read fun h h' hs => (hs.stokesOf (oldPair hi)).symm) fun s s' hs => ?_
  cases hs
  refine RelP.bind (R := Eq) (RelP.lift simOld (PyRel.refl _)) fun a a' ha => ?_
  cases ha
  refine RelP.bind (R := Eq) (RelP.lift simOld (PyRel.refl _)) fun b b' hb => ?_
  cases hb
  refine RelP.bind (R := Eq) (RelP.lift simOld (PyRel.refl _)) fun c c' hc => ?_
  cases hc
  exact RelP.bind (R := Eq) (RelP.modify fun h h' hs => hs.setStokes (newPair ρ N N') _) fun _ _ _ => retNew

theorem sim_demodulate (hi : ρ i i') (D : Demodulator ℝ) (dem : Bool) : NewPar ρ N N' (demodulateObj i D dem) (demodulateObj i' D dem) := by
  have nw := newPair ρ N N'
  have fin : ∀ S : Fin 3 → Img ℝ, RelP (Sim ρ) (Sim (withPair ρ N N')) (Sim (withPair ρ N N')) (AreNew N N')
      (M.modify (fun h => h.setStokes N ⟨S, false⟩) >>= fun _ =>
        M.modify (fun h => h.modifyObj N (fun o => { o with isDemodulated := true })) >>= fun _ => Pure.pure N)
      (M.modify (fun h => h.setStokes N' ⟨S, false⟩) >>= fun _ =>
        M.modify (fun h => h.modifyObj N' (fun o => { o with isDemodulated := true })) >>= fun _ => Pure.pure N') := fun S =>
    RelP.onNew (RelP.modify fun h h' hs => hs.setStokes nw _)
      (RelP.onNew (RelP.modify fun _ _ hs => hs.modifyObj nw (fun _ => ⟨rfl, rfl, rfl, rfl⟩)
      (fun _ => ⟨rfl, rfl, rfl, rfl⟩) fun _ _ h1 h2 h3 h4 h5 => ⟨rfl, h2, h3, h4, h5⟩) retNew)
  refine RelP.made (sim_newFromImage hi none) ?_
  cases dem with
  | true =>
    exact RelP.onNew (sim_demosaic nw _) (sim_reads simOld (fun h h' hs => by rw [hs.dataOf nw, hs.dicOf nw]) fun S => fin S)
  | false => exact sim_reads simOld (fun h h' hs => by rw [hs.dataOf nw, hs.stokesOf nw]) fun S => fin S

theorem modify_same {k : Heap} {n c : Nat} (hk : (k.objs.cell n).stokes = c) : k.modifyObj n (fun o => { o with stokes := c }) = k := by
  have : k.objs.set n { k.objs.cell n with stokes := c } = k.objs := by
    subst hk
    unfold Store.set
    have : (fun j => if j = n then k.objs.cell n else k.objs.cell j) = k.objs.cell := by
      funext j
      split
      · rename_i e; rw [e]
      · rfl
    show (⟨k.objs.size, fun j => if j = n then k.objs.cell n else k.objs.cell j⟩ : Store ImgObj) = k.objs
    rw [this]
  unfold Heap.modifyObj
  rw [this]

theorem sim_rotate (hi : ρ i i') (rot : Img ℝ → Py (Img ℝ)) : NewPar ρ N N' (rotateObj rot i) (rotateObj rot i') := by
  refine sim_reads (fun _ _ h => h.1) (fun h h' hs => by rw [hs.1.dataOf hi]) fun d => ?_
  have key : ∀ c c', RelP (Sim ρ) (SimC ρ N N' i i' c c') (Sim (withPair ρ N N')) (AreNew N N')
      (rewritePlanes c rot >>= fun _ => newFromImage i none >>= fun n => M.modify (fun h => h.setData n d) >>= fun _ =>
        M.modify (fun h => h.modifyObj n (fun o => { o with stokes := c })) >>= fun _ => Pure.pure n)
      (rewritePlanes c' rot >>= fun _ => newFromImage i' none >>= fun n => M.modify (fun h => h.setData n d) >>= fun _ =>
        M.modify (fun h => h.modifyObj n (fun o => { o with stokes := c' })) >>= fun _ => Pure.pure n) := by
    intro c c'
    refine RelP.bind (sim_rewritePlanes hi rot) fun _ _ _ => ?_
    have nf : RelP (Sim ρ) (SimC ρ N N' i i' c c') (fun h h' => Sim (withPair ρ N N') h h' ∧ (h.objs.cell N).stokes = c ∧
        (h'.objs.cell N').stokes = c') (AreNew N N') (newFromImage i none) (newFromImage i' none) := by
      refine RelP.bind (R := Eq) (sim_resolveDic none (fun h h' e e' hs hn => ⟨⟨hs.1.1.withDefault hn, hs.1.2⟩, hs.2⟩)
        fun _ _ hs => hs.1.1.next) fun _ _ _ => RelP.bind (R := AreNew N N') (RelP.read fun _ _ hs => hs.1.2) fun _ _ hab =>
        RelP.bind (R := Eq) (Q := fun h h' => Sim (withPair ρ N N') h h' ∧ (h.objs.cell N).stokes = c ∧
          (h'.objs.cell N').stokes = c') (RelP.modify fun h h' hs => ?_) fun _ _ _ => RelP.pure hab
      obtain ⟨⟨h1, rfl, rfl⟩, rfl, rfl⟩ := hs
      exact ⟨h1.copy hi, congrArg ImgObj.stokes (if_pos rfl), congrArg ImgObj.stokes (if_pos rfl)⟩
    refine RelP.bind nf fun a b hab => ?_
    rw [hab.1, hab.2]
    have nw := newPair ρ N N'
    refine RelP.bind (R := Eq) (Q := fun h h' => Sim (withPair ρ N N') h h' ∧ (h.objs.cell N).stokes = c ∧
        (h'.objs.cell N').stokes = c') (RelP.modify fun h h' hs =>
      ⟨hs.1.setData nw d, by rw [mem_stokes_setData]; exact hs.2.1, by rw [mem_stokes_setData]; exact hs.2.2⟩) fun _ _ _ =>
      RelP.bind (R := Eq) (Q := Sim (withPair ρ N N')) (RelP.modify fun h h' hs => ?_) fun _ _ _ => retNew
    rw [modify_same hs.2.1, modify_same hs.2.2]
    exact hs.1
  intro h h' hs
  have k2 := key (h.objs.cell i).stokes (h'.objs.cell i').stokes h h' ⟨hs, rfl, rfl⟩
  have e1 : ∀ k : Nat → M Nat, (M.read (fun h => (h.objs.cell i).stokes) >>= k) h = k (h.objs.cell i).stokes h := fun k => run_of_ok rfl
  have e2 : ∀ k : Nat → M Nat, (M.read (fun h => (h.objs.cell i').stokes) >>= k) h' = k (h'.objs.cell i').stokes h' := fun k => run_of_ok rfl
  rw [e1, e2]
  exact k2

/-! ## Calls -/

/-- What two calls return: nothing, or a pair of live objects. -/
abbrev PairRet (ρ : Nat → Nat → Prop) : Option Nat → Option Nat → Prop := Option.Rel ρ

variable {images images' : List Nat}

theorem sim_named {α β : Type} {E P Q : Heap → Heap → Prop} {R : α → β → Prop} (him : List.Forall₂ ρ images images') {p : Nat}
    {f : Nat → M α} {g : Nat → M β} (hE : ∀ h h', P h h' → E h h') (hf : ∀ k k', ρ k k' → RelP E P Q R (f k) (g k')) :
    RelP E P Q R (named images p >>= f) (named images' p >>= g) := by
  unfold named
  have := him.length_eq
  by_cases hp : p < images.length
  · have hp' : p < images'.length := by omega
    rw [List.getElem?_eq_getElem hp, List.getElem?_eq_getElem hp']
    exact hf _ _ (him.get hp hp')
  · rw [List.getElem?_eq_none (by omega), List.getElem?_eq_none (by omega)]
    exact fun h h' hs => ⟨rfl, fun ⟨_, h⟩ => (by cases h), fun _ => hE _ _ hs⟩

theorem sim_namedOpt {α β : Type} {E P Q : Heap → Heap → Prop} {R : α → β → Prop} (him : List.Forall₂ ρ images images')
    {p : Option Nat} {f : Option Nat → M α} {g : Option Nat → M β} (hE : ∀ h h', P h h' → E h h')
    (hf : ∀ o o', Option.Rel ρ o o' → RelP E P Q R (f o) (g o')) :
    RelP E P Q R (namedOpt images p >>= f) (namedOpt images' p >>= g) := by
  cases p with
  | none => exact hf none none .none
  | some q =>
    have e : ∀ {γ : Type} (im : List Nat) (k : Option Nat → M γ), (namedOpt im (some q) >>= k) = (named im q >>= fun i => k (some i)) := by
      intro γ im k
      funext h
      unfold namedOpt
      exact run_bind
    rw [e, e]
    exact sim_named him hE fun k k' hk => hf _ _ (.some hk)

theorem NewPar.ret {m m' : M Nat} (hm : NewPar ρ N N' m m') :
    RelP (Sim ρ) (SimN ρ N N') (Sim (withPair ρ N N')) (PairRet (withPair ρ N N')) (m >>= fun n => (pure (some n) : M (Option Nat)))
      (m' >>= fun n => (pure (some n) : M (Option Nat))) :=
  RelP.bind hm fun a b hab => by
    rw [hab.1, hab.2]
    exact RelP.pure (.some (newPair ρ N N'))

theorem Par.ret {m m' : M Unit} (hm : Par ρ m m') {r r' : Option Nat} (hr : Option.Rel ρ r r') :
    RelP (Sim ρ) (SimN ρ N N') (Sim ρ) (PairRet ρ) (m >>= fun _ => (pure r : M (Option Nat)))
      (m' >>= fun _ => (pure r' : M (Option Nat))) :=
  RelP.bind (hm.weaken (fun _ _ h => h.1) (fun _ _ h => h) fun _ _ h => h) fun _ _ _ => RelP.pure hr

theorem relMono {σ : Nat → Nat → Prop} (hσ : ∀ a b, ρ a b → σ a b) {o o' : Option Nat} (h : Option.Rel ρ o o') : Option.Rel σ o o' := by
  cases h with
  | none => exact .none
  | some h => exact .some (hσ _ _ h)

/-- The same call in both memories. -/
theorem sim_exec (him : List.Forall₂ ρ images images') (o : Op) :
    ∃ σ : Nat → Nat → Prop, (∀ a b, ρ a b → σ a b) ∧
      RelP (Sim ρ) (SimN ρ N N') (Sim σ) (PairRet σ) (exec images o) (exec images' o) := by
  have hE : ∀ h h', SimN ρ N N' h h' → Sim ρ h h' := fun _ _ h => h.1
  have hnew : ∀ a b, ρ a b → withPair ρ N N' a b := fun _ _ h => Or.inr h
  have hold : ∀ a b, ρ a b → ρ a b := fun _ _ h => h
  cases o with
  | setDefault dic =>
    exact ⟨ρ, hold, RelP.bind (R := Eq) (Q := Sim ρ) (RelP.modify fun _ _ hs => hs.1.withDefault rfl) fun _ _ _ => RelP.pure .none⟩
  | fromArray d dic dark flat junk =>
    exact ⟨_, hnew, sim_namedOpt him hE fun _ _ hd => sim_namedOpt him hE fun _ _ hf => RelP.made (sim_newFromArray d dic)
      (RelP.onNew (sim_corrections (newPair ρ N N') (relMono hnew hd) (relMono hnew hf)) (RelP.pure (.some (newPair ρ N N'))))⟩
  | fromImage i dic dark flat junk =>
    exact ⟨_, hnew, sim_named him hE fun _ _ hk => sim_namedOpt him hE fun _ _ hd => sim_namedOpt him hE fun _ _ hf =>
      RelP.made (sim_newFromImage hk dic)
      (RelP.onNew (sim_corrections (newPair ρ N N') (relMono hnew hd) (relMono hnew hf)) (RelP.pure (.some (newPair ρ N N'))))⟩
  | rebin i b => exact ⟨_, hnew, sim_named him hE fun _ _ hk => NewPar.ret (sim_rebin hk b)⟩
  | congrid i ny nx => exact ⟨_, hnew, sim_named him hE fun _ _ hk => NewPar.ret (sim_congrid hk ny nx)⟩
  | rotate i rot => exact ⟨_, hnew, sim_named him hE fun _ _ hk => NewPar.ret (sim_rotate hk rot)⟩
  | demodulate i D dem => exact ⟨_, hnew, sim_named him hE fun _ _ hk => NewPar.ret (sim_demodulate hk D dem)⟩
  | shift i y x m =>
    exact ⟨_, hnew, sim_named him hE fun _ _ hk => NewPar.ret (sim_derive hk fun h h' hs => by rw [hs.dataOf hk])⟩
  | cleanHotPixels i f median =>
    exact ⟨_, hnew, sim_named him hE fun _ _ hk => sim_named him hE fun _ _ hf =>
      NewPar.ret (sim_derive hk fun h h' hs => by rw [hs.dataOf hk, hs.dataOf hf])⟩
  | arithImage op i j junk =>
    exact ⟨_, hnew, sim_named him hE fun _ _ hk => sim_named him hE fun _ _ hf => NewPar.ret (sim_arithImage hk hf)⟩
  | arithNumber op i c junk => exact ⟨_, hnew, sim_named him hE fun _ _ hk => NewPar.ret (sim_arithNumber hk c)⟩
  | demosaic i mode => exact ⟨ρ, hold, sim_named him hE fun _ _ hk => (sim_demosaic hk mode).ret (.some hk)⟩
  | subtractDark i d =>
    exact ⟨ρ, hold, sim_named him hE fun _ _ hk => sim_named him hE fun _ _ hd => (sim_subtractDark hk hd).ret (.some hk)⟩
  | correctFlat i f junk =>
    exact ⟨ρ, hold, sim_named him hE fun _ _ hk => sim_named him hE fun _ _ hd => (sim_correctFlat hk hd).ret (.some hk)⟩
  | correctIfov i => exact ⟨ρ, hold, sim_named him hE fun _ _ hk => (sim_correctIfov hk).ret (.some hk)⟩
  | maskOcculter i y x r over fill =>
    exact ⟨ρ, hold, sim_named him hE fun _ _ hk => (sim_maskOcculter hk y x r over fill).ret .none⟩

/-! ## Sessions -/

/-- Two sessions that show the same. -/
def Alike (s t : State) : Prop := ∃ ρ, Sim ρ s.heap t.heap ∧ List.Forall₂ ρ s.images t.images

theorem alike_step {s t : State} (hst : Alike s t) (o : Op) :
    PyRel (fun a b => a.isSome = b.isSome) (exec s.images o s.heap).1 (exec t.images o t.heap).1 ∧ Alike (step s o) (step t o) := by
  obtain ⟨ρ, hs, him⟩ := hst
  obtain ⟨σ, hσ, hrel⟩ := sim_exec (N := s.heap.objs.size) (N' := t.heap.objs.size) him o
  obtain ⟨h1, h2, h3⟩ := hrel s.heap t.heap ⟨hs, rfl, rfl⟩
  unfold step
  cases hx : exec s.images o s.heap with
  | mk a k =>
    cases hy : exec t.images o t.heap with
    | mk b k' =>
      rw [hx, hy] at h1 h2 h3
      cases a with
      | error e =>
        cases b with
        | ok r => cases h1
        | error e' =>
          cases h1
          exact ⟨rfl, ρ, h3 ⟨e, rfl⟩, him⟩
      | ok r =>
        cases b with
        | error e' => cases h1
        | ok r' =>
          have h2 := h2 ⟨r, rfl⟩
          have him' : List.Forall₂ σ s.images t.images := him.imp hσ
          cases h1 with
          | none => exact ⟨rfl, σ, h2, him'⟩
          | some hn => exact ⟨rfl, σ, h2, List.rel_append him' (.cons hn .nil)⟩

theorem alike_foldl (ops : List Op) : ∀ {s t : State}, Alike s t → Alike (ops.foldl step s) (ops.foldl step t) := by
  induction ops with
  | nil => exact fun h => h
  | cons o ops ih => exact fun h => ih (alike_step h o).2

end

end Micropol
