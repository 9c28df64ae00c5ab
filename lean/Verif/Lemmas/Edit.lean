import Verif.Lemmas.ObjectDefault
import Verif.Lemmas.ObjectShape
import Verif.Lemmas.Calibration
import Verif.Spec.Edit

/-! # Who holds which pixel array -/

set_option autoImplicit false

namespace Micropol

open M

noncomputable section

open Classical

/-- The array of object `n` satisfies `A`; there are at least `z` arrays. -/
def OwnA (z : Nat) (A : Nat → Prop) (n : Nat) (h : Heap) : Prop := z ≤ h.datas.size ∧ A (h.objs.cell n).data

def Big (z : Nat) (h : Heap) : Prop := z ≤ h.datas.size

/-- The array of object `n` is new. -/
abbrev OwnNew (z n : Nat) : Heap → Prop := OwnA z (fun r => z ≤ r) n

section
variable {z n : Nat} {A : Nat → Prop} {h : Heap}

theorem OwnA.modifyObj (hf : OwnA z A n h) {f : ImgObj → ImgObj} (hp : ∀ o, (f o).data = o.data) :
    OwnA z A n (h.modifyObj n f) := by
  refine ⟨hf.1, ?_⟩
  show A ((h.objs.set n _).cell n).data
  rw [Store.set_cell_self, hp]
  exact hf.2

theorem OwnA.setStokes (hf : OwnA z A n h) (s : StokesVec) : OwnA z A n (h.setStokes n s) := by
  refine ⟨hf.1, ?_⟩
  show A ((h.objs.set n _).cell n).data
  rw [Store.set_cell_self]
  exact hf.2

theorem own_setData (hf : Big z h) (d : Img ℝ) : OwnNew z n (h.setData n d) := by
  refine ⟨Nat.le_succ_of_le hf, ?_⟩
  show z ≤ ((h.objs.set n _).cell n).data
  rw [Store.set_cell_self]
  exact hf

theorem OwnA.setData (hA : ∀ r, z ≤ r → A r) (hf : OwnA z A n h) (d : Img ℝ) : OwnA z A n (h.setData n d) := by
  have := own_setData (n := n) hf.1 d
  exact ⟨this.1, hA _ this.2⟩

/-! ## Work on an object keeps its array, or gives it a new one -/

theorem own_updateStokes : Pres (OwnA z A n) (updateStokes n) :=
  Pres.bind Pres.read fun _ => Pres.bind Pres.lift fun _ => Pres.modify fun _ hf => hf.setStokes _

theorem own_demosaic (mode : String) : Pres (OwnA z A n) (demosaicObj n mode) :=
  Pres.bind Pres.read fun _ => Pres.bind Pres.lift fun _ =>
  Pres.bind (Pres.modify fun _ hf => hf.modifyObj fun _ => rfl) fun _ => own_updateStokes

theorem own_setPlane (c : Nat) (k : Fin 3) (a : Img ℝ) : Pres (OwnA z A n) (setPlane c k a) :=
  Pres.bind Pres.read fun _ => Pres.bind Pres.lift fun _ => Pres.modify fun _ hf => hf

theorem own_rewritePlanes (c : Nat) (f : Img ℝ → Py (Img ℝ)) : Pres (OwnA z A n) (rewritePlanes c f) :=
  Pres.bind Pres.read fun _ => Pres.bind Pres.lift fun _ => Pres.bind (own_setPlane c 0 _) fun _ =>
  Pres.bind Pres.read fun _ => Pres.bind Pres.lift fun _ => Pres.bind (own_setPlane c 1 _) fun _ =>
  Pres.bind Pres.read fun _ => Pres.bind Pres.lift fun _ => own_setPlane c 2 _

theorem own_maskDemosaiced (y x r fill : ℝ) : Pres (OwnA z A n) (maskDemosaiced n y x r fill) := by
  refine Pres.bind Pres.read fun o => Pres.bind Pres.read fun d => ?_
  split
  · exact Pres.pure
  · exact Pres.lift
  · exact Pres.bind Pres.lift fun _ => Pres.modify fun _ hf => hf.modifyObj fun _ => rfl

/-- The rest of `mask_occulter`. -/
theorem own_maskRest (y x r over fill : ℝ) : Pres (OwnA z A n) (maskDemosaiced n y x (r + over) fill >>= fun _ =>
    M.read (fun h => h.objs.cell n) >>= fun o =>
      if o.isDemosaiced then rewritePlanes o.stokes (fun A => occulterRoi A y x (r + over) fill false)
      else rewritePlanes o.stokes (fun A => occulterRoi A ((pyInt (y / 2) : ℤ) : ℝ) ((pyInt (x / 2) : ℤ) : ℝ)
        ((pyInt ((r + over) / 2) : ℤ) : ℝ) fill false)) := by
  refine Pres.bind (own_maskDemosaiced _ _ _ _) fun _ => Pres.bind Pres.read fun o => ?_
  split <;> exact own_rewritePlanes _ _

/-! ## In place, whatever happens -/

theorem ownA_subtractDark (hA : ∀ r, z ≤ r → A r) (dark : Nat) : Pres (OwnA z A n) (subtractDark n dark) :=
  Pres.bind Pres.read fun _ => Pres.bind Pres.lift fun _ =>
  Pres.bind (Pres.modify fun _ hf => hf.setData hA _) fun _ =>
  Pres.bind (Pres.modify fun _ hf => hf.setData hA _) fun _ =>
  Pres.bind own_updateStokes fun _ => Pres.modify fun _ hf => hf.modifyObj fun _ => rfl

theorem ownA_correctFlat (hA : ∀ r, z ≤ r → A r) (junk : Nat → Nat → ℝ) (flat : Nat) :
    Pres (OwnA z A n) (correctFlat junk n flat) :=
  Pres.bind Pres.read fun _ => Pres.bind Pres.lift fun _ =>
  Pres.bind (Pres.modify fun _ hf => hf.setData hA _) fun _ =>
  Pres.bind own_updateStokes fun _ => Pres.modify fun _ hf => hf.modifyObj fun _ => rfl

theorem ownA_correctIfov (hA : ∀ r, z ≤ r → A r) : Pres (OwnA z A n) (correctIfov n) :=
  Pres.bind Pres.read fun _ => Pres.bind Pres.lift fun _ =>
  Pres.bind (Pres.modify fun _ hf => hf.setData hA _) fun _ => own_updateStokes

theorem ownA_maskOcculter (hA : ∀ r, z ≤ r → A r) (y x r over fill : ℝ) :
    Pres (OwnA z A n) (maskOcculter n y x r over fill) :=
  Pres.bind Pres.read fun _ => Pres.bind Pres.lift fun _ =>
  Pres.bind (Pres.modify fun _ hf => hf.setData hA _) fun _ => own_maskRest y x r over fill

/-! ## Success gives a new array -/

/-- `m` starts with at least `z` arrays, and if it ends normally object `n` has a new array. -/
def Gives (z n : Nat) {α : Type} (m : M α) : Prop := Triple (Big z) m (fun _ => OwnNew z n) (fun _ => True)

theorem weaken {α : Type} {P : Heap → Prop} {m : M α} (h : Pres P m) : Triple P m (fun _ => P) (fun _ => True) :=
  Triple.conseq h (fun _ h => h) (fun _ _ h => h) (fun _ _ => trivial)

theorem big_readLift {α β : Type} {P : Heap → Prop} {f : Heap → Py α} {k : α → M β} {Q : β → Heap → Prop}
    (hk : ∀ a, Triple P (k a) Q (fun _ => True)) : Triple P (M.read f >>= fun x => M.lift x >>= k) Q (fun _ => True) :=
  Triple.readLift (fun _ _ => trivial) fun a => Triple.conseq (hk a) (fun _ h => h.2) (fun _ _ h => h) (fun _ h => h)

theorem gives_setData {β : Type} (d : Img ℝ) {m : M β} (hm : Pres (OwnNew z n) m) :
    Triple (Big z) (M.modify (fun h => h.setData n d) >>= fun _ => m) (fun _ => OwnNew z n) (fun _ => True) :=
  Triple.bind (Q := fun _ => OwnNew z n) (Triple.modify fun _ hf => own_setData hf d) fun _ => weaken hm

theorem gives_update (d : Img ℝ) : Gives z n (updateDataAndStokes n d) := gives_setData d own_updateStokes

theorem gives_subtractDark (dark : Nat) : Gives z n (subtractDark n dark) :=
  big_readLift fun d => gives_setData d <|
    Pres.bind (Pres.modify fun _ hf => hf.setData (fun _ h => h) _) fun _ =>
    Pres.bind own_updateStokes fun _ => Pres.modify fun _ hf => hf.modifyObj fun _ => rfl

theorem gives_correctFlat (junk : Nat → Nat → ℝ) (flat : Nat) : Gives z n (correctFlat junk n flat) :=
  big_readLift fun d => gives_setData d <|
    Pres.bind own_updateStokes fun _ => Pres.modify fun _ hf => hf.modifyObj fun _ => rfl

theorem gives_correctIfov : Gives z n (correctIfov n) := big_readLift fun d => gives_update d

theorem gives_maskOcculter (y x r over fill : ℝ) : Gives z n (maskOcculter n y x r over fill) :=
  big_readLift fun d => gives_setData d (own_maskRest y x r over fill)

/-! ## New images -/

theorem big_resolveDic (dic : Option AngleDic) : Pres (Big z) (resolveDic dic) := by
  intro h hf
  unfold resolveDic
  split
  · exact ⟨fun _ _ => hf, fun _ _ => hf⟩
  · split
    · exact ⟨fun _ _ => hf, fun _ _ => hf⟩
    · exact ⟨fun _ _ => hf, fun _ _ => hf⟩

theorem big_newFromImage (k : Nat) (dic : Option AngleDic) : Pres (Big z) (newFromImage k dic) :=
  Pres.bind (big_resolveDic dic) fun _ => Pres.bind Pres.read fun _ => Pres.bind (Pres.modify fun _ hf => hf) fun _ =>
    Pres.pure

/-- `m` returns an object with a new array. -/
def Makes (z : Nat) (m : M Nat) : Prop := Triple (Big z) m (fun n => OwnNew z n) (fun _ => True)

theorem makes_newFromArray (d : Img ℝ) (dic : Option AngleDic) : Makes z (newFromArray d dic) := by
  refine Triple.bind (weaken (big_resolveDic dic)) fun dc => ?_
  refine Triple.bind (Q := fun _ => Big z) (Triple.conseq (Triple.lift (E := fun _ => True) fun _ _ => trivial)
    (fun _ h => h) (fun _ _ h => h.2) (fun _ h => h)) fun S => ?_
  refine Triple.bind Triple.read fun n => ?_
  refine Triple.bind (Q := fun _ => OwnNew z n) (Triple.modify ?_) fun _ => Triple.pure fun _ hh => hh
  rintro h ⟨rfl, hf⟩
  refine ⟨Nat.le_succ_of_le hf, ?_⟩
  show z ≤ ((h.objs.alloc _).cell h.objs.size).data
  rw [Store.alloc_cell_self]
  exact hf

/-- A copy which is then given a new array. -/
theorem makes_given (k : Nat) (dic : Option AngleDic) {β : Type} {f : Nat → M β} (hf : ∀ n, Gives z n (f n)) :
    Makes z (newFromImage k dic >>= fun n => f n >>= fun _ => (pure n : M Nat)) :=
  Triple.bind (weaken (big_newFromImage k dic)) fun n => Triple.bind (hf n) fun _ => Triple.pure fun _ h => h

theorem makes_derive (k : Nat) (f : Heap → Py (Img ℝ)) : Makes z (deriveObj k f) :=
  big_readLift fun d => makes_given k none fun _ => gives_update d

theorem makes_rebin (k : Nat) (b : Int) : Makes z (rebinObj k b) := by
  unfold rebinObj
  split
  · exact Triple.conseq (Triple.lift (E := fun _ => True) fun _ _ => trivial) (fun _ h => h) (fun _ _ h => by cases h.1)
      (fun _ h => h)
  · exact Triple.bind (weaken (big_newFromImage k none)) fun n => big_readLift fun d =>
      Triple.bind (gives_update d) fun _ => Triple.pure fun _ h => h

theorem makes_congrid (k ny nx : Nat) : Makes z (congridObj k ny nx) := by
  refine big_readLift fun d => Triple.bind (weaken (big_newFromImage k none)) fun n => ?_
  refine Triple.bind (Q := fun _ => OwnNew z n) (Triple.modify fun _ hf => own_setData hf d) fun _ => ?_
  refine Triple.bind (weaken Pres.read) fun sv => ?_
  refine Triple.bind (weaken Pres.lift) fun s0 => Triple.bind (weaken Pres.lift) fun s1 =>
    Triple.bind (weaken Pres.lift) fun s2 => ?_
  exact Triple.bind (weaken (Pres.modify fun _ hf => hf.setStokes _)) fun _ => Triple.pure fun _ h => h

theorem makes_rotate (rot : Img ℝ → Py (Img ℝ)) (k : Nat) : Makes z (rotateObj rot k) := by
  refine big_readLift fun d => Triple.bind (weaken Pres.read) fun c => ?_
  have hplane : ∀ c (k : Fin 3) a, Pres (Big z) (setPlane c k a) := fun c k a =>
    Pres.bind Pres.read fun _ => Pres.bind Pres.lift fun _ => Pres.modify fun h hh => hh
  have hrew : ∀ c f, Pres (Big z) (rewritePlanes c f) := fun c f =>
    Pres.bind Pres.read fun _ => Pres.bind Pres.lift fun _ => Pres.bind (hplane c 0 _) fun _ =>
    Pres.bind Pres.read fun _ => Pres.bind Pres.lift fun _ => Pres.bind (hplane c 1 _) fun _ =>
    Pres.bind Pres.read fun _ => Pres.bind Pres.lift fun _ => hplane c 2 _
  refine Triple.bind (weaken (hrew c rot)) fun _ => Triple.bind (weaken (big_newFromImage k none)) fun n => ?_
  refine Triple.bind (Q := fun _ => OwnNew z n) (Triple.modify fun _ hf => own_setData hf d) fun _ => ?_
  exact Triple.bind (weaken (Pres.modify fun _ hf => hf.modifyObj fun _ => rfl)) fun _ => Triple.pure fun _ h => h

theorem gives_corrections (junk : Nat → Nat → ℝ) (dark flat : Option Nat) (hc : dark.isSome = true ∨ flat.isSome = true) :
    Gives z n (applyCorrections junk n dark flat) := by
  cases dark with
  | none =>
    cases flat with
    | none => simp at hc
    | some f => exact gives_correctFlat junk f
  | some d =>
    cases flat with
    | none => exact gives_subtractDark d
    | some f => exact Triple.bind (gives_subtractDark d) fun _ => weaken (ownA_correctFlat (fun _ h => h) junk f)

theorem own_corrections (junk : Nat → Nat → ℝ) (dark flat : Option Nat) :
    Pres (OwnNew z n) (applyCorrections junk n dark flat) := by
  cases dark with
  | none =>
    cases flat with
    | none => exact Pres.pure
    | some f => exact ownA_correctFlat (fun _ h => h) junk f
  | some d =>
    cases flat with
    | none => exact ownA_subtractDark (fun _ h => h) d
    | some f => exact Pres.bind (ownA_subtractDark (fun _ h => h) d) fun _ => ownA_correctFlat (fun _ h => h) junk f

end

/-! ## Calls -/

theorem makes_exec {s : State} {o : Op} (hin : o.inPlace = false) (hs : o.samePixels = false) (z : Nat) :
    Triple (Big z) (exec s.images o) (fun r h => ∀ n, r = some n → OwnNew z n h) (fun _ => True) := by
  have named' : ∀ {i : Nat} {β : Type} {Q : β → Heap → Prop} {f : Nat → M β},
      (∀ k, Triple (Big z) (f k) Q (fun _ => True)) → Triple (Big z) (named s.images i >>= f) Q (fun _ => True) :=
    fun hf => Triple.bind (weaken Pres.lift) fun k => hf k
  have opt : ∀ {k : Option Nat} {β : Type} {Q : β → Heap → Prop} {f : Option Nat → M β},
      (∀ d, d.isSome = k.isSome → Triple (Big z) (f d) Q (fun _ => True)) →
      Triple (Big z) (namedOpt s.images k >>= f) Q (fun _ => True) := by
    intro k β Q f hf
    refine Triple.bind (Q := fun d h => d.isSome = k.isSome ∧ Big z h) ?_ fun d => ?_
    · cases k with
      | none => exact Triple.pure fun h hh => ⟨rfl, hh⟩
      | some k => exact Triple.bind (weaken Pres.lift) fun d => Triple.pure fun h hh => ⟨rfl, hh⟩
    · exact fun h hh => hf d hh.1 h hh.2
  have ret : ∀ {mk : M Nat}, Makes z mk → Triple (Big z) (mk >>= fun n => (pure (some n) : M (Option Nat)))
      (fun r h => ∀ n, r = some n → OwnNew z n h) (fun _ => True) := by
    intro mk hm
    refine Triple.bind hm fun n => Triple.pure ?_
    rintro h hh m ⟨⟩
    exact hh
  cases o with
  | setDefault dic =>
    exact Triple.bind (weaken (Pres.modify fun _ hf => hf)) fun _ => Triple.pure fun _ _ n hn => by cases hn
  | fromArray d dic dark flat junk =>
    refine opt fun dk _ => opt fun fl _ => ?_
    refine Triple.bind (makes_newFromArray d dic) fun n => Triple.bind (weaken (own_corrections junk dk fl)) fun _ => ?_
    refine Triple.pure ?_
    rintro h hh m ⟨⟩
    exact hh
  | fromImage i dic dark flat junk =>
    refine named' fun k => opt fun dk hdk => opt fun fl hfl => ?_
    refine Triple.bind (weaken (big_newFromImage k dic)) fun n => ?_
    refine Triple.bind (gives_corrections (n := n) junk dk fl ?_) fun _ => Triple.pure ?_
    · cases dark with
      | some d => exact Or.inl hdk
      | none =>
        cases flat with
        | some f => exact Or.inr hfl
        | none => cases hs
    · rintro h hh m ⟨⟩
      exact hh
  | rebin i b => exact named' fun k => ret (makes_rebin k b)
  | congrid i ny nx => exact named' fun k => ret (makes_congrid k ny nx)
  | rotate i rot => exact named' fun k => ret (makes_rotate rot k)
  | demodulate i D dem => cases hs
  | shift i y x m => exact named' fun k => ret (makes_derive k _)
  | cleanHotPixels i f med => exact named' fun k => named' fun f => ret (makes_derive k _)
  | arithImage op i j junk =>
    exact named' fun k => named' fun j => ret (Triple.bind (makes_derive k _) fun n =>
      Triple.bind (weaken (Pres.modify fun _ hf => hf.modifyObj fun _ => rfl)) fun _ => Triple.pure fun _ h => h)
  | arithNumber op i c junk =>
    exact named' fun k => ret (big_readLift fun d => Triple.bind (weaken Pres.read) fun dc =>
      Triple.bind (makes_newFromArray d _) fun n =>
      Triple.bind (weaken (Pres.modify fun _ hf => hf.modifyObj fun _ => rfl)) fun _ => Triple.pure fun _ h => h)
  | demosaic i mode => cases hin
  | subtractDark i d => cases hin
  | correctFlat i f junk => cases hin
  | correctIfov i => cases hin
  | maskOcculter i y x r over fill => cases hin

/-- A call that corrects pixels in place and raises nothing gives the receiver a new array. -/
theorem gives_exec {s : State} {o : Op} {i k : Nat} (hc : o.correctsPixels = true) (hsrc : o.source = some i)
    (hk : s.images[i]? = some k) (z : Nat) : Triple (Big z) (exec s.images o) (fun _ => OwnNew z k) (fun _ => True) := by
  have recv : ∀ {β : Type} {Q : β → Heap → Prop} {f : Nat → M β}, Triple (Big z) (f k) Q (fun _ => True) →
      Triple (Big z) (named s.images i >>= f) Q (fun _ => True) := by
    intro β Q f hf
    refine Triple.bind (triple_named s.images i fun _ _ => trivial) fun k' => ?_
    intro h hh
    rw [hk] at hh
    obtain ⟨⟨⟩, hh⟩ := hh
    exact hf h hh
  have other : ∀ {j : Nat} {β : Type} {Q : β → Heap → Prop} {f : Nat → M β},
      (∀ k, Triple (Big z) (f k) Q (fun _ => True)) → Triple (Big z) (named s.images j >>= f) Q (fun _ => True) :=
    fun hf => Triple.bind (weaken Pres.lift) fun k => hf k
  have ret : ∀ {β γ : Type} {m : M β} {r : γ}, Gives z k m →
      Triple (Big z) (m >>= fun _ => (pure r : M γ)) (fun _ => OwnNew z k) (fun _ => True) :=
    fun hm => Triple.bind hm fun _ => Triple.pure fun _ h => h
  cases o with
  | subtractDark i' d => cases hsrc; exact recv (other fun d => ret (gives_subtractDark d))
  | correctFlat i' f junk => cases hsrc; exact recv (other fun f => ret (gives_correctFlat junk f))
  | correctIfov i' => cases hsrc; exact recv (ret gives_correctIfov)
  | maskOcculter i' y x r over fill => cases hsrc; exact recv (ret (gives_maskOcculter y x r over fill))
  | _ => cases hc

/-- A call in place leaves the receiver its array or gives it a new one. -/
theorem ownA_exec {s : State} {o : Op} {i k : Nat} (hin : o.inPlace = true) (hsrc : o.source = some i)
    (hk : s.images[i]? = some k) {z : Nat} {A : Nat → Prop} (hA : o.correctsPixels = true → ∀ r, z ≤ r → A r) :
    Pres (OwnA z A k) (exec s.images o) := by
  have recv : ∀ {β : Type} {f : Nat → M β}, Pres (OwnA z A k) (f k) → Pres (OwnA z A k) (named s.images i >>= f) := by
    intro β f hf
    refine Triple.bind (triple_named s.images i fun _ h => h) fun k' => ?_
    intro h hh
    rw [hk] at hh
    obtain ⟨⟨⟩, hh⟩ := hh
    exact hf h hh
  cases o with
  | demosaic i' mode => cases hsrc; exact recv (Pres.bind (own_demosaic mode) fun _ => Pres.pure)
  | subtractDark i' d =>
    cases hsrc; exact recv (Pres.bind Pres.lift fun d => Pres.bind (ownA_subtractDark (hA rfl) d) fun _ => Pres.pure)
  | correctFlat i' f junk =>
    cases hsrc; exact recv (Pres.bind Pres.lift fun f => Pres.bind (ownA_correctFlat (hA rfl) junk f) fun _ => Pres.pure)
  | correctIfov i' => cases hsrc; exact recv (Pres.bind (ownA_correctIfov (hA rfl)) fun _ => Pres.pure)
  | maskOcculter i' y x r over fill =>
    cases hsrc; exact recv (Pres.bind (ownA_maskOcculter (hA rfl) y x r over fill) fun _ => Pres.pure)
  | _ => cases hin

theorem pres_out {α : Type} {P : Heap → Prop} {m : M α} (hm : Pres P m) {h : Heap} (hh : P h) : P (m h).2 := by
  obtain ⟨h1, h2⟩ := hm h hh
  cases hx : (m h).1 with
  | ok a => exact h1 a hx
  | error e => exact h2 e hx

/-! ## Sessions -/

/-- The reference of the pixel array of an image. -/
def arr (s : State) (k : Nat) : Nat := (s.heap.objs.cell k).data

theorem writePixel_run (k : Nat) (y x : Int) (v : ℝ) (h : Heap) :
    (∃ j l, Img.resolve (h.dataOf k).h y = some j ∧ Img.resolve (h.dataOf k).w x = some l ∧
      writePixel k y x v h = (.ok (), { h with datas := h.datas.set (h.objs.cell k).data ((h.dataOf k).setPx j l v) })) ∨
    ((Img.resolve (h.dataOf k).h y = none ∨ Img.resolve (h.dataOf k).w x = none) ∧
      writePixel k y x v h = (.error .indexError, h)) := by
  unfold writePixel
  rw [run_read]
  cases hj : Img.resolve (h.dataOf k).h y with
  | none => exact Or.inr ⟨Or.inl rfl, rfl⟩
  | some j =>
    cases hl : Img.resolve (h.dataOf k).w x with
    | none => exact Or.inr ⟨Or.inr rfl, rfl⟩
    | some l => exact Or.inl ⟨j, l, rfl, rfl, rfl⟩

/-- A write touches one array and nothing else. -/
theorem write_cases (s : State) (i : Nat) (y x : Int) (v : ℝ) :
    (∃ k j l, s.images[i]? = some k ∧ Img.resolve (s.data k).h y = some j ∧ Img.resolve (s.data k).w x = some l ∧
      editStep s (.write i y x v) =
        ⟨{ s.heap with datas := s.heap.datas.set (arr s k) ((s.data k).setPx j l v) }, s.images⟩) ∨
    (editStep s (.write i y x v) = s ∧
      ∀ k, s.images[i]? = some k → Img.resolve (s.data k).h y = none ∨ Img.resolve (s.data k).w x = none) := by
  unfold editStep
  cases hi : s.images[i]? with
  | none =>
    refine Or.inr ⟨?_, fun k hk => by cases hk⟩
    show (⟨_, s.images⟩ : State) = s
    rw [run_named_none hi]
  | some k =>
    rcases writePixel_run k y x v s.heap with ⟨j, l, hj, hl, hr⟩ | ⟨hn, hr⟩
    · refine Or.inl ⟨k, j, l, rfl, hj, hl, ?_⟩
      show (⟨_, s.images⟩ : State) = _
      rw [run_named hi, hr]
      rfl
    · refine Or.inr ⟨?_, fun k' hk' => by cases hk'; exact hn⟩
      show (⟨_, s.images⟩ : State) = s
      rw [run_named hi, hr]

theorem write_images (s : State) (i : Nat) (y x : Int) (v : ℝ) : (editStep s (.write i y x v)).images = s.images := rfl

theorem write_objs (s : State) (i : Nat) (y x : Int) (v : ℝ) :
    (editStep s (.write i y x v)).heap.objs = s.heap.objs ∧ (editStep s (.write i y x v)).heap.stokes = s.heap.stokes ∧
    (editStep s (.write i y x v)).heap.headers = s.heap.headers ∧
    (editStep s (.write i y x v)).heap.datas.size = s.heap.datas.size := by
  rcases write_cases s i y x v with ⟨k, j, l, -, -, -, h⟩ | ⟨h, -⟩ <;> rw [h] <;> exact ⟨rfl, rfl, rfl, rfl⟩

/-- A write into a map touches one Stokes vector and nothing else. -/
theorem writeMap_cases (s : State) (i : Nat) (p : Fin 3) (y x : Int) (v : ℝ) :
    (∃ k j l, s.images[i]? = some k ∧ Img.resolve (s.stokes k p).h y = some j ∧ Img.resolve (s.stokes k p).w x = some l ∧
      editStep s (.writeMap i p y x v) =
        ⟨{ s.heap with stokes := s.heap.stokes.set (s.heap.objs.cell k).stokes
                         ⟨fun q => if q = p then (s.stokes k p).setPx j l v else s.stokes k q, (s.heap.stokesOf k).isList⟩ }, s.images⟩) ∨
    (editStep s (.writeMap i p y x v) = s ∧
      ∀ k, s.images[i]? = some k → Img.resolve (s.stokes k p).h y = none ∨ Img.resolve (s.stokes k p).w x = none) := by
  unfold editStep
  cases hi : s.images[i]? with
  | none =>
    refine Or.inr ⟨?_, fun k hk => by cases hk⟩
    show (⟨_, s.images⟩ : State) = s
    rw [run_named_none hi]
  | some k =>
    cases hj : Img.resolve (s.stokes k p).h y with
    | none =>
      refine Or.inr ⟨?_, fun k' hk' => by cases hk'; exact Or.inl hj⟩
      show (⟨_, s.images⟩ : State) = s
      rw [run_named hi]
      unfold writeMapPixel
      rw [run_read]
      change Img.resolve ((s.heap.stokesOf k).planes p).h y = none at hj
      rw [hj]
      rfl
    | some j =>
      cases hl : Img.resolve (s.stokes k p).w x with
      | none =>
        refine Or.inr ⟨?_, fun k' hk' => by cases hk'; exact Or.inr hl⟩
        show (⟨_, s.images⟩ : State) = s
        rw [run_named hi]
        unfold writeMapPixel
        rw [run_read]
        change Img.resolve ((s.heap.stokesOf k).planes p).h y = some j at hj
        change Img.resolve ((s.heap.stokesOf k).planes p).w x = none at hl
        rw [hj, hl]
        rfl
      | some l =>
        refine Or.inl ⟨k, j, l, rfl, hj, hl, ?_⟩
        show (⟨_, s.images⟩ : State) = _
        rw [run_named hi]
        unfold writeMapPixel
        rw [run_read]
        change Img.resolve ((s.heap.stokesOf k).planes p).h y = some j at hj
        change Img.resolve ((s.heap.stokesOf k).planes p).w x = some l at hl
        rw [hj, hl]
        rfl

theorem writeMap_objs (s : State) (i : Nat) (p : Fin 3) (y x : Int) (v : ℝ) :
    (editStep s (.writeMap i p y x v)).heap.objs = s.heap.objs ∧ (editStep s (.writeMap i p y x v)).heap.datas = s.heap.datas ∧
    (editStep s (.writeMap i p y x v)).heap.headers = s.heap.headers ∧
    (editStep s (.writeMap i p y x v)).heap.stokes.size = s.heap.stokes.size := by
  rcases writeMap_cases s i p y x v with ⟨k, j, l, -, -, -, h⟩ | ⟨h, -⟩ <;> rw [h] <;> exact ⟨rfl, rfl, rfl, rfl⟩

/-- A write into a demosaiced image touches one list and nothing else. -/
theorem writeDem_cases (s : State) (i : Nat) (q : Fin 4) (y x : Int) (v : ℝ) :
    (∃ k d j l, s.images[i]? = some k ∧ (s.heap.objs.cell k).demosaicedImages = some d ∧ Img.resolve (d q).h y = some j ∧
      Img.resolve (d q).w x = some l ∧
      editStep s (.writeDemosaiced i q y x v) = ⟨s.heap.setList (s.heap.objs.cell k).demosaicedList
        (fun r => if r = q then (d q).setPx j l v else d r), s.images⟩) ∨
    (editStep s (.writeDemosaiced i q y x v) = s ∧
      ∀ k d, s.images[i]? = some k → (s.heap.objs.cell k).demosaicedImages = some d →
        Img.resolve (d q).h y = none ∨ Img.resolve (d q).w x = none) := by
  unfold editStep
  cases hi : s.images[i]? with
  | none =>
    refine Or.inr ⟨?_, fun k d hk => by cases hk⟩
    show (⟨_, s.images⟩ : State) = s
    rw [run_named_none hi]
  | some k =>
    cases hd : (s.heap.objs.cell k).demosaicedImages with
    | none =>
      refine Or.inr ⟨?_, fun k' d hk' hd' => by cases hk'; rw [hd] at hd'; cases hd'⟩
      show (⟨_, s.images⟩ : State) = s
      rw [run_named hi]
      unfold writeDemosaicedPixel
      rw [run_read, hd]
      rfl
    | some d =>
      cases hj : Img.resolve (d q).h y with
      | none =>
        refine Or.inr ⟨?_, fun k' d' hk' hd' => by cases hk'; rw [hd] at hd'; cases hd'; exact Or.inl hj⟩
        show (⟨_, s.images⟩ : State) = s
        rw [run_named hi]
        unfold writeDemosaicedPixel
        rw [run_read, hd]
        dsimp only
        rw [hj]
        rfl
      | some j =>
        cases hl : Img.resolve (d q).w x with
        | none =>
          refine Or.inr ⟨?_, fun k' d' hk' hd' => by cases hk'; rw [hd] at hd'; cases hd'; exact Or.inr hl⟩
          show (⟨_, s.images⟩ : State) = s
          rw [run_named hi]
          unfold writeDemosaicedPixel
          rw [run_read, hd]
          dsimp only
          rw [hj, hl]
          rfl
        | some l =>
          refine Or.inl ⟨k, d, j, l, rfl, hd, hj, hl, ?_⟩
          show (⟨_, s.images⟩ : State) = _
          rw [run_named hi]
          unfold writeDemosaicedPixel
          rw [run_read, hd]
          dsimp only
          rw [hj, hl]
          rfl

theorem setList_cell (h : Heap) (l : Nat) (d : Fin 4 → Img ℝ) (k : Nat) : (h.setList l d).objs.cell k =
    { h.objs.cell k with demosaicedImages := if (h.objs.cell k).demosaicedList = l then some d else
        (h.objs.cell k).demosaicedImages } := by
  show (if _ then _ else _) = _
  split <;> rfl

theorem writeDem_objs (s : State) (i : Nat) (q : Fin 4) (y x : Int) (v : ℝ) :
    let t := editStep s (.writeDemosaiced i q y x v)
    t.heap.objs.size = s.heap.objs.size ∧ t.heap.datas = s.heap.datas ∧ t.heap.headers = s.heap.headers ∧
    t.heap.stokes = s.heap.stokes ∧ ∀ k, ∃ d, t.heap.objs.cell k = { s.heap.objs.cell k with demosaicedImages := d } := by
  intro t
  rcases writeDem_cases s i q y x v with ⟨k, d, j, l, -, -, -, -, h⟩ | ⟨h, -⟩
  · rw [show t = _ from h]
    exact ⟨rfl, rfl, rfl, rfl, fun k => ⟨_, setList_cell _ _ _ k⟩⟩
  · rw [show t = _ from h]
    exact ⟨rfl, rfl, rfl, rfl, fun k => ⟨_, rfl⟩⟩

theorem editStep_valid {s : State} (hv : Valid s) (e : Edit) : Valid (editStep s e) := by
  cases e with
  | call o => exact step_valid hv o
  | write i y x v =>
    obtain ⟨h1, h2, h3, h4⟩ := write_objs s i y x v
    refine ⟨?_, ?_⟩
    · intro k hk
      rw [h1] at hk ⊢
      rw [h2, h3, h4]
      exact hv.1 k hk
    · intro k hk
      rw [h1]
      exact hv.2 k hk
  | writeMap i p y x v =>
    obtain ⟨h1, h2, h3, h4⟩ := writeMap_objs s i p y x v
    refine ⟨?_, ?_⟩
    · intro k hk
      rw [h1] at hk ⊢
      rw [h2, h3, h4]
      exact hv.1 k hk
    · intro k hk
      rw [h1]
      exact hv.2 k hk
  | writeDemosaiced i q y x v =>
    obtain ⟨h1, h2, h3, h4, h5⟩ := writeDem_objs s i q y x v
    refine ⟨?_, ?_⟩
    · intro k hk
      rw [h1] at hk
      obtain ⟨d, hd⟩ := h5 k
      rw [h2, h3, h4, hd]
      exact hv.1 k hk
    · intro k hk
      rw [h1]
      exact hv.2 k hk

theorem foldl_edits_valid (es : List Edit) : ∀ s, Valid s → Valid (es.foldl editStep s) := by
  induction es with
  | nil => exact fun s h => h
  | cons o ops ih => exact fun s h => ih _ (editStep_valid h o)

theorem runEdits_valid (es : List Edit) : Valid (runEdits es) := foldl_edits_valid es _ init_valid

theorem runEdits_snoc (es : List Edit) (e : Edit) : runEdits (es ++ [e]) = editStep (runEdits es) e := by
  unfold runEdits
  rw [List.foldl_append]
  rfl

theorem editStep_images (s : State) (e : Edit) : ∃ l, (editStep s e).images = s.images ++ l := by
  cases e with
  | call o =>
    rcases step_images s o with h | ⟨n, -, h⟩
    · exact ⟨[], by rw [List.append_nil]; exact h⟩
    · exact ⟨[n], h⟩
  | write i y x v => exact ⟨[], (List.append_nil _).symm⟩
  | writeMap i p y x v => exact ⟨[], (List.append_nil _).symm⟩
  | writeDemosaiced i q y x v => exact ⟨[], (List.append_nil _).symm⟩

theorem editStep_size {s : State} (hv : Valid s) (e : Edit) : s.heap.objs.size ≤ (editStep s e).heap.objs.size := by
  cases e with
  | call o => exact (step_frame hv o).objSize
  | write i y x v => rw [(write_objs s i y x v).1]
  | writeMap i p y x v => rw [(writeMap_objs s i p y x v).1]
  | writeDemosaiced i q y x v => rw [(writeDem_objs s i q y x v).1]

theorem foldl_edits_size (es : List Edit) : ∀ s, Valid s → s.heap.objs.size ≤ (es.foldl editStep s).heap.objs.size := by
  induction es with
  | nil => exact fun s _ => le_rfl
  | cons o ops ih => exact fun s h => (editStep_size h o).trans (ih _ (editStep_valid h o))

theorem runEdits_size (es es' : List Edit) : (runEdits es).heap.objs.size ≤ (runEdits (es ++ es')).heap.objs.size := by
  have : runEdits (es ++ es') = es'.foldl editStep (runEdits es) := by unfold runEdits; rw [List.foldl_append]
  rw [this]
  exact foldl_edits_size es' _ (runEdits_valid es)

theorem writeDem_arr (s : State) (i : Nat) (q : Fin 4) (y x : Int) (v : ℝ) (k : Nat) :
    arr (editStep s (.writeDemosaiced i q y x v)) k = arr s k := by
  obtain ⟨d, hd⟩ := (writeDem_objs s i q y x v).2.2.2.2 k
  unfold arr
  rw [hd]

/-- The array of an image after a call: the old one, or a new one if pixels were corrected in place. -/
theorem step_arr {s : State} (hv : Valid s) (o : Op) {k : Nat} (hk : k < s.heap.objs.size) :
    arr (step s o) k = arr s k ∨ (o.correctsPixels = true ∧ o.CalledOn s k ∧ s.heap.datas.size ≤ arr (step s o) k) := by
  by_cases hW : o.W s k
  · obtain ⟨hin, i, hsrc, hi⟩ := hW
    by_cases hc : o.correctsPixels = true
    · have := pres_out (ownA_exec (A := fun r => r = arr s k ∨ s.heap.datas.size ≤ r) (z := s.heap.datas.size) hin hsrc hi
        fun _ r hr => Or.inr hr) (h := s.heap) ⟨le_rfl, Or.inl rfl⟩
      rw [← step_heap] at this
      rcases this.2 with h | h
      · exact Or.inl h
      · exact Or.inr ⟨hc, ⟨i, hsrc, hi⟩, h⟩
    · have := pres_out (ownA_exec (A := fun r => r = arr s k) (z := 0) hin hsrc hi
        fun h => absurd h hc) (h := s.heap) ⟨Nat.zero_le _, rfl⟩
      rw [← step_heap] at this
      exact Or.inl this.2
  · left
    unfold arr
    rw [(step_frame hv o).obj k hk hW]

/-- Images with different arrays keep having different arrays. -/
theorem apart_step {s : State} (hv : Valid s) (e : Edit) {k n : Nat} (hk : k < s.heap.objs.size) (hn : n < s.heap.objs.size)
    (h : arr s k ≠ arr s n) : arr (editStep s e) k ≠ arr (editStep s e) n := by
  cases e with
  | write i y x v => unfold arr; rw [(write_objs s i y x v).1]; exact h
  | writeMap i p y x v => unfold arr; rw [(writeMap_objs s i p y x v).1]; exact h
  | writeDemosaiced i q y x v => rw [writeDem_arr, writeDem_arr]; exact h
  | call o =>
    show arr (step s o) k ≠ arr (step s o) n
    have hks : arr s k < s.heap.datas.size := (hv.1 k hk).1
    have hns : arr s n < s.heap.datas.size := (hv.1 n hn).1
    have hkn : k ≠ n := by rintro rfl; exact h rfl
    rcases step_arr hv o hk with a | ⟨-, ⟨i, hs, hi⟩, a⟩ <;> rcases step_arr hv o hn with b | ⟨-, ⟨j, hs', hj⟩, b⟩
    · rw [a, b]; exact h
    · rw [a]; omega
    · rw [b]; omega
    · rw [hs] at hs'
      cases hs'
      rw [hi] at hj
      cases hj
      exact absurd rfl hkn

theorem apart_run (es es' : List Edit) {k n : Nat} (hk : k < (runEdits es).heap.objs.size)
    (hn : n < (runEdits es).heap.objs.size) (h : arr (runEdits es) k ≠ arr (runEdits es) n) :
    arr (runEdits (es ++ es')) k ≠ arr (runEdits (es ++ es')) n := by
  induction es' using List.reverseRecOn with
  | nil => rw [List.append_nil]; exact h
  | append_singleton l e ih =>
    rw [← List.append_assoc, runEdits_snoc]
    exact apart_step (runEdits_valid _) e (lt_of_lt_of_le hk (runEdits_size es l)) (lt_of_lt_of_le hn (runEdits_size es l)) ih

/-- A write to an image leaves images with other arrays alone. -/
theorem write_apart {s : State} (i : Nat) (y x : Int) (v : ℝ) {k n : Nat} (hi : s.images[i]? = some k)
    (h : arr s k ≠ arr s n) : (editStep s (.write i y x v)).data n = s.data n := by
  rcases write_cases s i y x v with ⟨k', j, l, hi', -, -, e⟩ | ⟨e, -⟩
  · rw [hi] at hi'
    cases hi'
    rw [e]
    exact Store.set_cell_of_ne _ _ fun q => h q.symm
  · rw [e]

/-- A write to an image is a write to all images with the same array. -/
theorem write_same {s : State} (i : Nat) (y x : Int) (v : ℝ) {k n : Nat}
    (h : arr s k = arr s n) : (editStep s (.write i y x v)).data n = (editStep s (.write i y x v)).data k := by
  unfold State.data Heap.dataOf
  rw [(write_objs s i y x v).1]
  have : (s.heap.objs.cell k).data = (s.heap.objs.cell n).data := h
  rw [this]

/-- Results of calls that do not return the same pixels. -/
theorem new_apart {s : State} (hv : Valid s) {o : Op} (hin : o.inPlace = false) (hs : o.samePixels = false) {n : Nat}
    (hn : (exec s.images o s.heap).1 = .ok (some n)) {k : Nat} (hk : k < s.heap.objs.size) :
    arr (step s o) k ≠ arr (step s o) n := by
  have h1 := (makes_exec (s := s) hin hs s.heap.datas.size s.heap le_rfl).1 _ hn n rfl
  have h2 : arr (step s o) k = arr s k := by
    unfold arr
    rw [(step_frame hv o).obj k hk fun hw => by have := hw.1; rw [hin] at this; cases this]
  have h3 : arr s k < s.heap.datas.size := (hv.1 k hk).1
  have h4 : s.heap.datas.size ≤ arr (step s o) n := by unfold arr; rw [step_heap]; exact h1.2
  omega

/-- The receiver of a correction that raises nothing. -/
theorem corrected_apart {s : State} (hv : Valid s) {o : Op} (hc : o.correctsPixels = true) {r : Nat} (hr : o.CalledOn s r)
    (hok : Succeeds s o) {k : Nat} (hk : k < s.heap.objs.size) (hkr : k ≠ r) : arr (step s o) k ≠ arr (step s o) r := by
  obtain ⟨i, hsrc, hi⟩ := hr
  obtain ⟨a, ha⟩ := hok
  have h1 := (gives_exec hc hsrc hi s.heap.datas.size s.heap le_rfl).1 a ha
  have h2 : arr (step s o) k = arr s k := by
    rcases step_arr hv o hk with h | ⟨-, ⟨j, hs', hj⟩, -⟩
    · exact h
    · rw [hsrc] at hs'
      cases hs'
      rw [hi] at hj
      cases hj
      exact absurd rfl hkr
  have h3 : arr s k < s.heap.datas.size := (hv.1 k hk).1
  have h4 : s.heap.datas.size ≤ arr (step s o) r := by unfold arr; rw [step_heap]; exact h1.2
  omega

/-- Images with the same array keep it until the pixels of one of them are corrected. -/
theorem same_step {s : State} (hv : Valid s) (e : Edit) {k n : Nat} (hk : k < s.heap.objs.size) (hn : n < s.heap.objs.size)
    (h : arr s k = arr s n) (hno : ∀ o, e = .call o → o.correctsPixels = true → ¬ o.CalledOn s k ∧ ¬ o.CalledOn s n) :
    arr (editStep s e) k = arr (editStep s e) n := by
  cases e with
  | write i y x v => unfold arr; rw [(write_objs s i y x v).1]; exact h
  | writeMap i p y x v => unfold arr; rw [(writeMap_objs s i p y x v).1]; exact h
  | writeDemosaiced i q y x v => rw [writeDem_arr, writeDem_arr]; exact h
  | call o =>
    show arr (step s o) k = arr (step s o) n
    rcases step_arr hv o hk with a | ⟨hc, hr, -⟩
    · rcases step_arr hv o hn with b | ⟨hc, hr, -⟩
      · rw [a, b, h]
      · exact absurd hr (hno o rfl hc).2
    · exact absurd hr (hno o rfl hc).1

/-- A copy holds the array of the image copied. -/
theorem same_newFromImage (k : Nat) (dic : Option AngleDic) (R : Nat) :
    Triple (fun h => (h.objs.cell k).data = R) (newFromImage k dic) (fun n => OwnA 0 (fun r => r = R) n) (fun _ => True) := by
  intro h hR
  rw [newFromImage_run]
  refine ⟨fun a ha => ?_, fun _ _ => trivial⟩
  cases ha
  refine ⟨Nat.zero_le _, ?_⟩
  show ((h.objs.alloc _).cell h.objs.size).data = R
  rw [Store.alloc_cell_self]
  exact hR

theorem same_exec {s : State} {o : Op} {i k : Nat} (hs : o.samePixels = true) (hsrc : o.source = some i)
    (hk : s.images[i]? = some k) (R : Nat) :
    Triple (fun h => (h.objs.cell k).data = R) (exec s.images o)
      (fun r h => ∀ n, r = some n → OwnA 0 (fun r => r = R) n h) (fun _ => True) := by
  have recv : ∀ {β : Type} {Q : β → Heap → Prop} {f : Nat → M β},
      Triple (fun h => (h.objs.cell k).data = R) (f k) Q (fun _ => True) →
      Triple (fun h => (h.objs.cell k).data = R) (named s.images i >>= f) Q (fun _ => True) := by
    intro β Q f hf
    refine Triple.bind (triple_named s.images i fun _ _ => trivial) fun k' => ?_
    intro h hh
    rw [hk] at hh
    obtain ⟨⟨⟩, hh⟩ := hh
    exact hf h hh
  have fin : ∀ n : Nat, Triple (OwnA 0 (fun r => r = R) n) (pure (some n) : M (Option Nat))
      (fun r h => ∀ n, r = some n → OwnA 0 (fun r => r = R) n h) (fun _ => True) := fun n =>
    Triple.pure fun h hh m hm => by cases hm; exact hh
  cases o with
  | fromImage i' dic dark flat junk =>
    cases dark with
    | some d => cases hs
    | none =>
      cases flat with
      | some f => cases hs
      | none =>
        cases hsrc
        refine recv ?_
        refine Triple.bind (Q := fun d h => d = none ∧ (h.objs.cell k).data = R) (Triple.pure fun h hh => ⟨rfl, hh⟩) ?_
        intro d
        refine Triple.bind (Q := fun d' h => (d = none ∧ d' = none) ∧ (h.objs.cell k).data = R)
          (Triple.pure fun h hh => ⟨⟨hh.1, rfl⟩, hh.2⟩) ?_
        rintro d' h ⟨⟨rfl, rfl⟩, hh⟩
        exact (Triple.bind (same_newFromImage k dic R) fun n =>
          Triple.bind (weaken (m := applyCorrections junk n none none) Pres.pure) fun _ => fin n) h hh
  | demodulate i' D dem =>
    cases hsrc
    refine recv (Triple.bind (Q := fun n => OwnA 0 (fun r => r = R) n) ?_ fin)
    refine Triple.bind (same_newFromImage k none R) fun n => ?_
    cases dem with
    | true =>
      exact Triple.bind (weaken (own_demosaic _)) fun _ => Triple.bind (weaken Pres.read) fun _ =>
        Triple.bind (weaken Pres.lift) fun _ => Triple.bind (weaken (Pres.modify fun _ hf => hf.setStokes _)) fun _ =>
        Triple.bind (weaken (Pres.modify fun _ hf => hf.modifyObj fun _ => rfl)) fun _ => Triple.pure fun _ h => h
    | false =>
      exact Triple.bind (weaken Pres.read) fun _ =>
        Triple.bind (weaken Pres.lift) fun _ => Triple.bind (weaken (Pres.modify fun _ hf => hf.setStokes _)) fun _ =>
        Triple.bind (weaken (Pres.modify fun _ hf => hf.modifyObj fun _ => rfl)) fun _ => Triple.pure fun _ h => h
  | _ => cases hs

/-- The result of a call that returns the same pixels holds the same array. -/
theorem new_same {s : State} (hv : Valid s) {o : Op} (hs : o.samePixels = true) {n : Nat}
    (hn : (exec s.images o s.heap).1 = .ok (some n)) {k : Nat} (hk : o.CalledOn s k) :
    arr (step s o) k = arr (step s o) n := by
  obtain ⟨i, hsrc, hi⟩ := hk
  have h1 := (same_exec hs hsrc hi (arr s k) s.heap rfl).1 _ hn n rfl
  rw [← step_heap] at h1
  have h2 : arr (step s o) k = arr s k := by
    unfold arr
    rw [(step_frame hv o).obj k (mem_lt hv hi) fun hw => by
      have := hw.1
      cases o <;> first | (cases this; done) | (cases hs; done)]
  rw [h2]
  exact h1.2.symm

/-! ## Recomputed Stokes maps -/

theorem subtractDarkV_fresh {v : ImgView} {d : Img ℝ} (hd : v.isDemosaiced = false)
    (hok : (subtractDarkV d v).1 = .ok ()) : TheoV (subtractDarkV d v).2 := by
  unfold subtractDarkV at hok ⊢
  obtain ⟨e, -, h⟩ := withVal_ok hok
  rw [h] at hok ⊢
  obtain ⟨w, h1, h2⟩ := andThen_ok hok
  have := updateData_theo_ok (v := v) (d := e) hd (by rw [h1])
  rw [h2]
  rw [h1] at this
  exact this

theorem correctFlatV_fresh {junk : Nat → Nat → ℝ} {v : ImgView} {d : Img ℝ} (hd : v.isDemosaiced = false)
    (hok : (correctFlatV junk d v).1 = .ok ()) : TheoV (correctFlatV junk d v).2 := by
  unfold correctFlatV at hok ⊢
  obtain ⟨e, -, h⟩ := withVal_ok hok
  rw [h] at hok ⊢
  obtain ⟨w, h1, h2⟩ := andThen_ok hok
  have := updateData_theo_ok (v := v) (d := e) hd (by rw [h1])
  rw [h2]
  rw [h1] at this
  exact this

theorem applyCorrectionsV_fresh {junk : Nat → Nat → ℝ} {d f : Option (Img ℝ)} {v : ImgView} (hv : v.isDemosaiced = false)
    (hc : d.isSome = true ∨ f.isSome = true) (hok : (applyCorrectionsV junk d f v).1 = .ok ()) :
    TheoV (applyCorrectionsV junk d f v).2 := by
  cases d with
  | none =>
    cases f with
    | none => simp at hc
    | some f => exact correctFlatV_fresh hv hok
  | some d =>
    cases f with
    | none => exact subtractDarkV_fresh hv hok
    | some f =>
      change (andThen _ _).1 = _ at hok
      change TheoV (andThen _ _).2
      obtain ⟨w, h1, h2⟩ := andThen_ok hok
      have := subtractDarkV_fresh (v := v) (d := d) hv (by rw [h1])
      rw [h1] at this
      rw [h2] at hok ⊢
      exact correctFlatV_fresh this.1 hok

theorem optV_isSome {s : State} {k : Option Nat} {v : ImgView} {f : Option (Img ℝ) → Py Unit × ImgView}
    (h : (optV s k v f).1 = .ok ()) : ∃ d, d.isSome = k.isSome ∧ optV s k v f = f d := by
  unfold optV at h ⊢
  cases k with
  | none => exact ⟨none, rfl, rfl⟩
  | some k =>
    dsimp only at h ⊢
    obtain ⟨m, -, e⟩ := secondV_ok h
    exact ⟨some _, rfl, e⟩

theorem value_fresh {s : State} {o : Op} (ho : o.recomputes = true) {v : ImgView} (hv : v.isDemosaiced = false)
    (hok : (o.value s v).1 = .ok ()) : TheoV (o.value s v).2 := by
  cases o with
  | fromImage i dic dark flat junk =>
    change (optV _ _ _ _).1 = _ at hok
    change TheoV (optV _ _ _ _).2
    obtain ⟨d, hd, e⟩ := optV_isSome hok
    rw [e] at hok ⊢
    obtain ⟨f, hf, e⟩ := optV_isSome hok
    rw [e] at hok ⊢
    refine applyCorrectionsV_fresh hv ?_ hok
    rw [hd, hf]
    simpa [Op.recomputes] using ho
  | rebin i b =>
    change (if b ≤ 0 then (Except.error PyErr.valueError, v) else _).1 = _ at hok
    change TheoV (if b ≤ 0 then (Except.error PyErr.valueError, v) else _).2
    split at hok
    · cases hok
    · rename_i hb
      rw [if_neg hb]
      obtain ⟨d, hd, e⟩ := withVal_ok hok
      rw [e] at hok ⊢
      exact updateData_theo_ok hv hok
  | shift i y x m =>
    obtain ⟨d, hd, e⟩ := withVal_ok hok
    change TheoV (withVal _ _ _).2
    rw [e]
    change (withVal _ _ _).1 = _ at hok
    rw [e] at hok
    exact updateData_theo_ok hv hok
  | cleanHotPixels i f median =>
    obtain ⟨k, hk, e⟩ := secondV_ok hok
    change TheoV (secondV _ _ _ _).2
    change (secondV _ _ _ _).1 = _ at hok
    rw [e] at hok ⊢
    obtain ⟨d, hd, e⟩ := withVal_ok hok
    rw [e] at hok ⊢
    exact updateData_theo_ok hv hok
  | arithImage op i j junk =>
    obtain ⟨k, hk, e⟩ := secondV_ok hok
    change TheoV (secondV _ _ _ _).2
    change (secondV _ _ _ _).1 = _ at hok
    rw [e] at hok ⊢
    obtain ⟨d, hd, e⟩ := withVal_ok hok
    rw [e] at hok ⊢
    exact updateData_theo_ok hv hok
  | arithNumber op i c junk =>
    change TheoV (withVal _ _ _).2
    change (withVal _ _ _).1 = _ at hok
    obtain ⟨d, hd, e⟩ := withVal_ok hok
    rw [e] at hok ⊢
    obtain ⟨S, hS, e⟩ := withVal_ok hok
    rw [e]
    exact ⟨rfl, hS⟩
  | subtractDark i j =>
    obtain ⟨k, hk, e⟩ := secondV_ok hok
    change TheoV (secondV _ _ _ _).2
    change (secondV _ _ _ _).1 = _ at hok
    rw [e] at hok ⊢
    exact subtractDarkV_fresh hv hok
  | correctFlat i j junk =>
    obtain ⟨k, hk, e⟩ := secondV_ok hok
    change TheoV (secondV _ _ _ _).2
    change (secondV _ _ _ _).1 = _ at hok
    rw [e] at hok ⊢
    exact correctFlatV_fresh hv hok
  | correctIfov i =>
    change (withVal _ _ _).1 = _ at hok
    change TheoV (withVal _ _ _).2
    obtain ⟨d, hd, e⟩ := withVal_ok hok
    rw [e] at hok ⊢
    exact updateData_theo_ok hv hok
  | _ => cases ho

end

end Micropol
