import Verif.Lemmas.Apart

/-!
# Every call on images outside `Z` leaves the objects of `Z` alone
-/

set_option autoImplicit false
set_option linter.unusedSectionVars false

namespace Micropol

open M

noncomputable section

open Classical

variable {Z : Nat → Prop} {h0 : Heap} {images : List Nat}

theorem conf_exec (o : Op) (hi : ∀ i k, o.source = some i → images[i]? = some k → k < h0.objs.size ∧ ¬ Z k) :
    Triple (Conf Z h0) (exec images o) (ConfR Z h0) (Conf Z h0) := by
  -- the receiver of an operation, and another argument
  have recv : ∀ {i : Nat} {β : Type} {Q : β → Heap → Prop} {f : Nat → M β}, o.source = some i →
      (∀ k, (∀ h, Conf Z h0 h → ConfN Z h0 k h) → Triple (Conf Z h0) (f k) Q (Conf Z h0)) →
      Triple (Conf Z h0) (named images i >>= f) Q (Conf Z h0) := by
    intro i β Q f hsrc hf
    refine Triple.bind (triple_named images i fun _ h => h) fun k => ?_
    intro h hh
    have := hi i k hsrc hh.1
    exact hf k (fun g hg => ⟨hg, lt_of_lt_of_le this.1 hg.size, this.2⟩) h hh.2
  have other : ∀ {i : Nat} {β : Type} {Q : β → Heap → Prop} {f : Nat → M β},
      (∀ k, Triple (Conf Z h0) (f k) Q (Conf Z h0)) → Triple (Conf Z h0) (named images i >>= f) Q (Conf Z h0) := by
    intro i β Q f hf
    refine Triple.bind (triple_named images i fun _ h => h) fun k => ?_
    intro h hh
    exact hf k h hh.2
  have start : ∀ {k : Nat} {β : Type} {Q : β → Heap → Prop} {m : M β}, (∀ h, Conf Z h0 h → ConfN Z h0 k h) →
      Triple (ConfN Z h0 k) m Q (Conf Z h0) → Triple (Conf Z h0) m Q (Conf Z h0) :=
    fun hk hm => Triple.conseq hm hk (fun _ _ h => h) (fun _ h => h)
  have lift' : ∀ {n : Nat} {α : Type} {x : Py α}, Triple (ConfN Z h0 n) (M.lift x) (fun _ => ConfN Z h0 n) (Conf Z h0) :=
    fun {n} {α} {x} => Triple.conseq (Pres.lift (x := x)) (fun _ h => h) (fun _ _ h => h) (fun _ h => h.1)
  cases o with
  | setDefault dic =>
    exact Triple.bind (Q := fun _ => Conf Z h0) (Triple.modify fun h hf => hf.setDefault dic) fun _ =>
      Triple.pure fun _ h => ⟨h, fun n hn => by cases hn⟩
  | fromArray d dic dark flat junk =>
    refine Triple.bind (pres_namedOpt _ _) fun dk => Triple.bind (pres_namedOpt _ _) fun fl => ?_
    exact Triple.bind (conf_newFromArray d dic) fun n => conf_place (fun m hm => (Option.some.inj hm).symm) (conf_applyCorrections junk dk fl)
  | fromImage i dic dark flat junk =>
    refine recv rfl fun k hk => Triple.bind (pres_namedOpt _ _) fun dk => Triple.bind (pres_namedOpt _ _) fun fl => ?_
    refine start hk (conf_copy dic fun n => ?_)
    exact Triple.conseq (conf_place (fun m hm => (Option.some.inj hm).symm) (conf_applyCorrections junk dk fl)) (fun _ h => h.1)
      (fun _ _ h => h) (fun _ h => h)
  | rebin i b =>
    refine recv rfl fun k hk => conf_ret (start hk ?_)
    unfold rebinObj
    split
    · exact Triple.conseq (Triple.lift (P := Conf Z h0) fun _ h => h) (fun _ h => h.1) (fun _ _ h => by cases h.1) (fun _ h => h)
    · refine conf_copy none fun n => Triple.readLift (fun _ h => h.1.1) fun d => ?_
      exact conf_work (fun _ h => h.2.1) (conf_updateData d)
  | congrid i ny nx =>
    refine recv rfl fun k hk => conf_ret (start hk ?_)
    refine Triple.readLift (fun _ h => h.1) fun d => ?_
    refine Triple.conseq (P := ConfN Z h0 k) ?_ (fun _ h => h.2) (fun _ _ h => h) (fun _ h => h)
    refine conf_copy none fun n => ?_
    refine Triple.bind (Q := fun _ => ConfN Z h0 n) (Triple.modify fun h hf => hf.1.setData d) fun _ => ?_
    refine Triple.bind (Q := fun _ => ConfN Z h0 n) (Triple.conseq Triple.read (fun _ h => h) (fun _ _ h => h.2) (fun _ h => h))
      fun sv => ?_
    refine Triple.bind lift' fun s0 => Triple.bind lift' fun s1 => Triple.bind lift' fun s2 => ?_
    exact conf_work (fun _ h => h) (Pres.modify fun h hf => hf.setStokes _)
  | rotate i rot =>
    refine recv rfl fun k hk => conf_ret (start hk ?_)
    refine Triple.readLift (fun _ h => h.1) fun d => ?_
    refine Triple.bind (Q := fun c => ConfS Z h0 k c) (Triple.conseq Triple.read (fun _ h => h.2) ?_ (fun _ h => h)) fun c => ?_
    · rintro c h ⟨rfl, hh⟩
      exact ⟨hh, rfl⟩
    refine Triple.bind (Q := fun _ => ConfS Z h0 k c) (Triple.conseq (conf_rewritePlanes rot) (fun _ h => h) (fun _ _ h => h)
      (fun _ h => h.1.1)) fun _ => ?_
    refine Triple.bind (conf_newStokes none) fun n => ?_
    refine Triple.bind (Q := fun _ => ConfS Z h0 n c) (Triple.modify fun h hf => ⟨hf.1.1.setData d, ?_⟩) fun _ => ?_
    · rw [mem_stokes_setData]; exact hf.1.2
    · exact Triple.bind (Q := fun _ => ConfN Z h0 n) (Triple.modify fun h hf => hf.1.shareStokes ⟨n, hf.1, hf.2⟩) fun _ =>
        Triple.pure fun _ hh => hh
  | demodulate i D dem =>
    refine recv rfl fun k hk => conf_ret (start hk (conf_copy none fun n => ?_))
    have fin : ∀ S : Fin 3 → Img ℝ, Triple (ConfN Z h0 n)
        (M.modify (fun h => h.setStokes n ⟨S, false⟩) >>= fun _ =>
          M.modify (fun h => h.modifyObj n (fun o => { o with isDemodulated := true })) >>= fun _ => (pure n : M Nat))
        (fun n => ConfN Z h0 n) (Conf Z h0) := by
      intro S
      refine Triple.bind (Q := fun _ => ConfN Z h0 n) (Triple.modify fun h hf => hf.setStokes _) fun _ => ?_
      exact conf_work (fun _ h => h) (Pres.modify fun h hf => hf.plain fun _ => ⟨rfl, rfl, rfl⟩)
    split
    · refine Triple.bind (Triple.conseq (conf_demosaic "adjacent") (fun _ h => h.1) (fun _ _ h => h) (fun _ h => h.1)) fun _ => ?_
      refine Triple.readLift (fun _ h => h.1) fun S => ?_
      exact Triple.conseq (fin S) (fun _ h => h.2) (fun _ _ h => h) (fun _ h => h)
    · refine Triple.readLift (fun _ h => h.1.1) fun S => ?_
      exact Triple.conseq (fin S) (fun _ h => h.2.1) (fun _ _ h => h) (fun _ h => h)
  | shift i y x m =>
    exact recv rfl fun k hk => conf_ret (start hk (conf_derive _))
  | cleanHotPixels i f med =>
    exact recv rfl fun k hk => other fun f => conf_ret (start hk (conf_derive _))
  | arithImage op i j junk =>
    refine recv rfl fun k hk => other fun j => conf_ret (start hk ?_)
    refine Triple.bind (conf_derive _) fun n => ?_
    exact conf_work (fun _ h => h) (Pres.modify fun h hf => hf.shareHeader (hk h hf.1))
  | arithNumber op i c junk =>
    refine recv rfl fun k hk => conf_ret ?_
    refine Triple.readLift (fun _ h => h) fun d => ?_
    refine Triple.bind (Q := fun _ => Conf Z h0) (Triple.conseq Triple.read (fun _ h => h.2) (fun _ _ h => h.2) (fun _ h => h))
      fun dc => ?_
    refine Triple.bind (conf_newFromArray d (some dc)) fun n => ?_
    exact conf_work (fun _ h => h) (Pres.modify fun h hf => hf.shareHeader (hk h hf.1))
  | demosaic i mode =>
    exact recv rfl fun k hk => start hk (conf_place (fun m hm => (Option.some.inj hm).symm) (conf_demosaic mode))
  | subtractDark i d =>
    exact recv rfl fun k hk => other fun d => start hk (conf_place (fun m hm => (Option.some.inj hm).symm) (conf_subtractDark d))
  | correctFlat i f junk =>
    exact recv rfl fun k hk => other fun f => start hk (conf_place (fun m hm => (Option.some.inj hm).symm) (conf_correctFlat junk f))
  | correctIfov i =>
    exact recv rfl fun k hk => start hk (conf_place (fun m hm => (Option.some.inj hm).symm) conf_correctIfov)
  | maskOcculter i y x r over fill =>
    exact recv rfl fun k hk => start hk (conf_place (r := none) (fun m hm => by cases hm) (conf_maskOcculter y x r over fill))

end

end Micropol
