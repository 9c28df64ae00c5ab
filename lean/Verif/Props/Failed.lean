import Verif.Lemmas.Failed
import Verif.Props.ObjectHeader

/-!
# C120: a call that raises changes nothing

A user who catches an exception and goes on has the images they had before the call, now and after whatever they do next.
This holds for every call but the constructor given an image, a dark and a flat: if the flat does not fit, the dark has been
subtracted from the copy, whose header is that of the source.
-/

set_option autoImplicit false

namespace Micropol

/-- C120: after any history, if a call raises, the session goes on as if it had not been made: whatever is called next, the
images show the same as without it. -/
theorem C120_unnoticed_partial (ops : List Op) (o : Op) (e : PyErr) (hc : o.Atomic (runOps ops)) (he : Raises (runOps ops) o e)
    (later : List Op) : (runOps (ops ++ o :: later)).shows = (runOps (ops ++ later)).shows := by
  have h := alike_foldl later (alike_raised ops hc he)
  have e1 : runOps (ops ++ o :: later) = later.foldl step (step (runOps ops) o) := by
    unfold runOps; rw [List.foldl_append]; rfl
  have e2 : runOps (ops ++ later) = later.foldl step (runOps ops) := by
    unfold runOps; rw [List.foldl_append]
  rw [e1, e2]
  exact h.shows

/-- C120: and the calls that follow raise the same exceptions, and return new images or the same objects in the same places. -/
theorem C120_same_outcomes_partial (ops : List Op) (o : Op) (e : PyErr) (hc : o.Atomic (runOps ops))
    (he : Raises (runOps ops) o e) (later : List Op) :
    (∀ (c : Op) (e' : PyErr), Raises (runOps (ops ++ o :: later)) c e' ↔ Raises (runOps (ops ++ later)) c e') ∧
    (runOps (ops ++ o :: later)).sameObjects (runOps (ops ++ later)) := by
  have h := alike_foldl later (alike_raised ops hc he)
  have e1 : runOps (ops ++ o :: later) = later.foldl step (step (runOps ops) o) := by
    unfold runOps; rw [List.foldl_append]; rfl
  have e2 : runOps (ops ++ later) = later.foldl step (runOps ops) := by
    unfold runOps; rw [List.foldl_append]
  rw [e1, e2]
  exact ⟨fun c e' => (h.raises c e').symm, fun i j => (h.same i j).symm⟩

/-- C120: any number of such calls may be left out of a session. -/
theorem C120_all_unnoticed_partial (ops : List Op)
    (hc : ∀ pre o post e, ops = pre ++ o :: post → Raises (runOps pre) o e → o.Atomic (runOps pre)) :
    ∃ kept : List Op, kept.Sublist ops ∧ (runOps kept).shows = (runOps ops).shows ∧
      ∀ pre o post, kept = pre ++ o :: post → ∀ e, ¬ Raises (runOps pre) o e := by
  suffices H : ∃ kept : List Op, kept.Sublist ops ∧ Alike (runOps kept) (runOps ops) ∧
      ∀ pre o post, kept = pre ++ o :: post → ∀ e, ¬ Raises (runOps pre) o e by
    obtain ⟨kept, h1, h2, h3⟩ := H
    exact ⟨kept, h1, h2.shows.symm, h3⟩
  induction ops using List.reverseRecOn with
  | nil =>
    refine ⟨[], List.Sublist.refl _, alike_refl [], ?_⟩
    intro pre o post h
    exact absurd h (by simp)
  | append_singleton ops o ih =>
    obtain ⟨kept, h1, h2, h3⟩ := ih fun pre o' post e h =>
      hc pre o' (post ++ [o]) e (by rw [h]; simp)
    by_cases hr : ∃ e, Raises (runOps ops) o e
    · obtain ⟨e, he⟩ := hr
      refine ⟨kept, h1.trans (List.sublist_append_left _ _), ?_, h3⟩
      rw [runOps_snoc]
      exact h2.trans (alike_raised ops (hc ops o [] e rfl he) he)
    · refine ⟨kept ++ [o], h1.append (List.Sublist.refl _), ?_, ?_⟩
      · rw [runOps_snoc, runOps_snoc]
        exact (alike_step h2 o).2
      · intro pre o' post h e he
        rcases List.eq_nil_or_concat post with hp | ⟨post', x, hp⟩
        · subst hp
          obtain ⟨e1, e2⟩ := List.append_inj' h rfl
          cases e2
          rw [← e1] at he
          exact hr ⟨e, (h2.raises o e).1 he⟩
        · subst hp
          have : kept ++ [o] = (pre ++ o' :: post') ++ [x] := by rw [h]; simp
          obtain ⟨e1, -⟩ := List.append_inj' this rfl
          exact h3 pre o' post' e1 e he

/-- C120: `mask_occulter` on an image never raises. -/
theorem C120_mask_returns (ops : List Op) (i k : Nat) (hk : (runOps ops).images[i]? = some k) (y x r over fill : ℝ)
    (e : PyErr) : ¬ Raises (runOps ops) (.maskOcculter i y x r over fill) e := by
  intro he
  have h1 := (exec_place_value (s := runOps ops) (o := .maskOcculter i y x r over fill) rfl hk rfl).1
  have h2 := maskOcculterV_ok (run_sound ops k (List.mem_of_getElem? hk)) y x r over fill
  have h3 : (Op.value (runOps ops) (.maskOcculter i y x r over fill) ((runOps ops).heap.view k)).1 = .ok () := h2
  rw [h3] at h1
  unfold Raises at he
  rw [h1] at he
  cases he

/-- C120: whatever is called, but for a rotation by something else than PIL, if it raises the images keep their pixel data,
Stokes maps, dictionaries, demosaiced images and flags; only headers may change. -/
theorem C120_only_headers (ops : List Op) (o : Op) (e : PyErr) (hrot : ∀ i rot, o ≠ .rotate i rot)
    (he : Raises (runOps ops) o e) (k : Nat) (hk : k ∈ (runOps ops).images) :
    (runOps (ops ++ [o])).shown k = { (runOps ops).shown k with header := (runOps (ops ++ [o])).header k } := by
  have hv := runOps_valid ops
  have hlt := hv.2 k hk
  obtain ⟨w1, w2, w3⟩ := hv.1 k hlt
  rw [runOps_snoc]
  have core : ∀ H : Nat → Prop, Frame nobody nobody H (runOps ops).heap (step (runOps ops) o).heap →
      (step (runOps ops) o).shown k = { (runOps ops).shown k with header := (step (runOps ops) o).header k } := by
    intro H fr
    have hobj := fr.obj k hlt (fun h => h)
    have hdat : (step (runOps ops) o).data k = (runOps ops).data k := by
      show (step (runOps ops) o).heap.datas.cell ((step (runOps ops) o).heap.objs.cell k).data = _
      rw [hobj]; exact fr.data _ w1
    have hst : (step (runOps ops) o).stokes k = (runOps ops).stokes k := by
      show ((step (runOps ops) o).heap.stokes.cell ((step (runOps ops) o).heap.objs.cell k).stokes).planes = _
      rw [hobj, fr.stokes _ w2 (fun h => h)]; rfl
    unfold State.shown
    rw [hdat, hst, hobj]
    unfold State.dic State.isDemosaiced State.demosaiced Heap.dicOf
    rw [hobj]
  by_cases hin : o.inPlace = true ∨ o.writesStokes = true
  · have hc : o.Atomic (runOps ops) := by
      cases o with
      | rotate i rot => exact absurd rfl (hrot i rot)
      | congrid => rcases hin with h | h <;> cases h
      | fromImage => rcases hin with h | h <;> cases h
      | _ => trivial
    have hg := quietly_exec hv (run_sound ops) o hc e he
    refine core nobody ?_
    rw [step_raised he]
    exact hg.1
  · push Not at hin
    have fr := step_frame hv o
    refine core (o.H (runOps ops)) ⟨fr.dataSize, fr.data, fr.stokesSize, fun c hc _ => fr.stokes c hc fun h => ?_,
      fr.headerSize, fr.header, fr.objSize, fun c hc _ => fr.obj c hc fun h => hin.1 h.1, fr.dic, fr.hdr⟩
    exact hin.2 h.1

/-- C120: what `MicropolImage(image, dark=dark, flat=flat)` leaves behind if the dark fits and the flat does not: a header of
the given image that states the size of its pixel data, whatever it stated before. -/
theorem C120_header_rewritten (ops : List Op) (i d f k kd kf : Nat) (dic : Option AngleDic) (junk : Nat → Nat → ℝ)
    (hk : (runOps ops).images[i]? = some k) (hd : (runOps ops).images[d]? = some kd) (hf : (runOps ops).images[f]? = some kf)
    (hsame : ((runOps ops).data k).SameShape ((runOps ops).data kd)) (e : PyErr)
    (he : Raises (runOps ops) (.fromImage i dic (some d) (some f) junk) e) :
    (runOps (ops ++ [.fromImage i dic (some d) (some f) junk])).header k =
      ⟨((runOps ops).data k).w, ((runOps ops).data k).h⟩ := by
  have hv := runOps_valid ops
  rw [runOps_snoc, step_raised he]
  have hrun : exec (runOps ops).images (.fromImage i dic (some d) (some f) junk) (runOps ops).heap =
      (newFromImage k dic >>= fun n => applyCorrections junk n (some kd) (some kf) >>= fun _ =>
        (pure (some n) : M (Option Nat))) (runOps ops).heap := by
    unfold exec
    dsimp only
    rw [run_named hk, run_namedOpt_some hd, run_namedOpt_some hf]
  unfold Raises at he
  rw [hrun] at he
  show (exec (runOps ops).images (.fromImage i dic (some d) (some f) junk) (runOps ops).heap).2.headerOf k = _
  rw [hrun]
  have hD : ∃ D, subtractDarkData ((runOps ops).heap.dataOf k) ((runOps ops).heap.dataOf kd) = .ok D := by
    unfold subtractDarkData npBin
    rw [npBinAt_ok (f := fun _ _ a b => a - b) (A := (runOps ops).heap.dataOf k) (B := (runOps ops).heap.dataOf kd) hsame.1 hsame.2]
    exact ⟨_, rfl⟩
  obtain ⟨D, hD⟩ := hD
  exact header_after_failed hv (run_sound ops) hk dic junk (List.mem_of_getElem? hd) (List.mem_of_getElem? hf) hD he

/-- A flat of another shape makes the constructor raise. -/
theorem raises_flat (ops : List Op) (i d f k kd kf : Nat) (dic : Option AngleDic) (junk : Nat → Nat → ℝ)
    (hk : (runOps ops).images[i]? = some k) (hd : (runOps ops).images[d]? = some kd) (hf : (runOps ops).images[f]? = some kf)
    (hne : ¬ ((runOps ops).data k).SameShape ((runOps ops).data kf)) :
    ∃ e, Raises (runOps ops) (.fromImage i dic (some d) (some f) junk) e := by
  have hv := runOps_valid ops
  have h1 := (exec_new_value hv (o := .fromImage i dic (some d) (some f) junk) rfl hk rfl).1
  unfold Raises
  rw [h1]
  have e1 : Op.value (runOps ops) (.fromImage i dic (some d) (some f) junk) ((runOps ops).heap.view k) =
      andThen (subtractDarkV ((runOps ops).heap.dataOf kd) ((runOps ops).heap.view k))
        (correctFlatV junk ((runOps ops).heap.dataOf kf)) := by
    unfold Op.value optV secondV
    dsimp only
    rw [hd]
    dsimp only
    rw [hf]
    rfl
  rw [e1]
  have hsk := run_sound ops k (List.mem_of_getElem? hk)
  have hed : EvenImg ((runOps ops).heap.dataOf kd) := (run_sound ops kd (List.mem_of_getElem? hd)).1
  have hef : EvenImg ((runOps ops).heap.dataOf kf) := (run_sound ops kf (List.mem_of_getElem? hf)).1
  cases hx : (andThen (subtractDarkV ((runOps ops).heap.dataOf kd) ((runOps ops).heap.view k))
      (correctFlatV junk ((runOps ops).heap.dataOf kf))).1 with
  | error e => exact ⟨e, rfl⟩
  | ok u =>
    exfalso
    obtain ⟨v, hv1, hv2⟩ := andThen_ok hx
    rw [hv2] at hx
    have hsh := subtractDarkV_shape hsk hed (by rw [hv1])
    have hso := subtractDarkV_sound hsk hed
    rw [hv1] at hsh hso
    dsimp only at hsh hso
    obtain ⟨D, hD, -⟩ := withVal_ok hx
    unfold correctFlatData at hD
    obtain ⟨m, -, h2⟩ := Py.bind_eq_ok.1 hD
    split at h2
    · cases h2
    · have := same_of_ok (B := ((runOps ops).heap.dataOf kf).map (fun v => v / m)) hso.1 hef h2
      exact hne ⟨hsh.1.symm.trans this.1, hsh.2.symm.trans this.2⟩

/-- A dark of another shape makes the subtraction raise. -/
theorem raises_dark (ops : List Op) (i d k kd : Nat)
    (hk : (runOps ops).images[i]? = some k) (hd : (runOps ops).images[d]? = some kd)
    (hne : ¬ ((runOps ops).data k).SameShape ((runOps ops).data kd)) :
    ∃ e, Raises (runOps ops) (.subtractDark i d) e := by
  have h1 := (exec_place_value (s := runOps ops) (o := .subtractDark i d) rfl hk rfl).1
  unfold Raises
  cases hx : (Op.value (runOps ops) (.subtractDark i d) ((runOps ops).heap.view k)).1 with
  | error e => rw [h1, hx]; exact ⟨e, rfl⟩
  | ok u =>
    have := returns_place (ops := ops) (o := .subtractDark i d) (k := k) rfl rfl rfl hk hx
    exact absurd (C77_dark ops i d k kd k hk hd this).2.1 hne

/-- The session of the examples: an image of 4 × 4 pixels, then the same rebinned to 2 × 2. -/
noncomputable def rebinned : List Op := [.fromArray flat44 none none none fun _ _ => 0, .rebin 0 2]

theorem rebinned_facts : (runOps rebinned).images = [0, 1] ∧ (runOps rebinned).data 0 = flat44 ∧
    ((runOps rebinned).data 1).HasShape 2 2 ∧ (runOps rebinned).header 0 = ⟨2, 2⟩ := by
  obtain ⟨h1, h2, h3, h4, h5⟩ := flat44_rebin
  have hsrc := C43_source_overwritten [.fromArray flat44 none none none fun _ _ => 0] (.rebin 0 2) rfl rfl 0
    ⟨0, rfl, by rw [h1]; rfl⟩ 1 (by rw [h1]; exact h3)
  have hdat := C40_data_kept [.fromArray flat44 none none none fun _ _ => 0] (.rebin 0 2) 0 (by rw [h1]; simp)
    (fun h => by cases h.1)
  refine ⟨h3, hdat.trans h2, ⟨h4, h5⟩, hsrc.trans ?_⟩
  show Header.mk ((runOps [.fromArray flat44 none none none fun _ _ => 0, .rebin 0 2]).data 1).w
    ((runOps [.fromArray flat44 none none none fun _ _ => 0, .rebin 0 2]).data 1).h = _
  rw [h4, h5]

/-- C120 violated: with `small = image.rebin(2)`, the call `MicropolImage(image, dark=image, flat=small)` raises, and changes
what `image` and `small` show: the header they share now says 4 × 4 instead of 2 × 2. -/
theorem C120_full_claim_false : ¬ ∀ (ops : List Op) (o : Op) (e : PyErr), (∀ i rot, o ≠ .rotate i rot) →
    Raises (runOps ops) o e → (runOps (ops ++ [o])).shows = (runOps ops).shows := by
  intro hall
  obtain ⟨h1, h2, h3, h4⟩ := rebinned_facts
  have hi0 : (runOps rebinned).images[0]? = some 0 := by rw [h1]; rfl
  have hi1 : (runOps rebinned).images[1]? = some 1 := by rw [h1]; rfl
  obtain ⟨e, he⟩ := raises_flat rebinned 0 0 1 0 0 1 none (fun _ _ => 0) hi0 hi0 hi1 (by
    rintro ⟨h, -⟩
    rw [h2, h3.1] at h
    revert h
    show ¬ (4 = 2)
    decide)
  have hr := C120_header_rewritten rebinned 0 0 1 0 0 1 none (fun _ _ => 0) hi0 hi0 hi1 ⟨rfl, rfl⟩ e he
  have hs := hall rebinned _ e (fun i rot h => by cases h) he
  have him : (runOps (rebinned ++ [.fromImage 0 none (some 0) (some 1) fun _ _ => 0])).images = [0, 1] := by
    rw [runOps_snoc, step_raised he]
    exact h1
  unfold State.shows at hs
  rw [him, h1] at hs
  have h0 := congrArg Shown.header (List.head_eq_of_cons_eq hs)
  have : (runOps (rebinned ++ [.fromImage 0 none (some 0) (some 1) fun _ _ => 0])).header 0 = (runOps rebinned).header 0 := h0
  rw [hr, h4, h2] at this
  have h42 : (4 : Nat) = 2 := congrArg Header.naxis1 this
  exact absurd h42 (by decide)

/-- The hypotheses are met: subtracting the rebinned image from the original raises, and whatever follows shows the same as if
it had not been tried. -/
example : ∃ e, Raises (runOps rebinned) (.subtractDark 0 1) e ∧ ∀ later,
    (runOps (rebinned ++ .subtractDark 0 1 :: later)).shows = (runOps (rebinned ++ later)).shows := by
  obtain ⟨h1, h2, h3, h4⟩ := rebinned_facts
  obtain ⟨e, he⟩ := raises_dark rebinned 0 1 0 1 (by rw [h1]; rfl) (by rw [h1]; rfl) (by
    rintro ⟨h, -⟩
    rw [h2, h3.1] at h
    revert h
    show ¬ (4 = 2)
    decide)
  exact ⟨e, he, fun later => C120_unnoticed_partial rebinned (.subtractDark 0 1) e trivial he later⟩

/-- The constructor with a dark and a flat meets the condition on an image whose header is right: here the 2 × 2 image, with the
4 × 4 one as a flat. -/
example : ∃ e, Raises (runOps rebinned) (.fromImage 1 none (some 1) (some 0) fun _ _ => 0) e ∧ ∀ later,
    (runOps (rebinned ++ .fromImage 1 none (some 1) (some 0) (fun _ _ => 0) :: later)).shows =
      (runOps (rebinned ++ later)).shows := by
  obtain ⟨h1, h2, h3, h4⟩ := rebinned_facts
  have hi0 : (runOps rebinned).images[0]? = some 0 := by rw [h1]; rfl
  have hi1 : (runOps rebinned).images[1]? = some 1 := by rw [h1]; rfl
  obtain ⟨e, he⟩ := raises_flat rebinned 1 1 0 1 1 0 none (fun _ _ => 0) hi1 hi1 hi0 (by
    rintro ⟨h, -⟩
    rw [h2, h3.1] at h
    revert h
    show ¬ (2 = 4)
    decide)
  refine ⟨e, he, fun later => C120_unnoticed_partial rebinned _ e ?_ he later⟩
  intro k hk
  rw [hi1] at hk
  cases hk
  have hr := C43_right_when_set_partial [.fromArray flat44 none none none fun _ _ => 0] (.rebin 0 2) rfl 1
    (by rw [flat44_rebin.1]; exact flat44_rebin.2.2.1)
  obtain ⟨e1, e2⟩ := hr
  show (runOps rebinned).header 1 = Header.mk _ _
  rw [show ((runOps rebinned).data 1).w = ((runOps rebinned).header 1).naxis1 from e1.symm,
    show ((runOps rebinned).data 1).h = ((runOps rebinned).header 1).naxis2 from e2.symm]

end Micropol
