import Verif.Lemmas.MapsBlind
import Verif.Spec.MapsBlind
import Verif.Props.EditMaps

/-!
# C109: Stokes maps have no influence on pixels

What a user writes into I, Q and U never shows in the pixels of any image, in any header, or in which call succeeds.
-/

set_option autoImplicit false

namespace Micropol

open Classical

theorem rotates_form {o : Op} (ho : o.RotatesByPil) : ∀ i rot, o = .rotate i rot → FormOnly rot := by
  intro i rot h
  obtain ⟨a, rfl⟩ := ho i rot h
  exact form_pil a

theorem blind_session (es : List Edit) (hrot : ∀ o, .call o ∈ es → o.RotatesByPil) :
    Blind (runEdits es).heap (runEdits (withoutMapWrites es)).heap ∧
      (runEdits (withoutMapWrites es)).images = (runEdits es).images := by
  induction es using List.reverseRecOn with
  | nil => exact ⟨Blind.refl _, rfl⟩
  | append_singleton l e ih =>
    obtain ⟨h1, h2⟩ := ih fun o ho => hrot o (List.mem_append_left _ ho)
    have hw : withoutMapWrites (l ++ [e]) = withoutMapWrites l ++ withoutMapWrites [e] := List.filter_append ..
    cases e with
    | call o =>
      rw [hw, show withoutMapWrites [Edit.call o] = [.call o] from rfl, runEdits_snoc, runEdits_snoc]
      exact (blind_step h1 h2 o (rotates_form (hrot o (by simp)))).2
    | write i y x v =>
      rw [hw, show withoutMapWrites [Edit.write i y x v] = [.write i y x v] from rfl, runEdits_snoc, runEdits_snoc]
      refine ⟨?_, h2⟩
      unfold editStep
      dsimp only
      rw [h2]
      exact (BlindM.bind BlindM.lift (fun k => blind_writePixel k y x v) _ _ h1).2
    | writeDemosaiced i q y x v =>
      rw [hw, show withoutMapWrites [Edit.writeDemosaiced i q y x v] = [.writeDemosaiced i q y x v] from rfl, runEdits_snoc,
        runEdits_snoc]
      refine ⟨?_, h2⟩
      unfold editStep
      dsimp only
      rw [h2]
      exact (BlindM.bind BlindM.lift (fun k => blind_writeDemosaiced k q y x v) _ _ h1).2
    | writeMap i p y x v =>
      rw [hw, show withoutMapWrites [Edit.writeMap i p y x v] = [] from rfl, List.append_nil, runEdits_snoc]
      exact ⟨blind_writeMap h1 i p y x v, h2⟩

/-- C109: with the map writes of a session left out, the session has the same images, and they have the same pixels, headers,
dictionaries, states, demosaiced images and sizes of the maps. -/
theorem C109_pixels (es : List Edit) (hrot : ∀ o, .call o ∈ es → o.RotatesByPil) :
    let s := runEdits es
    let t := runEdits (withoutMapWrites es)
    t.images = s.images ∧ ∀ n, t.data n = s.data n ∧ t.header n = s.header n ∧ t.dic n = s.dic n ∧
      t.isDemosaiced n = s.isDemosaiced n ∧ (t.heap.objs.cell n).demosaicedImages = (s.heap.objs.cell n).demosaicedImages ∧
      ∀ p, (t.stokes n p).h = (s.stokes n p).h ∧ (t.stokes n p).w = (s.stokes n p).w := by
  intro s t
  obtain ⟨h1, h2⟩ := blind_session es hrot
  refine ⟨h2, fun n => ⟨(h1.data n).symm, ?_, (h1.dic n).symm, ?_, ?_, fun p => ?_⟩⟩
  · show t.heap.headers.cell (t.heap.objs.cell n).header = s.heap.headers.cell (s.heap.objs.cell n).header
    rw [h1.headers, h1.objs]
  · show (t.heap.objs.cell n).isDemosaiced = (s.heap.objs.cell n).isDemosaiced
    rw [h1.objs]
  · rw [h1.objs]
  · have := h1.like (s.heap.objs.cell n).stokes p
    show ((t.heap.stokes.cell (t.heap.objs.cell n).stokes).planes p).h = _ ∧
      ((t.heap.stokes.cell (t.heap.objs.cell n).stokes).planes p).w = _
    rw [h1.objs]
    exact ⟨this.1.symm, this.2.symm⟩

/-- C109: every call returns the same image, or raises the same exception, as if no map had been written. -/
theorem C109_outcome (es : List Edit) (hrot : ∀ o, .call o ∈ es → o.RotatesByPil) (o : Op) (ho : o.RotatesByPil) :
    (exec (runEdits (withoutMapWrites es)).images o (runEdits (withoutMapWrites es)).heap).1 =
      (exec (runEdits es).images o (runEdits es).heap).1 := by
  obtain ⟨h1, h2⟩ := blind_session es hrot
  exact (blind_step h1 h2 o (rotates_form ho)).1.symm

/-- C109: a call that computes the maps from the pixels forgets what was written into them: the maps of its result are the
same as if no map had ever been written. -/
theorem C109_forgotten (es : List Edit) (hrot : ∀ o, .call o ∈ es → o.RotatesByPil) (o : Op) (ho : o.recomputes = true)
    (hok : Succeeds (runEdits es) o) (k : Nat) (hk : o.CalledOn (runEdits es) k) (hd : (runEdits es).isDemosaiced k = false)
    (n : Nat) (hn : if o.inPlace then n = k else Answers es o n) :
    (runEdits (withoutMapWrites es ++ [.call o])).stokes n = (runEdits (es ++ [.call o])).stokes n := by
  have hpil : o.RotatesByPil := by
    rintro i rot rfl
    cases ho
  have hrot' : ∀ o', Edit.call o' ∈ es ++ [Edit.call o] → o'.RotatesByPil := by
    intro o' h
    rcases List.mem_append.1 h with h | h
    · exact hrot o' h
    · cases List.mem_singleton.1 h
      exact hpil
  have hw : withoutMapWrites (es ++ [.call o]) = withoutMapWrites es ++ [.call o] := List.filter_append ..
  have before := C109_pixels es hrot
  have after := C109_pixels (es ++ [.call o]) hrot'
  rw [hw] at after
  dsimp only at before after
  have h1 := C87_refreshed es o ho hok k hk hd n hn
  have h2 := C87_refreshed (withoutMapWrites es) o ho
    (by obtain ⟨r, hr⟩ := hok; exact ⟨r, (C109_outcome es hrot o hpil).trans hr⟩) k
    (by obtain ⟨i, hs, hi⟩ := hk; exact ⟨i, hs, by rw [before.1]; exact hi⟩)
    (by rw [(before.2 k).2.2.2.1]; exact hd) n (by
      cases hin : o.inPlace with
      | true =>
        rw [hin] at hn
        exact hn
      | false =>
        rw [hin] at hn
        change (runEdits (es ++ [.call o])).images = _ at hn
        show (runEdits (withoutMapWrites es ++ [.call o])).images = _
        rw [after.1, before.1]
        exact hn)
  rw [(after.2 n).1, (after.2 n).2.2.1, h1] at h2
  injection h2 with h2
  exact h2.symm

/-! ## The hypotheses are met -/

/-- A write into the intensity map of the first image, and a rotation: the maps differ, the pixels do not. -/
example : ∃ es : List Edit, (∀ o, .call o ∈ es → o.RotatesByPil) ∧ (∃ i angle, .call (.rotate i (pilRotate angle)) ∈ es) ∧
    ∃ es0 : List Edit, (∀ o, .call o ∈ es0 → o.RotatesByPil) ∧
      (runEdits es0).stokes 0 ≠ (runEdits (withoutMapWrites es0)).stokes 0 := by
  have hfirst : ∀ o, Edit.call o ∈ firstImage → o.RotatesByPil := by
    intro o ho i rot h
    subst h
    simp at ho
  obtain ⟨S, hS, h0, him, -, hst, -⟩ := firstImage_view
  obtain ⟨S', hS', hsh, -⟩ := darkBright_stokes
  obtain rfl : S' = S := by rw [hS] at hS'; cases hS'; rfl
  refine ⟨firstImage ++ [.call (.rotate 0 (pilRotate 30))], ?_, ⟨0, 30, by simp⟩, firstImage ++ [.writeMap 0 0 0 0 5], ?_, ?_⟩
  · intro o ho
    rcases List.mem_append.1 ho with h | h
    · exact hfirst o h
    · intro i rot he
      subst he
      simp at h
      exact ⟨30, h.2⟩
  · intro o ho
    rcases List.mem_append.1 ho with h | h
    · exact hfirst o h
    · simp at h
  · intro he
    have hw := ((C108_write firstImage 0 0 (by rw [him]; rfl) 0 0 0 5).1 (by rw [hst, (hsh 0).1, (hsh 0).2]; decide)).1
    rw [he, show withoutMapWrites (firstImage ++ [.writeMap 0 0 0 0 5]) = firstImage from rfl, hst] at hw
    obtain ⟨-, -, j, l, hj, hl, hj', hl', hpx, -⟩ := hw
    rw [(hsh 0).1] at hj hj'
    rw [(hsh 0).2] at hl hl'
    obtain rfl : j = 0 := by omega
    obtain rfl : l = 0 := by omega
    rw [h0] at hpx
    norm_num at hpx

end Micropol
