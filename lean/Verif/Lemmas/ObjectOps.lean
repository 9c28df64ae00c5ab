import Verif.Lemmas.ObjectFrame
import Verif.Spec.Object

/-! # Frames of whole operations and histories -/

set_option autoImplicit false

namespace Micropol

open M

/-- The operations that write into an existing Stokes vector. -/
def Op.writesStokes : Op → Bool
  | .rotate _ _ => true
  | .maskOcculter _ _ _ _ _ _ => true
  | _ => false

def Op.W (o : Op) (s : State) (k : Nat) : Prop := o.inPlace = true ∧ o.CalledOn s k
def Op.S (o : Op) (s : State) (c : Nat) : Prop :=
  o.writesStokes = true ∧ ∃ k, o.CalledOn s k ∧ c = (s.heap.objs.cell k).stokes
def Op.H (o : Op) (s : State) (c : Nat) : Prop := ∃ k, o.CalledOn s k ∧ c = (s.heap.objs.cell k).header

/-- The invariant of the whole state: everything referred to exists. -/
def Valid (s : State) : Prop := WF s.heap ∧ ∀ k ∈ s.images, k < s.heap.objs.size

abbrev FWo (o : Op) (s : State) : Heap → Prop := FW (o.W s) (o.S s) (o.H s) s.heap
abbrev FWno (o : Op) (s : State) (n hd : Nat) : Heap → Prop := FWn (o.W s) (o.S s) (o.H s) s.heap n hd

/-- What is known after a call. -/
def After (o : Op) (s : State) (r : Option Nat) (h : Heap) : Prop :=
  FWo o s h ∧ ∀ n, r = some n → n < h.objs.size ∧
    (o.inPlace = true → o.CalledOn s n) ∧ (o.inPlace = false → s.heap.objs.size ≤ n)

section
variable {P : Heap → Prop} {E : Heap → Prop}

theorem triple_named (images : List Nat) (k : Nat) (hE : ∀ h, P h → E h) :
    Triple P (named images k) (fun i h => images[k]? = some i ∧ P h) E := by
  refine (Triple.lift hE).conseq (fun _ h => h) ?_ (fun _ h => h)
  rintro a h ⟨ha, hP⟩
  refine ⟨?_, hP⟩
  cases hk : images[k]? with
  | none => rw [hk] at ha; cases ha
  | some i => rw [hk] at ha; cases ha; rfl

theorem pres_namedOpt (images : List Nat) (k : Option Nat) : Pres P (namedOpt images k) := by
  cases k with
  | none => exact Pres.pure
  | some k => exact Pres.bind (Pres.lift) fun _ => Pres.pure

end

theorem pres_applyCorrections {W S H : Nat → Prop} {h0 : Heap} {n hd : Nat} (junk : Nat → Nat → ℝ)
    (dark flat : Option Nat) (hW : n < h0.objs.size → W n) (hH : hd < h0.headers.size → H hd) :
    Pres (FWn W S H h0 n hd) (applyCorrections junk n dark flat) := by
  unfold applyCorrections
  split
  · exact Pres.pure
  · exact pres_subtractDark _ hW hH
  · exact pres_correctFlat junk _ hW hH
  · exact Pres.bind (pres_subtractDark _ hW hH) fun _ => pres_correctFlat junk _ hW hH

section
variable {s : State} {o : Op}

theorem mem_lt (hv : Valid s) {i k : Nat} (h : s.images[i]? = some k) : k < s.heap.objs.size :=
  hv.2 k (List.mem_of_getElem? h)

/-- A heap-independent consequence of the precondition may be used. -/
theorem Triple.assume {α : Type} {P : Heap → Prop} {m : M α} {Q : α → Heap → Prop} {E : Heap → Prop} {p : Prop}
    (hp : ∀ h, P h → p) (hm : p → Triple P m Q E) : Triple P m Q E := fun h hP => hm (hp h hP) h hP

/-- A new object. -/
def New (o : Op) (s : State) (n : Nat) (h : Heap) : Prop :=
  FWo o s h ∧ n < h.objs.size ∧ s.heap.objs.size ≤ n

theorem new_after (hin : o.inPlace = false) {mk : M Nat}
    (hmk : Triple (FWo o s) mk (New o s) (FWo o s)) :
    Triple (FWo o s) (mk >>= fun n => (pure (some n) : M (Option Nat))) (After o s)
      (FWo o s) := by
  refine Triple.bind hmk fun n => Triple.pure fun h hh => ⟨hh.1, ?_⟩
  rintro m ⟨⟩
  exact ⟨hh.2.1, fun h => (by rw [hin] at h; cases h), fun _ => hh.2.2⟩

/-- A copy, then some work on it. -/
theorem new_copy {β : Type} {k : Nat} (hlt : k < s.heap.objs.size) (dic : Option AngleDic) {f : Nat → M β}
    {Q : β → Heap → Prop}
    (hf : ∀ n, s.heap.objs.size ≤ n → Triple (fun h => FWno o s n
      (s.heap.objs.cell k).header h) (f n) Q (FWo o s)) :
    Triple (FWo o s) (newFromImage k dic >>= f) Q (FWo o s) := by
  refine Triple.bind (triple_newFromImage dic hlt) fun n => ?_
  refine Triple.assume (fun h hh => hh.2.1) fun hn => ?_
  refine (hf n hn).conseq ?_ (fun _ _ h => h) (fun _ h => h)
  rintro h ⟨h2, -, -⟩
  rwa [h2.1.1.hdr k hlt] at h2

/-- Work on a new object that keeps the frame, then returning it. -/
theorem pres_new {β : Type} {n hd : Nat} (hn : s.heap.objs.size ≤ n) {f : M β}
    (hf : Pres (FWno o s n hd) f) :
    Triple (FWno o s n hd) (f >>= fun _ => (pure n : M Nat)) (New o s)
      (FWo o s) :=
  Triple.bind (Triple.conseq hf (fun _ h => h) (fun _ _ h => h) (fun _ h => h.1)) fun _ =>
    Triple.pure fun _ hh => ⟨hh.1, hh.2.1, hn⟩

theorem okH {k i : Nat} (hsrc : o.source = some i) (hk : s.images[i]? = some k) :
    (s.heap.objs.cell k).header < s.heap.headers.size → o.H s (s.heap.objs.cell k).header :=
  fun _ => ⟨k, ⟨i, hsrc, hk⟩, rfl⟩

theorem okW {n : Nat} (hn : s.heap.objs.size ≤ n) : n < s.heap.objs.size → o.W s n :=
  fun h => absurd h (Nat.not_lt.mpr hn)

end

theorem derive_new {s : State} {o : Op} {i k : Nat} (hv : Valid s) (hsrc : o.source = some i)
    (hk : s.images[i]? = some k) (f : Heap → Py (Img ℝ)) :
    Triple (FWo o s) (deriveObj k f) (New o s) (FWo o s) := by
  refine Triple.readLift (fun _ h => h) fun d => ?_
  refine Triple.conseq (P := FWo o s) ?_ (fun _ h => h.2) (fun _ _ h => h) (fun _ h => h)
  refine new_copy (mem_lt hv hk) none fun n hn => ?_
  exact pres_new hn (pres_updateDataAndStokes d (okW hn) (okH hsrc hk))

/-- Frame of every operation but `mask_occulter`. -/
theorem exec_frame_aux (s : State) (hv : Valid s) (o : Op) (hm : ∀ i y x r over fill, o ≠ .maskOcculter i y x r over fill) :
    Triple (FWo o s) (exec s.images o) (After o s) (FWo o s) := by
  have hnone : ∀ h, FWo o s h → After o s none h := fun h hf => ⟨hf, fun n hn => by cases hn⟩
  -- the receiver of an operation
  have recv : ∀ {i : Nat} {β : Type} {Q : β → Heap → Prop} {f : Nat → M β}, (∀ k, s.images[i]? = some k →
      Triple (FWo o s) (f k) Q (FWo o s)) →
      Triple (FWo o s) (named s.images i >>= f) Q (FWo o s) := by
    intro i β Q f hf
    refine Triple.bind (triple_named s.images i fun _ h => h) fun k => ?_
    intro h hh
    exact hf k hh.1 h hh.2
  -- an operation in place
  have inpl : ∀ {i k : Nat} {β : Type} {f : M β}, o.source = some i → s.images[i]? = some k → o.inPlace = true →
      Pres (FWno o s k (s.heap.objs.cell k).header) f →
      Triple (FWo o s) (f >>= fun _ => (pure (some k) : M (Option Nat))) (After o s)
        (FWo o s) := by
    intro i k β f hsrc hk hin hf
    have hlt := mem_lt hv hk
    refine Triple.bind (Q := fun _ => FWno o s k (s.heap.objs.cell k).header)
      (Triple.conseq hf ?_ (fun _ _ h => h) (fun _ h => h.1)) fun _ => Triple.pure ?_
    · intro h hh
      exact ⟨hh, lt_of_lt_of_le hlt hh.1.objSize, hh.1.hdr k hlt⟩
    · intro h hh
      refine ⟨hh.1, ?_⟩
      rintro n ⟨⟩
      exact ⟨hh.2.1, fun _ => ⟨i, hsrc, hk⟩, fun h => (by rw [hin] at h; cases h)⟩
  have inW : ∀ {i k : Nat}, o.source = some i → s.images[i]? = some k → o.inPlace = true →
      k < s.heap.objs.size → o.W s k := fun hsrc hk hin _ => ⟨hin, ⟨_, hsrc, hk⟩⟩
  cases o with
  | setDefault dic =>
    exact Triple.bind (Q := fun _ => _) (Triple.modify fun h hf => hf.setDefault dic) fun _ => Triple.pure hnone
  | fromArray d dic dark flat junk =>
    refine Triple.bind (pres_namedOpt _ _) fun dk => Triple.bind (pres_namedOpt _ _) fun fl => ?_
    refine Triple.bind (triple_newFromArray d dic) fun n => ?_
    intro h hh
    have hd : ∀ hd, hd = (h.objs.cell n).header → Triple (FWno (.fromArray d dic dark flat junk) s n hd)
        (applyCorrections junk n dk fl >>= fun _ => (pure (some n) : M (Option Nat)))
        (After (.fromArray d dic dark flat junk) s) (FWo (.fromArray d dic dark flat junk) s) := by
      rintro hd rfl
      refine Triple.bind (Triple.conseq (pres_applyCorrections junk dk fl (okW hh.2.1)
        (fun hc => absurd hc (Nat.not_lt.mpr hh.2.2))) (fun _ h => h) (fun _ _ h => h) (fun _ h => h.1)) fun _ =>
        Triple.pure fun g hg => ⟨hg.1, ?_⟩
      rintro m ⟨⟩
      exact ⟨hg.2.1, fun hq => (by cases hq), fun _ => hh.2.1⟩
    exact hd _ rfl h hh.1
  | fromImage i dic dark flat junk =>
    refine recv fun k hk => ?_
    refine Triple.bind (pres_namedOpt _ _) fun dk => Triple.bind (pres_namedOpt _ _) fun fl => ?_
    refine new_copy (mem_lt hv hk) dic fun n hn => ?_
    refine Triple.bind (Triple.conseq (pres_applyCorrections junk dk fl (okW hn) (okH rfl hk))
      (fun _ h => h) (fun _ _ h => h) (fun _ h => h.1)) fun _ => Triple.pure fun g hg => ⟨hg.1, ?_⟩
    rintro m ⟨⟩
    exact ⟨hg.2.1, fun hq => (by cases hq), fun _ => hn⟩
  | rebin i b =>
    refine recv fun k hk => new_after rfl ?_
    unfold rebinObj
    split
    · exact Triple.conseq (Triple.lift fun _ h => h) (fun _ h => h) (fun _ _ h => by cases h.1) (fun _ h => h)
    · refine new_copy (mem_lt hv hk) none fun n hn => ?_
      refine Triple.readLift (fun _ h => h.1) fun d => ?_
      exact Triple.conseq (pres_new hn (pres_updateDataAndStokes d (okW hn) (okH rfl hk))) (fun _ h => h.2)
        (fun _ _ h => h) (fun _ h => h)
  | congrid i ny nx =>
    refine recv fun k hk => new_after rfl ?_
    refine Triple.readLift (fun _ h => h) fun d => ?_
    refine Triple.conseq (P := FWo (.congrid i ny nx) s) ?_ (fun _ h => h.2) (fun _ _ h => h) (fun _ h => h)
    refine new_copy (mem_lt hv hk) none fun n hn => ?_
    refine Triple.bind (Q := fun _ => FWno (.congrid i ny nx) s n (s.heap.objs.cell k).header)
      (Triple.modify fun h hf => hf.setData d (okW hn) (okH rfl hk)) fun _ => ?_
    refine Triple.bind (Q := fun _ => FWno (.congrid i ny nx) s n (s.heap.objs.cell k).header)
      (Triple.conseq Triple.read (fun _ h => h) (fun _ _ h => h.2) (fun _ h => h)) fun sv => ?_
    have hl : ∀ {α : Type} {x : Py α}, Triple (FWno (.congrid i ny nx) s n (s.heap.objs.cell k).header) (M.lift x)
        (fun _ => FWno (.congrid i ny nx) s n (s.heap.objs.cell k).header) (FWo (.congrid i ny nx) s) := fun {α} {x} =>
      Triple.conseq (Pres.lift (x := x)) (fun _ h => h) (fun _ _ h => h) (fun _ h => h.1)
    refine Triple.bind hl fun s0 => Triple.bind hl fun s1 => Triple.bind hl fun s2 => ?_
    exact pres_new hn (Pres.modify fun h hf => hf.setStokes _ (okW hn))
  | rotate i rot =>
    refine recv fun k hk => new_after rfl ?_
    have hlt := mem_lt hv hk
    refine Triple.readLift (fun _ h => h) fun d => ?_
    refine Triple.bind (Q := fun c h => c = (s.heap.objs.cell k).stokes ∧ FWo (.rotate i rot) s h)
      (Triple.conseq Triple.read (fun _ h => h.2) ?_ (fun _ h => h)) fun c => ?_
    · rintro c h ⟨rfl, hh⟩
      refine ⟨?_, hh⟩
      rw [hh.1.obj k hlt (fun hw => by cases hw.1)]
    refine Triple.assume (fun h hh => hh.1) fun hc => ?_
    subst hc
    refine Triple.bind (Q := fun _ => FWo (.rotate i rot) s) ?_ fun _ => ?_
    · exact Triple.conseq (pres_rewritePlanes _ rot fun _ => ⟨rfl, k, ⟨i, rfl, hk⟩, rfl⟩) (fun _ h => h.2)
        (fun _ _ h => h) (fun _ h => h)
    refine new_copy hlt none fun n hn => ?_
    refine Triple.bind (Q := fun _ => FWno (.rotate i rot) s n (s.heap.objs.cell k).header)
      (Triple.modify fun h hf => hf.setData d (okW hn) (okH rfl hk)) fun _ => ?_
    refine pres_new hn (Pres.modify fun h hf => ?_)
    have hwf := hf.1.2 n hf.2.1
    refine ⟨hf.1.modifyObj hf.2.1 (fun hk => absurd hk (Nat.not_lt.mpr hn)) ⟨hwf.1, ?_, hwf.2.2⟩, hf.2.1, ?_⟩
    · exact lt_of_lt_of_le (hv.1 k hlt).2.1 hf.1.1.stokesSize
    · show ((h.objs.set n _).cell n).header = _
      rw [Store.set_cell_self]
      exact hf.2.2
  | demodulate i D dem =>
    refine recv fun k hk => new_after rfl ?_
    refine new_copy (mem_lt hv hk) none fun n hn => ?_
    have fin : ∀ S : Fin 3 → Img ℝ, Triple (FWno (.demodulate i D dem) s n (s.heap.objs.cell k).header)
        (M.modify (fun h => h.setStokes n ⟨S, false⟩) >>= fun _ =>
          M.modify (fun h => h.modifyObj n (fun o => { o with isDemodulated := true })) >>= fun _ => (pure n : M Nat))
        (New (.demodulate i D dem) s) (FWo (.demodulate i D dem) s) := by
      intro S
      refine Triple.bind (Q := fun _ => FWno (.demodulate i D dem) s n (s.heap.objs.cell k).header)
        (Triple.modify fun h hf => hf.setStokes _ (okW hn)) fun _ => ?_
      exact pres_new hn (Pres.modify fun h hf => hf.modifyPlain (okW hn) fun _ => ⟨rfl, rfl, rfl, rfl⟩)
    split
    · refine Triple.bind (Triple.conseq (pres_demosaicObj "adjacent" (okW hn)) (fun _ h => h) (fun _ _ h => h)
        (fun _ h => h.1)) fun _ => ?_
      refine Triple.readLift (fun _ h => h.1) fun S => ?_
      exact Triple.conseq (fin S) (fun _ h => h.2) (fun _ _ h => h) (fun _ h => h)
    · refine Triple.readLift (fun _ h => h.1) fun S => ?_
      exact Triple.conseq (fin S) (fun _ h => h.2) (fun _ _ h => h) (fun _ h => h)
  | shift i y x m =>
    exact recv fun k hk => new_after rfl (derive_new hv rfl hk _)
  | cleanHotPixels i f med =>
    exact recv fun k hk => recv fun f hf => new_after rfl (derive_new hv rfl hk _)
  | arithImage op i j junk =>
    refine recv fun k hk => recv fun j hj => new_after rfl ?_
    refine Triple.bind (derive_new hv rfl hk _) fun n => ?_
    refine Triple.bind (Q := fun _ => New _ s n) (Triple.modify fun h hf => ?_) fun _ => Triple.pure fun _ hh => hh
    have hlt := mem_lt hv hk
    have hwf := hf.1.2 n hf.2.1
    have hwk := hf.1.2 k (lt_of_lt_of_le hlt hf.1.1.objSize)
    exact ⟨hf.1.modifyObj hf.2.1 (fun hk => absurd hk (Nat.not_lt.mpr hf.2.2)) ⟨hwf.1, hwf.2.1, hwk.2.2⟩, hf.2.1, hf.2.2⟩
  | arithNumber op i c junk =>
    refine recv fun k hk => new_after rfl ?_
    refine Triple.readLift (fun _ h => h) fun d => ?_
    refine Triple.bind (Q := fun _ => FWo (.arithNumber op i c junk) s)
      (Triple.conseq Triple.read (fun _ h => h.2) (fun _ _ h => h.2) (fun _ h => h)) fun dc => ?_
    refine Triple.bind (triple_newFromArray d (some dc)) fun n => ?_
    refine Triple.bind (Q := fun _ => New _ s n) (Triple.modify fun h hf => ?_) fun _ => Triple.pure fun _ hh => hh
    have hlt := mem_lt hv hk
    have hwf := hf.1.1.2 n hf.1.2.1
    have hwk := hf.1.1.2 k (lt_of_lt_of_le hlt hf.1.1.1.objSize)
    exact ⟨hf.1.1.modifyObj hf.1.2.1 (fun hk => absurd hk (Nat.not_lt.mpr hf.2.1)) ⟨hwf.1, hwf.2.1, hwk.2.2⟩,
      hf.1.2.1, hf.2.1⟩
  | demosaic i mode =>
    exact recv fun k hk => inpl rfl hk rfl (pres_demosaicObj mode (inW rfl hk rfl))
  | subtractDark i d =>
    exact recv fun k hk => recv fun d hd => inpl rfl hk rfl (pres_subtractDark d (inW rfl hk rfl) (okH rfl hk))
  | correctFlat i f junk =>
    exact recv fun k hk => recv fun d hd => inpl rfl hk rfl (pres_correctFlat junk d (inW rfl hk rfl) (okH rfl hk))
  | correctIfov i =>
    exact recv fun k hk => inpl rfl hk rfl (pres_correctIfov (inW rfl hk rfl) (okH rfl hk))
  | maskOcculter i y x r over fill => exact absurd rfl (hm i y x r over fill)

/-- Frame of every operation. -/
theorem exec_frame (s : State) (hv : Valid s) (o : Op) :
    Triple (fun h => h = s.heap) (exec s.images o) (After o s) (FWo o s) := by
  have hself : FWo o s s.heap := ⟨Frame.refl _, hv.1⟩
  by_cases hm : ∀ i y x r over fill, o ≠ .maskOcculter i y x r over fill
  · exact Triple.conseq (exec_frame_aux s hv o hm) (fun h hh => by rw [hh]; exact hself) (fun _ _ h => h) (fun _ h => h)
  · push Not at hm
    obtain ⟨i, y, x, r, over, fill, rfl⟩ := hm
    refine Triple.bind (triple_named s.images i (fun h hh => by rw [hh]; exact hself)) fun k => ?_
    refine Triple.assume (fun h hh => hh.1) fun hk => ?_
    have hlt := mem_lt hv hk
    refine Triple.bind (Q := fun _ => FWo (.maskOcculter i y x r over fill) s) ?_ fun _ =>
      Triple.pure fun h hf => ⟨hf, fun n hn => by cases hn⟩
    refine Triple.conseq (pres_maskOcculter (n := k) (hd := (s.heap.objs.cell k).header) (s.heap.objs.cell k).stokes
      y x r over fill (fun _ => ⟨rfl, i, rfl, hk⟩) (okH rfl hk) (fun _ => ⟨rfl, k, ⟨i, rfl, hk⟩, rfl⟩)) ?_
      (fun _ _ h => h) (fun _ h => h)
    rintro h ⟨-, rfl⟩
    exact ⟨⟨hself, hlt, rfl⟩, rfl⟩

end Micropol
