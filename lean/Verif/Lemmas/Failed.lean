import Verif.Lemmas.MemoryOps
import Verif.Lemmas.AnyHistory
import Verif.Props.ObjectPixels
import Verif.Spec.Failed

/-! # Calls that raise -/

set_option autoImplicit false
set_option linter.unusedSectionVars false

namespace Micropol

open M

noncomputable section

open Classical

abbrev nobody : Nat → Prop := fun _ => False

/-- The heap `h` extends `h0`: everything that was there is still there and unchanged. -/
abbrev Grown (h0 h : Heap) : Prop := FW nobody nobody nobody h0 h

/-- If `m` raises on `h`, it leaves an extension of `h0`. -/
def Quietly {α : Type} (h0 : Heap) (m : M α) (h : Heap) : Prop := ∀ e, (m h).1 = .error e → Grown h0 (m h).2

variable {α β : Type} {h0 h : Heap}

theorem quietly_of_ok {m : M α} {a : α} (hm : (m h).1 = .ok a) : Quietly h0 m h := fun e he => by
  rw [hm] at he; cases he

theorem quietly_of_map {m : M α} {r : Py Unit} {a : α} (hm : (m h).1 = r.map (fun _ => a)) (hr : r = .ok ()) : Quietly h0 m h :=
  quietly_of_ok (a := a) (by rw [hm, hr]; rfl)

theorem quietly_pres {m : M α} (hm : Pres (Grown h0) m) (hg : Grown h0 h) : Quietly h0 m h :=
  fun _ _ => pres_snd hm hg

theorem quietly_triple {m : M α} {P : Heap → Prop} {Q : α → Heap → Prop} (hm : Triple P m Q (Grown h0)) (hP : P h) :
    Quietly h0 m h := fun e he => (hm h hP).2 e he

theorem quietly_named {images : List Nat} {i : Nat} {f : Nat → M β} (hg : Grown h0 h)
    (hf : ∀ k, images[i]? = some k → Quietly h0 (f k) h) : Quietly h0 (named images i >>= f) h := by
  cases hk : images[i]? with
  | none => intro e _; rw [run_named_none hk]; exact hg
  | some k => intro e he; rw [run_named hk] at he ⊢; exact hf k hk e he

theorem quietly_namedOpt {images : List Nat} {i : Option Nat} {f : Option Nat → M β} (hg : Grown h0 h)
    (h1 : i = none → Quietly h0 (f none) h)
    (h2 : ∀ j k, i = some j → images[j]? = some k → Quietly h0 (f (some k)) h) : Quietly h0 (namedOpt images i >>= f) h := by
  cases i with
  | none => intro e he; rw [run_namedOpt_none] at he ⊢; exact h1 rfl e he
  | some j =>
    cases hk : images[j]? with
    | none => intro e _; rw [run_namedOpt_err hk]; exact hg
    | some k => intro e he; rw [run_namedOpt_some hk] at he ⊢; exact h2 j k rfl hk e he

theorem quietly_ret {m : M α} {g : α → β} (hm : Quietly h0 m h) : Quietly h0 (m >>= fun a => pure (g a)) h := by
  intro e he
  cases hx : m h with
  | mk a h' =>
    cases a with
    | ok a => rw [run_of_ok hx] at he; cases he
    | error e' =>
      rw [run_of_err hx]
      have := hm e' (by rw [hx])
      rw [hx] at this
      exact this

theorem quietly_bind {m : M α} {f : α → M β} (hm : Quietly h0 m h)
    (hf : ∀ a, (m h).1 = .ok a → Quietly h0 (f a) (m h).2) : Quietly h0 (m >>= f) h := by
  intro e he
  cases hx : m h with
  | mk a h' =>
    cases a with
    | ok a =>
      have := hf a (by rw [hx])
      rw [hx] at this
      rw [run_of_ok hx] at he ⊢
      exact this e he
    | error e' =>
      rw [run_of_err hx]
      have := hm e' (by rw [hx])
      rw [hx] at this
      exact this

theorem quietly_readLift {F : Heap → Py α} {g : α → M β} (hg : Grown h0 h)
    (hF : ∀ d, F h = .ok d → Quietly h0 (g d) h) : Quietly h0 (M.read F >>= fun x => M.lift x >>= g) h := by
  intro e he
  rw [run_read] at he ⊢
  cases hd : F h with
  | error e' => rw [run_lift_err]; exact hg
  | ok d => rw [hd, run_lift_ok] at he; rw [run_lift_ok]; exact hF d hd e he

/-- A program that fails only where the pixel data are computed, before anything is written. -/
theorem quietly_first {F : Heap → Py α} {g : α → M β} (hg : Grown h0 h)
    (hF : ∀ d, F h = .ok d → ∃ b, ((M.read F >>= fun x => M.lift x >>= g) h).1 = .ok b) :
    Quietly h0 (M.read F >>= fun x => M.lift x >>= g) h := by
  intro e he
  cases hd : F h with
  | error e' => rw [run_read, hd, run_lift_err]; exact hg
  | ok d =>
    obtain ⟨b, hb⟩ := hF d hd
    rw [hb] at he; cases he

/-! ## Corrections in place -/

theorem quietly_subtractDark {n j : Nat} (hg : Grown h0 h) (hv : SoundV (h.view n)) (hj : EvenImg (h.dataOf j)) :
    Quietly h0 (subtractDark n j) h := by
  have ha := (acts_subtractDark n j h).1
  have hD : ∀ d, subtractDarkData (h.view n).data (h.dataOf j) = .ok d → (subtractDark n j h).1 = .ok () := by
    intro d hd
    rw [ha]
    exact marked_ok (m := fun v => { v with darkSubtracted := true }) hv hd
      (even_of_shape hv.1 (subtractDarkData_shape hv.1 hj hd))
  refine quietly_first hg fun d hd => ⟨(), hD (d.map (fun v => if v ≥ 0 then v else 0)) ?_⟩
  unfold subtractDarkData
  rw [show npBin (fun a b => a - b) (h.view n).data (h.dataOf j) = .ok d from hd]
  rfl

theorem quietly_correctFlat {n j : Nat} {junk : Nat → Nat → ℝ} (hg : Grown h0 h) (hv : SoundV (h.view n))
    (hj : EvenImg (h.dataOf j)) : Quietly h0 (correctFlat junk n j) h := by
  have ha := (acts_correctFlat junk n j h).1
  refine quietly_first hg fun d hd => ⟨(), ?_⟩
  have : (correctFlatV junk (h.dataOf j) (h.view n)).1 = .ok () :=
    marked_ok (m := fun v => { v with flatSubtracted := true }) hv hd
      (even_of_shape hv.1 (correctFlatData_shape hv.1 hj hd))
  exact ha.trans this

theorem quietly_demosaic {n : Nat} {mode : String} (hg : Grown h0 h) (hv : SoundV (h.view n)) :
    Quietly h0 (demosaicObj n mode) h := by
  have ha := (acts_demosaicObj mode n h).1
  refine quietly_first hg fun s hs => ⟨(), ?_⟩
  refine ha.trans ?_
  unfold demosaicV
  rw [show demosaic (h.view n).data mode = .ok s from hs]
  exact updateStokesV_ok (v := { h.view n with demosaicedImages := some s, isDemosaiced := true })
    ⟨hv.1, hv.2.1, fun _ => ⟨s, rfl, demosaic_four hv.1 hs⟩⟩

/-! ## Derived images -/

theorem quietly_derive {k : Nat} {F : Heap → Py (Img ℝ)} (hg : Grown h0 h) (hv : SoundV (h.view k))
    (hF : ∀ d, F h = .ok d → EvenImg d) : Quietly h0 (deriveObj k F) h := by
  have hy := (yields_derive (k := k) (h := h) F).1
  refine quietly_first hg fun d hd => ⟨h.objs.size, ?_⟩
  exact hy.trans (by rw [stored_ok hv hd (hF d hd)]; rfl)

theorem quietly_arithImage {k j : Nat} {op : Arith} {junk : Nat → Nat → ℝ} (hg : Grown h0 h) (hv : SoundV (h.view k))
    (hj : EvenImg (h.dataOf j)) : Quietly h0 (arithImageObj op junk k j) h := by
  refine quietly_bind (quietly_derive hg hv fun d hd => even_of_shape hv.1 (arithImage_shape hv.1 hj hd)) fun n _ => ?_
  exact quietly_of_ok (a := n) rfl

theorem quietly_congrid {k ny nx : Nat} (hg : Grown h0 h) (hk : k < h.objs.size)
    (hq : ∀ q, 2 ≤ ((h.view k).stokes.planes q).h ∧ 2 ≤ ((h.view k).stokes.planes q).w) :
    Quietly h0 (congridObj k ny nx) h := by
  have hy := (yields_congrid (k := k) (h := h) ny nx hk).1
  refine quietly_first hg fun d hd => ⟨h.objs.size, ?_⟩
  refine hy.trans ?_
  have hst : ∀ q, ∃ B, congrid ((h.view k).stokes.planes q) (if ny % 2 = 1 then ny - 1 else ny)
      (if nx % 2 = 1 then nx - 1 else nx) = .ok B := by
    intro q
    unfold congrid
    rw [if_neg]
    · exact ⟨_, rfl⟩
    · have := hq q
      rintro (h | h | h | h)
      · omega
      · omega
      · split at h <;> omega
      · split at h <;> omega
  obtain ⟨s0, h0⟩ := hst 0
  obtain ⟨s1, h1⟩ := hst 1
  obtain ⟨s2, h2⟩ := hst 2
  unfold congridV
  rw [show congridData (h.view k).data ny nx = .ok d from hd, h0, h1, h2]
  rfl

theorem quietly_demodulate {k : Nat} {D : Demodulator ℝ} {dem : Bool} (hg : Grown h0 h) (hk : k < h0.objs.size) :
    Quietly h0 (demodulateObj k D dem) h := by
  unfold demodulateObj
  refine quietly_triple (P := Grown h0) (Q := fun _ _ => True) ?_ hg
  refine Triple.bind (triple_newFromImage none hk) fun n => ?_
  rintro h1 ⟨hf, hn, -⟩
  have hW : n < h0.objs.size → nobody n := fun hlt => absurd hlt (by omega)
  have key : Pres (FWn nobody nobody nobody h0 n (h1.objs.cell k).header)
      (if dem then do
        demosaicObj n "adjacent"
        let S ← read (fun h => demodulateDemosaicing (h.dataOf n) (h.dicOf n) D)
        let S ← lift S
        modify (fun h => h.setStokes n ⟨S, false⟩)
        modify (fun h => h.modifyObj n (fun o => { o with isDemodulated := true }))
        pure n
      else do
        let S ← read (fun h => demodulatePlain (h.dataOf n) (h.stokesOf n).planes D)
        let S ← lift S
        modify (fun h => h.setStokes n ⟨S, false⟩)
        modify (fun h => h.modifyObj n (fun o => { o with isDemodulated := true }))
        pure n) := by
    split
    · exact Pres.bind (pres_demosaicObj _ hW) fun _ => Pres.bind Pres.read fun _ => Pres.bind Pres.lift fun _ =>
        Pres.bind (Pres.modify fun _ hf => hf.setStokes _ hW) fun _ =>
        Pres.bind (Pres.modify fun _ hf => hf.modifyPlain hW fun _ => ⟨rfl, rfl, rfl, rfl⟩) fun _ => Pres.pure
    · exact Pres.bind Pres.read fun _ => Pres.bind Pres.lift fun _ =>
        Pres.bind (Pres.modify fun _ hf => hf.setStokes _ hW) fun _ =>
        Pres.bind (Pres.modify fun _ hf => hf.modifyPlain hW fun _ => ⟨rfl, rfl, rfl, rfl⟩) fun _ => Pres.pure
  exact ⟨fun _ _ => trivial, fun e he => ((key h1 hf).2 e he).1⟩

theorem quietly_corrections_array {d : Img ℝ} {dic : Option AngleDic} {dark flat : Option Nat} {junk : Nat → Nat → ℝ}
    (hg : Grown h0 h) : Quietly h0 (newFromArray d dic >>= fun n => applyCorrections junk n dark flat >>= fun _ =>
      (pure (some n) : M (Option Nat))) h := by
  refine quietly_triple (P := Grown h0) (Q := fun _ _ => True) ?_ hg
  refine Triple.bind (triple_newFromArray d dic) fun n => ?_
  rintro h1 ⟨hf, hn, hH⟩
  have key : Pres (FWn nobody nobody nobody h0 n (h1.objs.cell n).header)
      (applyCorrections junk n dark flat >>= fun _ => (pure (some n) : M (Option Nat))) :=
    Pres.bind (pres_applyCorrections junk dark flat (fun hlt => absurd hlt (by omega))
      (fun hlt => absurd hlt (by omega))) fun _ => Pres.pure
  exact ⟨fun _ _ => trivial, fun e he => ((key h1 hf).2 e he).1⟩

/-! ## Masking never raises -/

theorem maskOcculterV_ok {v : ImgView} (hv : SoundV v) (y x r over fill : ℝ) : (maskOcculterV y x r over fill v).1 = .ok () := by
  obtain ⟨d, hd, hsel⟩ := occulterRoi_data hv.1.1 hv.1.2 y x (r + over) fill
  unfold maskOcculterV
  rw [hd]
  have hst : ∀ (a b c : ℝ) (w : ImgView), (rewriteStokesV (fun A => occulterRoi A a b c fill false) w).1 = .ok () := by
    intro a b c w
    have hP : ∀ A : Img ℝ, ∃ B, occulterRoi A a b c fill false = .ok B ∧ B.h = A.h ∧ B.w = A.w := by
      intro A
      obtain ⟨B, hB, hs⟩ := C46_pixels A (a, b) (c, 2 * ((max A.h A.w : Nat) : ℝ)) (0, 360) fill
      exact ⟨B, hB, hs.1, hs.2.1⟩
    choose g hg hg1 hg2 using hP
    unfold rewriteStokesV
    rw [rewriteV_ok (P := fun q => g (w.stokes.planes q)) (fun q => hg _) (fun q => hg1 _) (fun q => hg2 _)]
  have hdem : ∃ w, maskDemosaicedV y x (r + over) fill { v with data := d } = (.ok (), w) := by
    unfold maskDemosaicedV
    cases hb : v.isDemosaiced with
    | false => exact ⟨_, rfl⟩
    | true =>
      obtain ⟨s, hs, hev, hsh⟩ := hv.2.2 hb
      rw [hs]
      have hR : ∀ q, ∃ B, roiFromPolar (s q) (some (y, x)) (some (r + over, 2 * ((max d.h d.w : Nat) : ℝ))) (0, 360) fill true =
          .ok B := by
        intro q
        obtain ⟨B, hB, -⟩ := C46_superpixels (s q) (by rw [(hsh q).1]; exact hev.1) (by rw [(hsh q).2]; exact hev.2) (y, x)
          (r + over, 2 * ((max d.h d.w : Nat) : ℝ)) (0, 360) fill _ _ _ _ (pyInt_trunc _) (pyInt_trunc _) (pyInt_trunc _)
          (pyInt_trunc _)
        exact ⟨B, hB⟩
      choose B hB using hR
      dsimp only
      unfold mapFour
      dsimp only
      rw [hB 0, hB 1, hB 2, hB 3]
      exact ⟨_, rfl⟩
  obtain ⟨w, hw⟩ := hdem
  dsimp only [withVal]
  rw [hw]
  dsimp only [andThen]
  split
  · exact hst _ _ _ _
  · exact hst _ _ _ _

/-! ## The constructor on an image -/

theorem grown_refl {s : State} (hv : Valid s) : Grown s.heap s.heap := ⟨Frame.refl _, hv.1⟩

theorem subtractDarkV_data {d e : Img ℝ} {v : ImgView} (he : subtractDarkData v.data d = .ok e) : (subtractDarkV d v).2.data = e := by
  unfold subtractDarkV
  rw [he]
  exact andThen_inv (P := fun w => w.data = e) (withVal_inv (P := fun w => w.data = e) rfl fun _ _ => rfl) fun _ h => h

theorem subtractDarkV_shape {d : Img ℝ} {v : ImgView} (hv : SoundV v) (hd : EvenImg d)
    (hok : (subtractDarkV d v).1 = .ok ()) : (subtractDarkV d v).2.data.h = v.data.h ∧ (subtractDarkV d v).2.data.w = v.data.w := by
  cases he : subtractDarkData v.data d with
  | error e => unfold subtractDarkV at hok; rw [he] at hok; cases hok
  | ok e => rw [subtractDarkV_data he]; exact subtractDarkData_shape hv.1 hd he

theorem quietly_corrections_copy {s : State} (hv : Valid s) (hs : ∀ k ∈ s.images, SoundV (s.heap.view k)) {i k : Nat}
    (hk : s.images[i]? = some k) (dic : Option AngleDic) {dark flat : Option Nat} (junk : Nat → Nat → ℝ)
    (hd : ∀ j, dark = some j → j ∈ s.images) (hf : ∀ j, flat = some j → j ∈ s.images)
    (hboth : dark ≠ none → flat ≠ none → s.heap.headerOf k = ⟨(s.heap.dataOf k).w, (s.heap.dataOf k).h⟩) :
    Quietly s.heap (newFromImage k dic >>= fun n => applyCorrections junk n dark flat >>= fun _ =>
      (pure (some n) : M (Option Nat))) s.heap := by
  have hlt := mem_lt hv hk
  have hnew : newFromImage k dic s.heap = (.ok s.heap.objs.size, copyHeap k dic s.heap) := newFromImage_run k dic s.heap
  have hvn := copyHeap_view_new k dic s.heap
  have hold : ∀ {j}, j ∈ s.images → (copyHeap k dic s.heap).view j = s.heap.view j := fun hj =>
    copyHeap_view_old k dic s.heap (hv.2 _ hj)
  have hev : ∀ {j}, j ∈ s.images → EvenImg ((copyHeap k dic s.heap).dataOf j) := fun {j} hj => by
    have : EvenImg ((copyHeap k dic s.heap).view j).data := by rw [hold hj]; exact (hs _ hj).1
    exact this
  have hsn : SoundV ((copyHeap k dic s.heap).view s.heap.objs.size) := by
    rw [hvn]; exact hs k (List.mem_of_getElem? hk)
  have h3 : ∀ H : Nat → Prop, FWn nobody nobody H s.heap s.heap.objs.size ((copyHeap k dic s.heap).objs.cell k).header
      (copyHeap k dic s.heap) := fun H => by
    have := ((triple_newFromImage (W := nobody) (S := nobody) (H := H) (h0 := s.heap) dic hlt) s.heap
      ⟨Frame.refl _, hv.1⟩).1 s.heap.objs.size (by rw [hnew])
    rw [hnew] at this
    exact this.1
  have hgr : Grown s.heap (copyHeap k dic s.heap) := (h3 nobody).1
  refine quietly_bind (quietly_of_ok (a := s.heap.objs.size) (by rw [hnew])) fun n hn => ?_
  rw [hnew] at hn ⊢
  cases hn
  dsimp only
  generalize copyHeap k dic s.heap = h1 at *
  refine quietly_ret (g := fun _ => some s.heap.objs.size) ?_
  unfold applyCorrections
  cases dark with
  | none =>
    cases flat with
    | none => exact quietly_of_ok (a := ()) rfl
    | some f => exact quietly_correctFlat hgr hsn (hev (hf f rfl))
  | some d =>
    have q1 : Quietly s.heap (subtractDark s.heap.objs.size d) h1 := quietly_subtractDark hgr hsn (hev (hd d rfl))
    cases flat with
    | none => exact q1
    | some f =>
      refine quietly_bind q1 fun _ hok => ?_
      have hact := acts_subtractDark s.heap.objs.size d h1
      have hfw := pres_snd (pres_subtractDark (W := nobody) (S := nobody)
        (H := fun c => c = (h1.objs.cell k).header) (h0 := s.heap) (n := s.heap.objs.size) (hd := (h1.objs.cell k).header) d
        (fun hlt => absurd hlt (lt_irrefl _)) (fun _ => rfl)) (h3 _)
      have hho : HdrOK s.heap.objs.size (subtractDark s.heap.objs.size d h1).2 :=
        (hdr_subtractDark s.heap.objs.size d h1 trivial).1 () hok
      have hshape := subtractDarkV_shape hsn (hev (hd d rfl)) (hact.1.symm.trans hok)
      have hsound := subtractDarkV_sound hsn (hev (hd d rfl))
      rw [← hact.2] at hshape hsound
      have hcell : (h1.objs.cell k) = (s.heap.objs.cell k) := hgr.1.obj k hlt (fun h => h)
      have hgr2 : Grown s.heap (subtractDark s.heap.objs.size d h1).2 := by
        obtain ⟨⟨fr, wf⟩, -, hhd⟩ := hfw
        refine ⟨⟨fr.dataSize, fr.data, fr.stokesSize, fr.stokes, fr.headerSize, fun c hc _ => ?_, fr.objSize, fr.obj, fr.dic, fr.hdr⟩, wf⟩
        by_cases hc' : c = (h1.objs.cell k).header
        · have e1 : (subtractDark s.heap.objs.size d h1).2.headers.cell c =
              (subtractDark s.heap.objs.size d h1).2.headerOf s.heap.objs.size := by
            unfold Heap.headerOf; rw [hhd, hc']
          have e2 : s.heap.headers.cell c = s.heap.headerOf k := by
            unfold Heap.headerOf; rw [hc', hcell]
          rw [e1, e2, hho, hboth (by simp) (by simp)]
          have hdk : (h1.view s.heap.objs.size).data = s.heap.dataOf k := congrArg ImgView.data hvn
          rw [hdk] at hshape
          show Header.mk ((subtractDark s.heap.objs.size d h1).2.view s.heap.objs.size).data.w
            ((subtractDark s.heap.objs.size d h1).2.view s.heap.objs.size).data.h = _
          rw [hshape.1, hshape.2]
        · exact fr.header c hc hc'
      refine quietly_correctFlat hgr2 hsound ?_
      have hfm := hf f rfl
      have ee : (subtractDark s.heap.objs.size d h1).2.dataOf f = s.heap.dataOf f := by
        unfold Heap.dataOf
        rw [hgr2.1.obj f (hv.2 f hfm) (fun h => h)]
        exact hgr2.1.data _ (hv.1 f (hv.2 f hfm)).1
      rw [ee]
      exact (hs f hfm).1

/-- Where the flat correction of the constructor raises, the dark correction has already written the header. -/
theorem header_after_failed {s : State} (hv : Valid s) (hs : ∀ k ∈ s.images, SoundV (s.heap.view k)) {i k : Nat}
    (hk : s.images[i]? = some k) (dic : Option AngleDic) {d f : Nat} (junk : Nat → Nat → ℝ)
    (hd : d ∈ s.images) (hf : f ∈ s.images) {D : Img ℝ} (hD : subtractDarkData (s.heap.dataOf k) (s.heap.dataOf d) = .ok D)
    {e : PyErr} (he : ((newFromImage k dic >>= fun n => applyCorrections junk n (some d) (some f) >>= fun _ =>
      (pure (some n) : M (Option Nat))) s.heap).1 = .error e) :
    ((newFromImage k dic >>= fun n => applyCorrections junk n (some d) (some f) >>= fun _ =>
      (pure (some n) : M (Option Nat))) s.heap).2.headerOf k = ⟨(s.heap.dataOf k).w, (s.heap.dataOf k).h⟩ := by
  have hlt := mem_lt hv hk
  have hnew : newFromImage k dic s.heap = (.ok s.heap.objs.size, copyHeap k dic s.heap) := newFromImage_run k dic s.heap
  have hvn := copyHeap_view_new k dic s.heap
  have hdd : (copyHeap k dic s.heap).dataOf d = s.heap.dataOf d :=
    congrArg ImgView.data (copyHeap_view_old k dic s.heap (hv.2 _ hd))
  have hsn : SoundV ((copyHeap k dic s.heap).view s.heap.objs.size) := by
    rw [hvn]; exact hs k (List.mem_of_getElem? hk)
  have h3 : FWn nobody nobody (fun c => c = ((copyHeap k dic s.heap).objs.cell k).header) s.heap s.heap.objs.size
      ((copyHeap k dic s.heap).objs.cell k).header (copyHeap k dic s.heap) := by
    have := ((triple_newFromImage (W := nobody) (S := nobody) (H := fun c => c = ((copyHeap k dic s.heap).objs.cell k).header)
      (h0 := s.heap) dic hlt) s.heap ⟨Frame.refl _, hv.1⟩).1 s.heap.objs.size (by rw [hnew])
    rw [hnew] at this
    exact this.1
  have hEv := (hs d hd).1
  have hEf := (hs f hf).1
  rw [run_of_ok hnew] at he ⊢
  generalize copyHeap k dic s.heap = h1 at *
  have hact := acts_subtractDark s.heap.objs.size d h1
  have hok : (subtractDark s.heap.objs.size d h1).1 = .ok () := by
    rw [hact.1, hdd]
    have e1 : subtractDarkData (h1.view s.heap.objs.size).data (s.heap.dataOf d) = .ok D := by rw [hvn]; exact hD
    exact marked_ok (m := fun v => { v with darkSubtracted := true }) hsn e1
      (even_of_shape hsn.1 (subtractDarkData_shape hsn.1 hEv e1))
  have hfw := pres_snd (pres_subtractDark (W := nobody) (S := nobody)
    (H := fun c => c = (h1.objs.cell k).header) (h0 := s.heap) (n := s.heap.objs.size) (hd := (h1.objs.cell k).header) d
    (fun hlt => absurd hlt (lt_irrefl _)) (fun _ => rfl)) h3
  have hho : HdrOK s.heap.objs.size (subtractDark s.heap.objs.size d h1).2 :=
    (hdr_subtractDark s.heap.objs.size d h1 trivial).1 () hok
  have hshape := subtractDarkV_shape hsn (by rw [hdd]; exact hEv) (hact.1.symm.trans hok)
  have hsound := subtractDarkV_sound (d := h1.dataOf d) hsn (by rw [hdd]; exact hEv)
  rw [← hact.2] at hshape hsound
  have hdk : (h1.view s.heap.objs.size).data = s.heap.dataOf k := congrArg ImgView.data hvn
  rw [hdk] at hshape
  have hc1 : h1.objs.cell k = s.heap.objs.cell k := h3.1.1.obj k hlt (fun h => h)
  cases hx : subtractDark s.heap.objs.size d h1 with
  | mk a h2 =>
    rw [hx] at hok hfw hho hshape hsound
    dsimp only at hok hfw hho hshape hsound
    subst hok
    have hef : EvenImg (h2.dataOf f) := by
      have ee : h2.dataOf f = s.heap.dataOf f := by
        unfold Heap.dataOf
        rw [hfw.1.1.obj f (hv.2 f hf) (fun h => h)]
        exact hfw.1.1.data _ (hv.1 f (hv.2 f hf)).1
      rw [ee]; exact hEf
    have hq : Quietly h2 (applyCorrections junk s.heap.objs.size (some d) (some f) >>= fun _ =>
        (pure (some s.heap.objs.size) : M (Option Nat))) h1 := by
      refine quietly_ret (g := fun _ => some s.heap.objs.size) ?_
      show Quietly h2 (subtractDark s.heap.objs.size d >>= fun _ => correctFlat junk s.heap.objs.size f) h1
      refine quietly_bind (quietly_of_ok (a := ()) (by rw [hx])) fun _ _ => ?_
      rw [hx]
      exact quietly_correctFlat ⟨Frame.refl _, hfw.1.2⟩ hsound hef
    have hg := (hq e he).1
    have hk2 : k < h2.objs.size := lt_of_lt_of_le hlt hfw.1.1.objSize
    have hck : h2.objs.cell k = s.heap.objs.cell k := hfw.1.1.obj k hlt (fun h => h)
    have hH := (hfw.1.2 k hk2).2.2
    have key : h2.headerOf k = ⟨(s.heap.dataOf k).w, (s.heap.dataOf k).h⟩ := by
      have e1 : h2.headerOf k = h2.headerOf s.heap.objs.size := by
        unfold Heap.headerOf; rw [hfw.2.2, hck, hc1]
      rw [e1, hho]
      show Header.mk (h2.view s.heap.objs.size).data.w (h2.view s.heap.objs.size).data.h = _
      rw [hshape.1, hshape.2]
    rw [← key]
    unfold Heap.headerOf
    rw [hg.obj k hk2 (fun h => h)]
    exact hg.header _ hH (fun h => h)

theorem rotateV_ok {v : ImgView} (hA : EvenImg v.data) {rot : Img ℝ → Py (Img ℝ)}
    (hrot : ∀ A, ∃ B, rot A = .ok B ∧ B.SameShape A) : (rotateV rot v).1 = .ok () := by
  have h1 : ∃ r, rotateData rot v.data = .ok r := by
    unfold rotateData mapFour
    rw [split_ok hA.1 hA.2, Py.ok_bind]
    have hs : ∀ A : Img ℝ, ∃ B, (rot A >>= fun B => assignPlane A.h A.w B) = .ok B ∧ B.h = A.h ∧ B.w = A.w := by
      intro A
      obtain ⟨B, hB, hsh⟩ := hrot A
      rw [hB, Py.ok_bind]
      exact ⟨B, assignPlane_same hsh, hsh⟩
    choose g hg hg1 hg2 using hs
    simp only [hg, Py.ok_bind, Py.pure_eq]
    refine ⟨_, merge_ok (h := v.data.h / 2) (w := v.data.w / 2) ?_ ?_⟩
    · intro q; fin_cases q <;> exact hg1 _
    · intro q; fin_cases q <;> exact hg2 _
  obtain ⟨r, hr⟩ := h1
  choose g hg hgs using hrot
  have h2 : (rewriteV rot v.stokes).1 = .ok () := by
    rw [rewriteV_ok (P := fun q => g (v.stokes.planes q)) (fun q => hg _) (fun q => (hgs _).1) (fun q => (hgs _).2)]
  unfold rotateV
  rw [hr]
  show (andThen (rewriteStokesV rot v) fun v => (.ok (), { v with data := r })).1 = .ok ()
  unfold rewriteStokesV
  rw [h2]
  rfl

/-! ## Every call -/

theorem quietly_exec {s : State} (hv : Valid s) (hs : ∀ k ∈ s.images, SoundV (s.heap.view k)) (o : Op) (hc : o.Atomic s) :
    Quietly s.heap (exec s.images o) s.heap := by
  have hg := grown_refl hv
  have hmem : ∀ {i k}, s.images[i]? = some k → k ∈ s.images := fun hk => List.mem_of_getElem? hk
  have hso : ∀ {i k}, s.images[i]? = some k → SoundV (s.heap.view k) := fun hk => hs _ (hmem hk)
  have hev : ∀ {i k}, s.images[i]? = some k → EvenImg (s.heap.dataOf k) := fun hk => (hso hk).1
  cases o with
  | setDefault d => exact quietly_of_ok (a := none) rfl
  | fromArray d dic dark flat junk =>
    exact quietly_namedOpt hg (fun _ => quietly_namedOpt hg (fun _ => quietly_corrections_array hg)
      fun _ _ _ _ => quietly_corrections_array hg) fun _ _ _ _ => quietly_namedOpt hg (fun _ => quietly_corrections_array hg)
      fun _ _ _ _ => quietly_corrections_array hg
  | fromImage i dic dark flat junk =>
    refine quietly_named hg fun k hk => ?_
    refine quietly_namedOpt hg (fun hd => ?_) fun j d hd hdj => ?_
    · refine quietly_namedOpt hg (fun hf => ?_) fun j f hf hfj => ?_
      · exact quietly_corrections_copy hv hs hk dic junk (fun j h => by cases h) (fun j h => by cases h) (fun h => absurd rfl h)
      · exact quietly_corrections_copy hv hs hk dic junk (fun j h => by cases h) (fun j h => by cases h; exact hmem hfj)
          (fun h => absurd rfl h)
    · refine quietly_namedOpt hg (fun hf => ?_) fun j f hf hfj => ?_
      · exact quietly_corrections_copy hv hs hk dic junk (fun j h => by cases h; exact hmem hdj) (fun j h => by cases h)
          (fun _ h => absurd rfl h)
      · subst hd hf
        exact quietly_corrections_copy hv hs hk dic junk (fun j h => by cases h; exact hmem hdj)
          (fun j h => by cases h; exact hmem hfj) (fun _ _ => hc k hk)
  | rebin i b =>
    refine quietly_named hg fun k hk => quietly_ret ?_
    by_cases hb : b ≤ 0
    · intro e _
      unfold rebinObj
      rw [if_pos hb]
      exact hg
    · obtain ⟨r, hr, h1, h2⟩ := (C11_total (s.heap.dataOf k) b (by omega)).2 (hev hk).1 (hev hk).2
      unfold micropolRebinData at hr
      rw [if_neg hb] at hr
      refine quietly_of_map (yields_rebin (k := k) (h := s.heap) b).1 ?_
      rw [if_neg hb]
      refine stored_ok (hso hk) hr ⟨?_, ?_⟩ <;> omega
  | congrid i ny nx =>
    exact quietly_named hg fun k hk => quietly_ret (quietly_congrid hg (mem_lt hv hk) (hc k hk))
  | rotate i rot =>
    refine quietly_named hg fun k hk => quietly_ret ?_
    refine quietly_of_map (yields_rotate (k := k) (h := s.heap) rot).1 ?_
    exact rotateV_ok (hev hk) hc
  | demodulate i D dem =>
    exact quietly_named hg fun k hk => quietly_ret (quietly_demodulate hg (mem_lt hv hk))
  | shift i y x m =>
    exact quietly_named hg fun k hk => quietly_ret (quietly_derive hg (hso hk) fun d hd =>
      even_of_shape (hev hk) (shift_shape (hev hk) hd))
  | cleanHotPixels i f median =>
    exact quietly_named hg fun k hk => quietly_named hg fun l hl => quietly_ret (quietly_derive hg (hso hk) fun d hd =>
      cleanHot_even hd)
  | arithImage op i j junk =>
    exact quietly_named hg fun k hk => quietly_named hg fun l hl => quietly_ret (quietly_arithImage hg (hso hk) (hev hl))
  | arithNumber op i c junk =>
    refine quietly_named hg fun k hk => quietly_ret ?_
    refine quietly_first hg fun d hd => ⟨s.heap.objs.size, ?_⟩
    refine (yields_arithNumber (k := k) (h := s.heap) op junk c).1.trans ?_
    obtain ⟨S, hS⟩ := SoundV.whole_dataStokes (hso hk).2.1 (even_of_shape (hev hk) (arithNumber_shape hd))
    rw [show arithData op junk (s.heap.view k).data (.number c) = .ok d from hd]
    dsimp only [withVal]
    rw [hS]
    rfl
  | demosaic i mode => exact quietly_named hg fun k hk => quietly_ret (quietly_demosaic hg (hso hk))
  | subtractDark i d =>
    exact quietly_named hg fun k hk => quietly_named hg fun l hl => quietly_ret (quietly_subtractDark hg (hso hk) (hev hl))
  | correctFlat i f junk =>
    exact quietly_named hg fun k hk => quietly_named hg fun l hl => quietly_ret (quietly_correctFlat hg (hso hk) (hev hl))
  | correctIfov i =>
    refine quietly_named hg fun k hk => quietly_ret (quietly_first hg fun d hd => ⟨(), ?_⟩)
    refine (acts_correctIfov k s.heap).1.trans ?_
    exact stored_ok (hso hk) hd (even_of_shape (hev hk) (correctIfovData_shape (hev hk) hd))
  | maskOcculter i y x r over fill =>
    refine quietly_named hg fun k hk => quietly_ret (quietly_of_ok (a := ()) ?_)
    exact (acts_maskOcculter k y x r over fill s.heap).1.trans (maskOcculterV_ok (hso hk) y x r over fill)

/-! ## Sessions -/

theorem alike_grown {s : State} (hv : Valid s) {h : Heap} (hg : Grown s.heap h) (hn : h.nextDic = s.heap.nextDic) :
    Alike s ⟨h, s.images⟩ := by
  obtain ⟨fr, wf⟩ := hg
  have hobj : ∀ {a}, a < s.heap.objs.size → h.objs.cell a = s.heap.objs.cell a := fun ha => fr.obj _ ha (fun h => h)
  refine ⟨fun a b => a = b ∧ a ∈ s.images, ⟨hn, ?_, ?_, ?_, ?_, ?_, ?_⟩, ?_⟩
  · rintro a a' ⟨rfl, ha⟩
    have hlt := hv.2 a ha
    have hlt' := lt_of_lt_of_le hlt fr.objSize
    exact ⟨⟨hlt, hv.1 a hlt⟩, hlt', wf a hlt'⟩
  · rintro a a' b b' ⟨rfl, ha⟩ ⟨rfl, hb⟩; exact Iff.rfl
  · rintro a a' ⟨rfl, ha⟩
    have hlt := hv.2 a ha
    obtain ⟨w1, w2, w3⟩ := hv.1 a hlt
    unfold Heap.view Heap.dataOf Heap.stokesOf Heap.dicOf
    rw [hobj hlt, fr.data _ w1, fr.stokes _ w2 (fun h => h)]
  · rintro a a' ⟨rfl, ha⟩
    have hlt := hv.2 a ha
    unfold Heap.headerOf
    rw [hobj hlt]
    exact fr.header _ (hv.1 a hlt).2.2 (fun h => h)
  · rintro a a' b b' ⟨rfl, ha⟩ ⟨rfl, hb⟩; rw [hobj (hv.2 a ha), hobj (hv.2 b hb)]
  · rintro a a' b b' ⟨rfl, ha⟩ ⟨rfl, hb⟩; rw [hobj (hv.2 a ha), hobj (hv.2 b hb)]
  · exact List.forall₂_same.2 fun a ha => ⟨rfl, ha⟩

theorem alike_refl (ops : List Op) : Alike (runOps ops) (runOps ops) :=
  alike_grown (runOps_valid ops) (grown_refl (runOps_valid ops)) rfl

theorem forall₂_comp {ρ σ : Nat → Nat → Prop} {l m n : List Nat} (h1 : List.Forall₂ ρ l m) (h2 : List.Forall₂ σ m n) :
    List.Forall₂ (fun a c => ∃ b, ρ a b ∧ σ b c) l n := by
  induction h1 generalizing n with
  | nil => cases h2; exact .nil
  | cons hab _ ih =>
    cases h2 with
    | cons hbc h2 => exact .cons ⟨_, hab, hbc⟩ (ih h2)

theorem Alike.trans {s t u : State} (h1 : Alike s t) (h2 : Alike t u) : Alike s u := by
  obtain ⟨ρ, hs, him⟩ := h1
  obtain ⟨σ, ht, him'⟩ := h2
  refine ⟨fun a c => ∃ b, ρ a b ∧ σ b c, ⟨ht.next.trans hs.next, ?_, ?_, ?_, ?_, ?_, ?_⟩, forall₂_comp him him'⟩
  · rintro a c ⟨b, p, q⟩; exact ⟨(hs.refs p).1, (ht.refs q).2⟩
  · rintro a c a' c' ⟨b, p, q⟩ ⟨b', p', q'⟩; exact (hs.one p p').trans (ht.one q q')
  · rintro a c ⟨b, p, q⟩; exact (ht.view q).trans (hs.view p)
  · rintro a c ⟨b, p, q⟩; exact (ht.header q).trans (hs.header p)
  · rintro a c a' c' ⟨b, p, q⟩ ⟨b', p', q'⟩; exact (hs.shareS p p').trans (ht.shareS q q')
  · rintro a c a' c' ⟨b, p, q⟩ ⟨b', p', q'⟩; exact (hs.shareH p p').trans (ht.shareH q q')

theorem step_raised {s : State} {o : Op} {e : PyErr} (he : Raises s o e) :
    step s o = ⟨(exec s.images o s.heap).2, s.images⟩ := by
  unfold Raises at he
  unfold step
  cases hx : exec s.images o s.heap with
  | mk a h => rw [hx] at he; dsimp only at he; subst he; rfl

theorem alike_raised (ops : List Op) {o : Op} {e : PyErr} (hc : o.Atomic (runOps ops)) (he : Raises (runOps ops) o e) :
    Alike (runOps ops) (step (runOps ops) o) := by
  have hv := runOps_valid ops
  have hg := quietly_exec hv (run_sound ops) o hc e he
  have hn : (step (runOps ops) o).heap.nextDic = (runOps ops).heap.nextDic := by
    cases o with
    | setDefault d => cases he
    | _ => exact step_next _ _ (fun d h => by cases h)
  rw [step_raised he] at hn ⊢
  exact alike_grown hv hg hn

theorem Alike.shows {s t : State} (h : Alike s t) : t.shows = s.shows := by
  obtain ⟨ρ, hs, him⟩ := h
  unfold State.shows
  have : ∀ {a b}, ρ a b → t.shown b = s.shown a := fun {a b} hab => by
    have h1 := hs.view hab
    have h2 := hs.header hab
    unfold State.shown
    congr 1
    · exact congrArg ImgView.data h1
    · exact congrArg (fun v => v.stokes.planes) h1
    · exact congrArg ImgView.dic h1
    · exact congrArg ImgView.isDemosaiced h1
    · exact congrArg ImgView.demosaicedImages h1
    · exact congrArg ImgView.isDemodulated h1
    · exact congrArg ImgView.darkSubtracted h1
    · exact congrArg ImgView.flatSubtracted h1
  have key : ∀ {l m : List Nat}, List.Forall₂ ρ l m → m.map t.shown = l.map s.shown := by
    intro l m hlm
    induction hlm with
    | nil => rfl
    | cons hab _ ih => rw [List.map_cons, List.map_cons, this hab, ih]
  exact key him

theorem Alike.same {s t : State} (h : Alike s t) : s.sameObjects t := by
  obtain ⟨ρ, hs, him⟩ := h
  have hlen := him.length_eq
  have hget : ∀ (i : Nat) (hi : i < s.images.length) (hi' : i < t.images.length), ρ s.images[i] t.images[i] :=
    fun i hi hi' => him.get hi hi'
  intro i j
  by_cases hi : i < s.images.length <;> by_cases hj : j < s.images.length
  · have hi' : i < t.images.length := hlen ▸ hi
    have hj' : j < t.images.length := hlen ▸ hj
    rw [List.getElem?_eq_getElem hi, List.getElem?_eq_getElem hj, List.getElem?_eq_getElem hi', List.getElem?_eq_getElem hj',
      Option.some_inj, Option.some_inj]
    exact hs.one (hget i hi hi') (hget j hj hj')
  · have hi' : i < t.images.length := hlen ▸ hi
    have hj' : t.images.length ≤ j := by omega
    rw [List.getElem?_eq_getElem hi, List.getElem?_eq_none (by omega), List.getElem?_eq_getElem hi', List.getElem?_eq_none hj']
    exact ⟨fun h => (by cases h), fun h => (by cases h)⟩
  · have hj' : j < t.images.length := hlen ▸ hj
    have hi' : t.images.length ≤ i := by omega
    rw [List.getElem?_eq_none (by omega), List.getElem?_eq_getElem hj, List.getElem?_eq_none hi', List.getElem?_eq_getElem hj']
    exact ⟨fun h => (by cases h), fun h => (by cases h)⟩
  · rw [List.getElem?_eq_none (by omega), List.getElem?_eq_none (by omega), List.getElem?_eq_none (by omega),
      List.getElem?_eq_none (by omega)]

theorem Alike.raises {s t : State} (h : Alike s t) (o : Op) (e : PyErr) : Raises s o e ↔ Raises t o e := by
  have h1 := (alike_step h o).1
  unfold Raises
  cases hx : (exec s.images o s.heap).1 with
  | ok a =>
    cases hy : (exec t.images o t.heap).1 with
    | ok b => exact ⟨fun h => (by cases h), fun h => (by cases h)⟩
    | error e' => rw [hx, hy] at h1; cases h1
  | error e' =>
    cases hy : (exec t.images o t.heap).1 with
    | ok b => rw [hx, hy] at h1; cases h1
    | error e'' => rw [hx, hy] at h1; cases h1; exact Iff.rfl

end

end Micropol
