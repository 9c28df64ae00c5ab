import Verif.Lemmas.ObjectHeader
import Verif.Props.ObjectStokes

/-!
# Properties of histories: C43, the size keywords of the header

The header is an object of its own; `img.data = …` writes the size of the data into it.  Two images may have the same
header object (`a.header is b.header`).
-/

set_option autoImplicit false

namespace Micropol

open Classical

/-- `NAXIS1`, `NAXIS2` of image `k` are the width and height of its data. -/
def State.HeaderRight (s : State) (k : Nat) : Prop :=
  (s.header k).naxis1 = (s.data k).w ∧ (s.header k).naxis2 = (s.data k).h

/-- `a.header is b.header`. -/
def State.SameHeader (s : State) (a b : Nat) : Prop := (s.heap.objs.cell a).header = (s.heap.objs.cell b).header

theorem headerRight_of {s : State} {k : Nat} (h : HdrOK k s.heap) : s.HeaderRight k := by
  have h' : s.header k = ⟨(s.data k).w, (s.data k).h⟩ := h
  unfold State.HeaderRight
  rw [h']
  exact ⟨rfl, rfl⟩

/-- What an appended image says about the call. -/
theorem exec_of_images {s : State} {o : Op} {n : Nat} (hn : (step s o).images = s.images ++ [n]) :
    (exec s.images o s.heap).1 = .ok (some n) := by
  rcases step_images s o with h | ⟨m, hm, h⟩
  · rw [h] at hn
    simp at hn
  · rw [h] at hn
    have := List.append_cancel_left hn
    injection this with this
    rw [← this]
    exact hm

/-- C43, the part that holds, for one image: after any history, if a call that sets pixel data returns image `n`, the
header of `n` is right. -/
theorem C43_right_when_set_partial (ops : List Op) (o : Op) (ho : o.setsData = true) (n : Nat)
    (hn : (runOps (ops ++ [o])).images = (runOps ops).images ++ [n]) :
    (runOps (ops ++ [o])).HeaderRight n := by
  rw [runOps_snoc] at hn ⊢
  have hv := runOps_valid ops
  have h := (hdr_exec hv.2 o ho (runOps ops).heap le_rfl).1 (some n) (exec_of_images hn) n rfl
  rw [← step_heap] at h
  exact headerRight_of h

/-- C43: the same for `mask_occulter`, which returns nothing. -/
theorem C43_right_when_masked_partial (ops : List Op) (i k : Nat) (hk : (runOps ops).images[i]? = some k)
    (y x r over fill : ℝ)
    (hok : (exec (runOps ops).images (.maskOcculter i y x r over fill) (runOps ops).heap).1 = .ok none) :
    (runOps (ops ++ [.maskOcculter i y x r over fill])).HeaderRight k := by
  rw [runOps_snoc]
  refine headerRight_of ?_
  rw [step_heap]
  have hrun : exec (runOps ops).images (.maskOcculter i y x r over fill) (runOps ops).heap =
      (maskOcculter k y x r over fill >>= fun _ => (pure none : M (Option Nat))) (runOps ops).heap := by
    unfold exec
    dsimp only
    rw [run_named hk]
  rw [hrun] at hok ⊢
  exact (Triple.bind (hdr_maskOcculter k y x r over fill) (fun _ =>
    Triple.pure (Q := fun _ => HdrOK k) fun _ h => h) (runOps ops).heap trivial).1 none hok

/-- C43, for all images: in a history without `rebin`, `congrid` and `clean_hot_pixels` (which alone can change the size),
all headers are right. -/
theorem C43_no_resize_partial (ops : List Op) (hops : ∀ o ∈ ops, o.resizes = false) (k : Nat)
    (hk : k ∈ (runOps ops).images) : (runOps ops).HeaderRight k := by
  have key : AllHdr (runOps ops).heap := by
    clear hk
    induction ops using List.reverseRecOn with
    | nil => exact ⟨fun k hk => absurd hk (Nat.not_lt_zero k), fun k hk => absurd hk (Nat.not_lt_zero k)⟩
    | append_singleton l o ih =>
      have h := ih (fun o' ho' => hops o' (List.mem_append_left _ ho'))
      rw [runOps_snoc, step_heap]
      exact (pres_snd (all_exec (runOps_valid l).2 o (hops o (by simp))) ⟨h, le_rfl⟩).1
  exact headerRight_of (key.2 k ((runOps_valid ops).2 k hk)).2

/-- C43: a call that sets no pixel data (copy without corrections, `demodulate`, arithmetic with a number, `demosaic`)
returns an image with the header its source had before. -/
theorem C43_inherited (ops : List Op) (o : Op) (ho : o.setsData = false) (k : Nat) (hk : o.CalledOn (runOps ops) k) (n : Nat)
    (hn : (runOps (ops ++ [o])).images = (runOps ops).images ++ [n]) :
    (runOps (ops ++ [o])).header n = (runOps ops).header k := by
  rw [runOps_snoc] at hn ⊢
  have h := (inherit_exec (runOps_valid ops) o ho hk (runOps ops).heap rfl).1 (some n) (exec_of_images hn) n rfl
  rw [← step_heap] at h
  show (step (runOps ops) o).heap.headers.cell ((step (runOps ops) o).heap.objs.cell n).header = _
  rw [h.1]
  exact h.2

/-- C43: after any history, a call changes the header of no image, except of those that have the same header object as the
image it is called on. -/
theorem C43_others_kept (ops : List Op) (o : Op) (k : Nat) (hk : k ∈ (runOps ops).images)
    (hno : ∀ r, o.CalledOn (runOps ops) r → ¬ (runOps ops).SameHeader k r) :
    (runOps (ops ++ [o])).header k = (runOps ops).header k := by
  rw [runOps_snoc]
  have hv := runOps_valid ops
  have hlt := hv.2 k hk
  have fr := step_frame hv o
  show (step (runOps ops) o).heap.headers.cell ((step (runOps ops) o).heap.objs.cell k).header = _
  rw [fr.hdr k hlt]
  exact fr.header _ (hv.1 k hlt).2.2 fun ⟨r, hr, he⟩ => hno r hr he

/-- C43: which images have the same header object: an image and the ones made from it. -/
theorem C43_shared (ops : List Op) (o : Op) (hnew : o.inPlace = false) (k : Nat) (hk : o.CalledOn (runOps ops) k) (n : Nat)
    (hn : (runOps (ops ++ [o])).images = (runOps ops).images ++ [n]) :
    (runOps (ops ++ [o])).SameHeader n k := by
  rw [runOps_snoc] at hn ⊢
  have hv := runOps_valid ops
  have h := (ref_exec hv o hk hnew (runOps ops).heap rfl).1 (some n) (exec_of_images hn) n rfl
  rw [← step_heap] at h
  obtain ⟨i, -, hi⟩ := hk
  exact Eq.trans h ((step_frame hv o).hdr k (mem_lt hv hi)).symm

/-- C43: an image made from an array has a header object of its own. -/
theorem C43_array_own (ops : List Op) (d : Img ℝ) (dic : Option AngleDic) (junk : Nat → Nat → ℝ) (n : Nat)
    (hn : (runOps (ops ++ [.fromArray d dic none none junk])).images = (runOps ops).images ++ [n]) (k : Nat)
    (hk : k ∈ (runOps ops).images) : ¬ (runOps (ops ++ [.fromArray d dic none none junk])).SameHeader n k := by
  rw [runOps_snoc] at hn ⊢
  have hv := runOps_valid ops
  have hlt := hv.2 k hk
  have hx := exec_of_images hn
  have hstep := step_heap (runOps ops) (.fromArray d dic none none junk)
  have hrun : exec (runOps ops).images (.fromArray d dic none none junk) (runOps ops).heap =
      (newFromArray d dic >>= fun n => (pure (some n) : M (Option Nat))) (runOps ops).heap := rfl
  have hnr := newFromArray_run d dic (runOps ops).heap
  rw [hrun] at hx hstep
  cases hS : dataStokes d (dicVal dic (runOps ops).heap) with
  | error e =>
    rw [hS] at hnr
    rw [run_of_err hnr] at hx
    cases hx
  | ok S =>
    rw [hS] at hnr
    rw [run_of_ok hnr] at hx hstep
    cases hx
    intro hsame
    have h1 : ((step (runOps ops) (.fromArray d dic none none junk)).heap.objs.cell (runOps ops).heap.objs.size).header =
        (runOps ops).heap.headers.size := by
      rw [hstep]
      exact congrArg ImgObj.header (Store.alloc_cell_self _ _)
    have h2 := (step_frame hv (.fromArray d dic none none junk)).hdr k hlt
    have h3 := (hv.1 k hlt).2.2
    have h4 : _ = _ := hsame
    rw [h1, h2] at h4
    omega

/-- C43 violated, in general: when a call that sets pixel data makes image `n` from image `k`, the header of `k` describes
`n` from then on. -/
theorem C43_source_overwritten (ops : List Op) (o : Op) (hnew : o.inPlace = false) (ho : o.setsData = true) (k : Nat)
    (hk : o.CalledOn (runOps ops) k) (n : Nat) (hn : (runOps (ops ++ [o])).images = (runOps ops).images ++ [n]) :
    (runOps (ops ++ [o])).header k = ⟨((runOps (ops ++ [o])).data n).w, ((runOps (ops ++ [o])).data n).h⟩ := by
  have h1 := C43_right_when_set_partial ops o ho n hn
  have h2 := C43_shared ops o hnew k hk n hn
  have h3 : (runOps (ops ++ [o])).header k = (runOps (ops ++ [o])).header n := by
    show (runOps (ops ++ [o])).heap.headers.cell _ = (runOps (ops ++ [o])).heap.headers.cell _
    rw [show ((runOps (ops ++ [o])).heap.objs.cell n).header = ((runOps (ops ++ [o])).heap.objs.cell k).header from h2]
  rw [h3]
  obtain ⟨e1, e2⟩ := h1
  rw [← e1, ← e2]

/-- A 4 × 4 image. -/
noncomputable def flat44 : Img ℝ := Img.ofFn 4 4 (fun _ _ => 1)

/-- The example: `img = MicropolImage(flat44); small = img.rebin(2)`. -/
theorem flat44_rebin : (runOps [.fromArray flat44 none none none fun _ _ => 0]).images = [0] ∧
    (runOps [.fromArray flat44 none none none fun _ _ => 0]).data 0 = flat44 ∧
    (runOps [.fromArray flat44 none none none fun _ _ => 0, .rebin 0 2]).images = [0, 1] ∧
    ((runOps [.fromArray flat44 none none none fun _ _ => 0, .rebin 0 2]).data 1).h = 2 ∧
    ((runOps [.fromArray flat44 none none none fun _ _ => 0, .rebin 0 2]).data 1).w = 2 := by
  obtain ⟨S, hS, -, -⟩ := C17_stokes flat44 rfl rfl ⟨0, 1, 2, 3⟩ polarCamAngles C02_polarCam.1
  have hrun : runOps [.fromArray flat44 none none none fun _ _ => 0] = ⟨arrayHeap flat44 S none initState.heap, [0]⟩ :=
    (runOps_snoc [] _).trans (step_fromArray (s := initState) flat44 none (fun _ _ => 0) hS)
  have hview : (runOps [.fromArray flat44 none none none fun _ _ => 0]).heap.view 0 = freshView flat44 S polarCamAngles := by
    rw [hrun]
    exact arrayHeap_view flat44 S none initState.heap
  have hv := runOps_valid [.fromArray flat44 none none none fun _ _ => 0]
  have himg : (runOps [.fromArray flat44 none none none fun _ _ => 0]).images[0]? = some 0 := by rw [hrun]; rfl
  obtain ⟨r, s, s', hr, -, -, hrh, hrw, -⟩ := C09_rebin_families flat44 2 (by decide) rfl rfl
  have hr' : micropolarrayRebin flat44 2 = .ok r := hr
  obtain ⟨S', hS', -, -⟩ := C17_stokes r (by rw [hrh]; simp) (by rw [hrw]; simp) ⟨0, 1, 2, 3⟩ polarCamAngles C02_polarCam.1
  have hval : (Op.rebin 0 2).value (runOps [.fromArray flat44 none none none fun _ _ => 0])
      (freshView flat44 S polarCamAngles) = (.ok (), { freshView flat44 S polarCamAngles with data := r, stokes := ⟨S', false⟩ }) := by
    unfold Op.value
    dsimp only
    rw [if_neg (by decide)]
    show withVal (micropolarrayRebin flat44 2) _ _ = _
    rw [hr']
    have ht : theoV { freshView flat44 S polarCamAngles with data := r } = .ok S' := hS'
    show updateStokesV _ = _
    unfold updateStokesV
    rw [ht]
    rfl
  have hnew := exec_new_value hv (o := .rebin 0 2) rfl himg rfl
  rw [hview, hval] at hnew
  have hsz : (runOps [.fromArray flat44 none none none fun _ _ => 0]).heap.objs.size = 1 := by rw [hrun]; rfl
  have hex : (exec (runOps [.fromArray flat44 none none none fun _ _ => 0]).images (.rebin 0 2)
      (runOps [.fromArray flat44 none none none fun _ _ => 0]).heap).1 = .ok (some 1) := by
    rw [← hsz]
    exact hnew.1
  have hstep : runOps [.fromArray flat44 none none none fun _ _ => 0, .rebin 0 2] =
      step (runOps [.fromArray flat44 none none none fun _ _ => 0]) (.rebin 0 2) :=
    runOps_snoc [.fromArray flat44 none none none fun _ _ => 0] _
  have hret := returned_value hv hex (i := 0) rfl himg
  rw [hview, hval] at hret
  have hdat : (runOps [.fromArray flat44 none none none fun _ _ => 0, .rebin 0 2]).data 1 = r := by
    rw [hstep]
    exact congrArg ImgView.data hret
  refine ⟨by rw [hrun], congrArg ImgView.data hview, ?_, ?_, ?_⟩
  · rw [hstep]
    unfold step
    split
    · rename_i n h hh
      rw [hh] at hex
      cases hex
      rw [hrun]
      rfl
    · rename_i h hh
      rw [hh] at hex
      cases hex
    · rename_i h hh
      rw [hh] at hex
      cases hex
  · rw [hdat, hrh]; rfl
  · rw [hdat, hrw]; rfl

/-- C43 violated: after `small = img.rebin(2)` the header of the 4 × 4 image `img` says 2 × 2. -/
theorem C43_full_claim_false : ¬ ∀ (ops : List Op) (k : Nat), k ∈ (runOps ops).images → (runOps ops).HeaderRight k := by
  intro hall
  obtain ⟨h1, h2, h3, h4, h5⟩ := flat44_rebin
  have hsrc := C43_source_overwritten [.fromArray flat44 none none none fun _ _ => 0] (.rebin 0 2) rfl rfl 0
    ⟨0, rfl, by rw [h1]; rfl⟩ 1 (by rw [h1]; exact h3)
  have hdat := C40_data_kept [.fromArray flat44 none none none fun _ _ => 0] (.rebin 0 2) 0 (by rw [h1]; simp)
    (fun h => by cases h.1)
  have hr := hall [.fromArray flat44 none none none fun _ _ => 0, .rebin 0 2] 0 (by rw [h3]; simp)
  have e1 : (runOps [.fromArray flat44 none none none fun _ _ => 0, .rebin 0 2]).header 0 = ⟨2, 2⟩ := by
    refine hsrc.trans ?_
    show Header.mk ((runOps [.fromArray flat44 none none none fun _ _ => 0, .rebin 0 2]).data 1).w
      ((runOps [.fromArray flat44 none none none fun _ _ => 0, .rebin 0 2]).data 1).h = _
    rw [h4, h5]
  have e2 : (runOps [.fromArray flat44 none none none fun _ _ => 0, .rebin 0 2]).data 0 = flat44 := by
    exact hdat.trans h2
  have := hr.1
  rw [e1, e2] at this
  revert this
  show ¬ (2 = 4)
  decide

/-- The hypotheses of the theorems above are met: the calls of the example. -/
example : (runOps [.fromArray flat44 none none none fun _ _ => 0]).HeaderRight 0 ∧
    (runOps [.fromArray flat44 none none none fun _ _ => 0, .rebin 0 2]).HeaderRight 1 ∧
    (runOps [.fromArray flat44 none none none fun _ _ => 0, .rebin 0 2]).SameHeader 1 0 := by
  obtain ⟨h1, h2, h3, h4, h5⟩ := flat44_rebin
  exact ⟨C43_no_resize_partial _ (by simp [Op.resizes]) 0 (by rw [h1]; simp),
    C43_right_when_set_partial [.fromArray flat44 none none none fun _ _ => 0] (.rebin 0 2) rfl 1 (by rw [h1]; exact h3),
    C43_shared [.fromArray flat44 none none none fun _ _ => 0] (.rebin 0 2) rfl 0 ⟨0, rfl, by rw [h1]; rfl⟩ 1
      (by rw [h1]; exact h3)⟩

end Micropol
