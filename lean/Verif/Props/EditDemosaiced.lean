import Verif.Lemmas.EditDemosaicedSessions
import Verif.Props.EditMaps
import Verif.Props.DemosaicStokes

/-!
# C117: writing into demosaiced images

Sessions of calls, of writes into pixels and Stokes maps, and of writes `image.demosaiced_images[q][y, x] = v`.
-/

set_option autoImplicit false

namespace Micropol

open Classical

/-- C117: after any session, an image has demosaiced images exactly if it says it is demosaiced. -/
theorem C117_present (es : List Edit) (k : Nat) (hk : k ∈ (runEdits es).images) :
    (runEdits es).isDemosaiced k = true ↔ ∃ d, (runEdits es).demosaiced k = some d := by
  have h := ((runEdits_list es).good k hk).2
  have h' : (runEdits es).isDemosaiced k = ((runEdits es).demosaiced k).isSome := h
  rw [h', Option.isSome_iff_exists]

/-- C117: after any session, `image.demosaiced_images[q][y, x] = v` sets that value of that demosaiced image and nothing else of
the image; outside of it, or without demosaiced images, it changes nothing at all.  It changes the pixels, the Stokes maps, the
header, the dictionary and the state of no image.  Another image either keeps its demosaiced images, or had the same before and
has the same afterwards. -/
theorem C117_write (es : List Edit) (i k : Nat) (hi : (runEdits es).images[i]? = some k) (q : Fin 4) (y x : Int) (v : ℝ) :
    let s := runEdits es
    let t := runEdits (es ++ [.writeDemosaiced i q y x v])
    (∀ d, s.demosaiced k = some d → -((d q).h : Int) ≤ y → y < (d q).h → -((d q).w : Int) ≤ x → x < (d q).w →
      ∃ d', t.demosaiced k = some d' ∧ IsEdit (d q) (d' q) y x v ∧ ∀ r, r ≠ q → d' r = d r) ∧
    (∀ d, s.demosaiced k = some d →
      ¬ (-((d q).h : Int) ≤ y ∧ y < (d q).h ∧ -((d q).w : Int) ≤ x ∧ x < (d q).w) → t = s) ∧
    (s.demosaiced k = none → t = s) ∧
    t.images = s.images ∧
    (∀ n, t.data n = s.data n ∧ t.stokes n = s.stokes n ∧ t.header n = s.header n ∧ t.dic n = s.dic n ∧
      t.isDemosaiced n = s.isDemosaiced n) ∧
    ∀ n ∈ s.images, t.demosaiced n = s.demosaiced n ∨
      (s.demosaiced n = s.demosaiced k ∧ t.demosaiced n = t.demosaiced k) := by
  intro s t
  have ht : t = editStep s (.writeDemosaiced i q y x v) := runEdits_snoc es _
  have hks : k ∈ s.images := List.mem_of_getElem? hi
  have hI : ListInv s := runEdits_list es
  refine ⟨?_, ?_, ?_, ?_, ?_, ?_⟩
  · intro d hd h1 h2 h3 h4
    obtain ⟨j, hj⟩ := resolve_in h1 h2
    obtain ⟨l, hl⟩ := resolve_in h3 h4
    rcases writeDem_mark s i q y x v with ⟨k', d', j', l', hk', hd', hj', hl', e⟩ | ⟨-, e⟩
    · have : k' = k := Option.some.inj (hk'.symm.trans hi)
      subst this
      have : d' = d := Option.some.inj (hd'.symm.trans hd)
      subst this
      refine ⟨fun r => if r = q then (d' q).setPx j' l' v else d' r, ?_, ?_, fun r hr => if_neg hr⟩
      · rw [ht]
        exact (congrArg (fun m : Mark => m.2.1) (e k')).trans (if_pos rfl)
      · dsimp only
        rw [if_pos rfl]
        exact setPx_edit _ v hj' hl'
    · rcases e k d hi hd with e | e
      · rw [hj] at e; cases e
      · rw [hl] at e; cases e
  · intro d hd hc
    rw [ht]
    rcases writeDem_cases s i q y x v with ⟨k', d', j, l, hk', hd', hj, hl, -⟩ | ⟨e, -⟩
    · have : k' = k := Option.some.inj (hk'.symm.trans hi)
      subst this
      have : d' = d := Option.some.inj (hd'.symm.trans hd)
      subst this
      exfalso
      obtain ⟨a1, a2⟩ := resolve_some hj
      obtain ⟨b1, b2⟩ := resolve_some hl
      exact hc (by omega)
    · exact e
  · intro hd
    rw [ht]
    rcases writeDem_cases s i q y x v with ⟨k', d', j, l, hk', hd', -⟩ | ⟨e, -⟩
    · have : k' = k := Option.some.inj (hk'.symm.trans hi)
      subst this
      have : s.demosaiced k' = some d' := hd'
      rw [hd] at this
      cases this
    · exact e
  · rw [ht]; rfl
  · intro n
    obtain ⟨-, h1, h2, h3, h4⟩ := writeDem_objs s i q y x v
    obtain ⟨d, hd⟩ := h4 n
    rw [ht]
    unfold State.data State.stokes State.header State.dic State.isDemosaiced Heap.dataOf Heap.stokesOf Heap.headerOf Heap.dicOf
    rw [h1, h2, h3, hd]
    exact ⟨rfl, rfl, rfl, rfl, rfl⟩
  · intro n hn
    rw [ht]
    by_cases h : (markOf s k).1 = (markOf s n).1
    · have hn' : n ∈ (editStep s (.writeDemosaiced i q y x v)).images := hn
      have hk' : k ∈ (editStep s (.writeDemosaiced i q y x v)).images := hks
      refine Or.inr ⟨(hI.same k hks n hn h).symm, ?_⟩
      refine (editStep_list (runEdits_valid es) hI (.writeDemosaiced i q y x v)).same n hn' k hk' ?_
      rw [edit_lists _ (fun o h => by cases h), edit_lists _ (fun o h => by cases h)]
      exact h.symm
    · exact Or.inl (writeDem_apart hI i q y x v hi (Or.inl h))

/-- C117: writes into pixels and into Stokes maps leave all demosaiced images as they are. -/
theorem C117_writes_elsewhere (es : List Edit) (k i : Nat) (y x : Int) (v : ℝ) (p : Fin 3) :
    (runEdits (es ++ [.write i y x v])).demosaiced k = (runEdits es).demosaiced k ∧
    (runEdits (es ++ [.writeMap i p y x v])).demosaiced k = (runEdits es).demosaiced k := by
  rw [runEdits_snoc, runEdits_snoc]
  unfold State.demosaiced
  rw [(write_objs _ i y x v).1, (writeMap_objs _ i p y x v).1]
  exact ⟨rfl, rfl⟩

/-- C117: a call changes the demosaiced images of no image, but for demosaicing and the occulter mask those of the image they are
called on. -/
theorem C117_calls (es : List Edit) (o : Op) (k : Nat) (hk : k ∈ (runEdits es).images)
    (hno : ¬ (o.renewsDemosaiced = true ∧ o.CalledOn (runEdits es) k)) :
    (runEdits (es ++ [.call o])).demosaiced k = (runEdits es).demosaiced k := by
  rw [runEdits_snoc]
  rcases step_mark (runEdits_valid es) o ((runEdits_valid es).2 k hk) with h | ⟨h1, h2, -⟩
  · exact congrArg (fun m : Mark => m.2.1) h
  · exact absurd ⟨h1, h2⟩ hno

theorem independentDemosaiced_of_apart {es : List Edit} {k n : Nat} (hk : k ∈ (runEdits es).images)
    (hn : n ∈ (runEdits es).images) (hne : k ≠ n) (h : ListsApart (runEdits es) k n) : IndependentDemosaiced es k n := by
  intro es' i q y x v
  have := listsApart_run es es' ((runEdits_valid es).2 k hk) ((runEdits_valid es).2 n hn) hne h
  rw [runEdits_snoc]
  exact ⟨fun hi => writeDem_apart (runEdits_list _) i q y x v hi this,
    fun hi => writeDem_apart (runEdits_list _) i q y x v hi this.symm⟩

/-- C117, the part that holds (1): an image made from an array, by arithmetic with a number or by demodulation with demosaicing
has demosaiced images, if any, that are for ever independent of those of the images that existed before. -/
theorem C117_new_partial (es : List Edit) (o : Op) (hin : o.inPlace = false) (hs : o.sharesDemosaiced = false) (n : Nat)
    (hn : Answers es o n) (k : Nat) (hk : k ∈ (runEdits es).images) : IndependentDemosaiced (es ++ [.call o]) k n := by
  have hv := runEdits_valid es
  have hk' := hv.2 k hk
  unfold Answers at hn
  have hn' := hn
  rw [runEdits_snoc] at hn
  have hex := exec_of_images hn
  have hge := (step_new hv o hex).2.2 hin
  have hkn : k ≠ n := by omega
  refine independentDemosaiced_of_apart (by rw [hn']; simp [hk]) (by rw [hn']; simp) hkn ?_
  rw [runEdits_snoc]
  show ListsApart (step _ o) k n
  have hold : markOf (step (runEdits es) o) k = markOf (runEdits es) k := by
    rcases step_mark hv o hk' with h | ⟨h, -, -⟩
    · exact h
    · rw [renews_inPlace h] at hin; cases hin
  rcases step_mark_new hv hin hex with ⟨h, -⟩ | ⟨-, h | h⟩
  · rw [hs] at h; cases h
  · refine ListsApart.symm (Or.inr ?_)
    rw [h]
  · left
    rw [hold]
    exact fun e => h.2.2.2 k hk' hkn e.symm

/-- C117, the part that holds (2): demosaicing, and the occulter mask on a demosaiced image, make the demosaiced images of the
image they are called on independent of those of all other images existing then. -/
theorem C117_renewed_partial (es : List Edit) (o : Op) (hc : o.renewsDemosaiced = true) (hok : Succeeds (runEdits es) o)
    (r : Nat) (hr : o.CalledOn (runEdits es) r)
    (hmask : ∀ i y x rad over fill, o = .maskOcculter i y x rad over fill → (runEdits es).isDemosaiced r = true)
    (k : Nat) (hk : k ∈ (runEdits es).images) (hkr : k ≠ r) : IndependentDemosaiced (es ++ [.call o]) k r := by
  have hv := runEdits_valid es
  have hk' := hv.2 k hk
  have hrm : r ∈ (runEdits es).images := by
    obtain ⟨i, -, hi⟩ := hr
    exact List.mem_of_getElem? hi
  have hnew := step_mark_renewed hv hc hok hr hmask
  obtain ⟨l, hl⟩ := editStep_images (runEdits es) (.call o)
  refine independentDemosaiced_of_apart (by rw [runEdits_snoc, hl]; simp [hk]) (by rw [runEdits_snoc, hl]; simp [hrm]) hkr ?_
  rw [runEdits_snoc]
  left
  have hold : markOf (step (runEdits es) o) k = markOf (runEdits es) k := by
    rcases step_mark hv o hk' with h | ⟨-, h, -⟩
    · exact h
    · exact absurd (called_unique h hr) hkr
  show (markOf (step _ o) k).1 ≠ (markOf (step _ o) r).1
  rw [hold]
  exact fun e => hnew.2.2.2 k hk' hkr e.symm

/-- Independence, once reached, is kept. -/
theorem C117_independence_kept (es es' : List Edit) (a b : Nat) (h : IndependentDemosaiced es a b) :
    IndependentDemosaiced (es ++ es') a b := by
  intro l i q y x v
  rw [List.append_assoc es es' l]
  exact h (es' ++ l) i q y x v

/-- C117, what happens otherwise: a copy, and the result of rebin, congrid, rotate, demodulation without demosaicing, shift, hot
pixel cleaning and arithmetic with an image, has the demosaiced images of the image the operation was called on, and every write
into those of one is a write into those of the other, until one of the two is demosaiced or masked. -/
theorem C117_shared_stay_equal (es : List Edit) (o : Op) (hs : o.sharesDemosaiced = true) (n : Nat) (hn : Answers es o n)
    (k : Nat) (hk : o.CalledOn (runEdits es) k) (es' : List Edit)
    (hno : ∀ pre o' post, es' = pre ++ .call o' :: post → o'.renewsDemosaiced = true →
      ¬ o'.CalledOn (runEdits (es ++ [.call o] ++ pre)) k ∧ ¬ o'.CalledOn (runEdits (es ++ [.call o] ++ pre)) n) :
    (runEdits (es ++ [.call o] ++ es')).demosaiced n = (runEdits (es ++ [.call o] ++ es')).demosaiced k := by
  have hv := runEdits_valid es
  have hin : o.inPlace = false := by cases o <;> first | rfl | (cases hs; done)
  have hn' := hn
  unfold Answers at hn hn'
  rw [runEdits_snoc] at hn
  have hex := exec_of_images hn
  have hkm : k ∈ (runEdits es).images := by
    obtain ⟨i, -, hi⟩ := hk
    exact List.mem_of_getElem? hi
  have hsame : (markOf (runEdits (es ++ [.call o])) k).1 = (markOf (runEdits (es ++ [.call o])) n).1 := by
    rw [runEdits_snoc]
    show (markOf (step _ o) k).1 = (markOf (step _ o) n).1
    rcases step_mark_new hv hin hex with ⟨-, k', hk', e⟩ | ⟨h, -⟩
    · have : k' = k := called_unique hk' hk
      subst this
      rw [e]
      rcases step_mark hv o (hv.2 k' hkm) with h | ⟨h, -, -⟩
      · rw [h]
      · rw [renews_inPlace h] at hin; cases hin
    · rw [hs] at h; cases h
  have hkl : k < (runEdits (es ++ [.call o])).heap.objs.size := lt_of_lt_of_le (hv.2 k hkm) (runEdits_size es _)
  have hnl : n < (runEdits (es ++ [.call o])).heap.objs.size := (runEdits_valid _).2 n (by rw [hn']; simp)
  have grow : ∀ l, k ∈ (runEdits (es ++ [.call o] ++ l)).images ∧ n ∈ (runEdits (es ++ [.call o] ++ l)).images := by
    intro l
    induction l using List.reverseRecOn with
    | nil => rw [List.append_nil, hn']; simp [hkm]
    | append_singleton l e ih =>
      rw [← List.append_assoc, runEdits_snoc]
      obtain ⟨m, hm⟩ := editStep_images (runEdits (es ++ [.call o] ++ l)) e
      rw [hm]
      exact ⟨List.mem_append_left _ ih.1, List.mem_append_left _ ih.2⟩
  have : (markOf (runEdits (es ++ [.call o] ++ es')) k).1 = (markOf (runEdits (es ++ [.call o] ++ es')) n).1 := by
    induction es' using List.reverseRecOn with
    | nil => rw [List.append_nil]; exact hsame
    | append_singleton l e ih =>
      rw [← List.append_assoc, runEdits_snoc]
      refine sameList_step (runEdits_valid _) e (lt_of_lt_of_le hkl (runEdits_size _ l))
        (lt_of_lt_of_le hnl (runEdits_size _ l)) (ih fun pre o' post he => hno pre o' (post ++ [e]) (by rw [he]; simp)) ?_
      rintro o' rfl hc
      exact hno l o' [] rfl hc
  exact (runEdits_list _).same n (grow es').2 k (grow es').1 this.symm

/-- C117, I, Q and U: a write leaves them as they are (`C117_write`), but the next successful rebin, shift, hot pixel cleaning,
arithmetic operation with an image or dark, flat or IFOV correction of a demosaiced image takes them from the demosaiced images
as they are then, whatever it does to the pixels. -/
theorem C117_refreshed (es : List Edit) (o : Op) (ho : o.recomputes = true) (hnum : ∀ op i c junk, o ≠ .arithNumber op i c junk)
    (hok : Succeeds (runEdits es) o) (k : Nat) (hk : o.CalledOn (runEdits es) k) (d : Fin 4 → Img ℝ)
    (hd : (runEdits es).demosaiced k = some d) (hsh : ∀ q, (d q).h = (d 0).h ∧ (d q).w = (d 0).w) (n : Nat)
    (hn : if o.inPlace then n = k else Answers es o n) (L : Layout) (hL : L.Describes ((runEdits (es ++ [.call o])).dic n)) :
    (runEdits (es ++ [.call o])).demosaiced n = some d ∧ IsStokesOf d L ((runEdits (es ++ [.call o])).stokes n) := by
  have hv := runEdits_valid es
  have hflag : (runEdits es).isDemosaiced k = true := by
    obtain ⟨i, -, hi⟩ := hk
    exact (C117_present es k (List.mem_of_getElem? hi)).2 ⟨d, hd⟩
  unfold Answers at hn
  rw [runEdits_snoc] at hn hL ⊢
  generalize runEdits es = s at *
  obtain ⟨i, hsrc, hi⟩ := hk
  obtain ⟨a, ha⟩ := hok
  have hdem : (o.value s (s.heap.view k)).1 = .ok () → DemV d (o.value s (s.heap.view k)).2 := value_dem ho hnum hflag hd
  have key : DemV d ((step s o).heap.view n) := by
    cases hin : o.inPlace with
    | true =>
      rw [hin, if_pos rfl] at hn
      subst hn
      obtain ⟨h1, h2⟩ := exec_place_value hsrc hi hin
      rw [step_heap, h2]
      refine hdem ?_
      rw [ha] at h1
      cases hx : (o.value s (s.heap.view n)).1 with
      | ok u => rfl
      | error e => rw [hx] at h1; cases h1
    | false =>
      rw [hin, if_neg (by decide)] at hn
      have hex := exec_of_images hn
      rw [returned_value hv hex hsrc hi]
      refine hdem ?_
      obtain ⟨h1, -⟩ := exec_new_value hv hsrc hi hin
      rw [ha] at h1
      cases hx : (o.value s (s.heap.view k)).1 with
      | ok u => rfl
      | error e => rw [hx] at h1; cases h1
  refine ⟨key.2.1, ?_⟩
  have h := key.2.2
  rw [show theoStokes d ((step s o).heap.view n).dic = _ from theoStokes_ok d hL] at h
  have := stokesClosed_spec d L (fun q => (hsh q).1) (fun q => (hsh q).2)
  rw [Except.ok.inj h] at this
  exact this

/-! ## The example: an image, demosaiced -/

/-- `img = MicropolImage(darkBright); img.demosaic()`. -/
noncomputable abbrev demosaicedImage : List Edit := firstImage ++ [.call (.demosaic 0 "mean")]

theorem demosaicedImage_facts : (runEdits demosaicedImage).images = [0, 0] ∧
    Succeeds (runEdits firstImage) (.demosaic 0 "mean") ∧ (runEdits demosaicedImage).data 0 = darkBright ∧
    (∃ d, (runEdits demosaicedImage).demosaiced 0 = some d ∧ ∀ q, (d q).h = 2 ∧ (d q).w = 4) ∧
    (runEdits demosaicedImage).dic 0 = polarCamAngles := by
  obtain ⟨h1, h2, h3⟩ := oneImage_facts
  obtain ⟨n, hn⟩ := (C99_returns oneImage 0 0 h1 _ oneImage_layout "mean").2 (Or.inl rfl)
  obtain rfl : n = 0 := place_returns (o := .demosaic 0 "mean") rfl rfl h1 hn
  obtain ⟨S, -, -, hfirst⟩ := firstImage_run
  have hrun : runEdits firstImage = runOps oneImage := runEdits_calls oneImage
  have hrun2 : runEdits demosaicedImage = runOps (oneImage ++ [.demosaic 0 "mean"]) :=
    runEdits_calls (oneImage ++ [Op.demosaic 0 "mean"])
  obtain ⟨v1, v2⟩ := returned_data hn rfl h1
  have e : (Op.demosaic 0 "mean").value (runOps oneImage) ((runOps oneImage).heap.view 0) =
    demosaicV "mean" ((runOps oneImage).heap.view 0) := rfl
  rw [e] at v1 v2
  unfold demosaicV at v1 v2
  obtain ⟨r, hr, e1⟩ := withVal_ok v1
  rw [e1] at v1 v2
  unfold updateStokesV at v1 v2
  obtain ⟨T, hT, e2⟩ := withVal_ok v1
  rw [e2] at v2
  have hdata : ((runOps oneImage).heap.view 0).data = darkBright := h2
  have hdic : ((runOps oneImage).heap.view 0).dic = polarCamAngles := by
    rw [← hrun, hfirst]
    exact congrArg ImgView.dic (arrayHeap_view darkBright S none initState.heap)
  rw [hdata] at hr
  obtain ⟨r', hr', hsh⟩ := C13_mean darkBright _ (split_ok rfl rfl)
  rw [hr] at hr'
  cases hr'
  refine ⟨?_, ?_, ?_, ⟨r, ?_, fun q => ⟨(hsh q).1, (hsh q).2.1⟩⟩, ?_⟩
  · rw [hrun2, hn, ← hrun, hfirst]
    rfl
  · rw [hrun]
    unfold Returns at hn
    rw [runOps_snoc] at hn
    exact ⟨_, exec_of_images hn⟩
  · rw [hrun2]
    exact (congrArg ImgView.data v2).trans hdata
  · rw [hrun2]
    exact congrArg ImgView.demosaicedImages v2
  · rw [hrun2]
    exact (congrArg ImgView.dic v2).trans hdic

/-- `copy = MicropolImage(img)`, demosaiced images included. -/
theorem demosaicedCopy : ∃ n, n ≠ 0 ∧ Answers demosaicedImage plainCopy n := by
  obtain ⟨him, -⟩ := demosaicedImage_facts
  refine ⟨(runEdits demosaicedImage).heap.objs.size, ?_, ?_⟩
  · have := (runEdits_valid demosaicedImage).2 0 (by rw [him]; simp)
    omega
  · unfold Answers
    rw [runEdits_snoc]
    show (step _ _).images = _
    rw [step_fromImage (i := 0) (k := 0) (by rw [him]; rfl)]

/-- C117 as stated does not hold: there is a session after which the demosaiced images of two images are not independent. -/
theorem C117_full_claim_false : ¬ ∀ (es : List Edit) (k n : Nat), k ∈ (runEdits es).images → n ∈ (runEdits es).images →
    k ≠ n → IndependentDemosaiced es k n := by
  intro h
  obtain ⟨him, -, -, ⟨d, hd, hsh⟩, -⟩ := demosaicedImage_facts
  obtain ⟨n, hn0, hans⟩ := demosaicedCopy
  have hans' := hans
  unfold Answers at hans'
  rw [him] at hans'
  have hind := h (demosaicedImage ++ [.call plainCopy]) 0 n (by rw [hans']; simp) (by rw [hans']; simp) (Ne.symm hn0)
  have hw := (hind [] 0 0 0 0 ((d 0).px 0 0 + 1)).1 (by rw [List.append_nil, hans']; rfl)
  rw [List.append_nil] at hw
  have hcalled : plainCopy.CalledOn (runEdits demosaicedImage) 0 := ⟨0, rfl, by rw [him]; rfl⟩
  have e1 := C117_shared_stay_equal demosaicedImage plainCopy rfl n hans 0 hcalled [] (by
    intro pre o post he
    have := congrArg List.length he
    simp at this)
  rw [List.append_nil] at e1
  have e2 := C117_shared_stay_equal demosaicedImage plainCopy rfl n hans 0 hcalled
    [.writeDemosaiced 0 0 0 0 ((d 0).px 0 0 + 1)] (by
    intro pre o post he
    cases pre with
    | nil => cases he
    | cons a l => cases l <;> cases he)
  have hk0 : (runEdits (demosaicedImage ++ [.call plainCopy])).demosaiced 0 = some d :=
    (C117_calls demosaicedImage plainCopy 0 (by rw [him]; simp) fun h => by cases h.1).trans hd
  obtain ⟨d', hd', hed, -⟩ := (C117_write (demosaicedImage ++ [.call plainCopy]) 0 0 (by rw [hans']; rfl) 0 0 0
    ((d 0).px 0 0 + 1)).1 d hk0 (by rw [(hsh 0).1]; decide) (by rw [(hsh 0).1]; decide) (by rw [(hsh 0).2]; decide)
    (by rw [(hsh 0).2]; decide)
  have e3 : d' = d := by
    have : some d' = some d := by rw [← hd', ← e2, hw, e1, hk0]
    exact Option.some.inj this
  subst e3
  obtain ⟨-, -, j, l, hj, hl, hj', hl', hpx, -⟩ := hed
  rw [(hsh 0).1] at hj hj'
  rw [(hsh 0).2] at hl hl'
  obtain rfl : j = 0 := by omega
  obtain rfl : l = 0 := by omega
  linarith

/-! ## The hypotheses are met -/

/-- A write into the third demosaiced image through negative indices. -/
example : ∃ (es : List Edit) (i k : Nat) (d d' : Fin 4 → Img ℝ), (runEdits es).images[i]? = some k ∧
    (runEdits es).demosaiced k = some d ∧ (runEdits (es ++ [.writeDemosaiced i 2 (-1) (-2) 7])).demosaiced k = some d' ∧
    IsEdit (d 2) (d' 2) (-1) (-2) 7 := by
  obtain ⟨him, -, -, ⟨d, hd, hsh⟩, -⟩ := demosaicedImage_facts
  have hi : (runEdits demosaicedImage).images[0]? = some 0 := by rw [him]; rfl
  obtain ⟨d', hd', hed, -⟩ := (C117_write demosaicedImage 0 0 hi 2 (-1) (-2) 7).1 d hd (by rw [(hsh 2).1]; decide)
    (by rw [(hsh 2).1]; decide) (by rw [(hsh 2).2]; decide) (by rw [(hsh 2).2]; decide)
  exact ⟨demosaicedImage, 0, 0, d, d', hi, hd, hd', hed⟩

/-- A second image from an array, beside a demosaiced one. -/
example : ∃ (es : List Edit) (o : Op) (n k : Nat) (d : Fin 4 → Img ℝ), o.inPlace = false ∧ o.sharesDemosaiced = false ∧
    Answers es o n ∧ k ∈ (runEdits es).images ∧ (runEdits es).demosaiced k = some d := by
  obtain ⟨him, -, -, ⟨d, hd, -⟩, -⟩ := demosaicedImage_facts
  obtain ⟨S, h1, -, -⟩ := firstImage_run
  refine ⟨demosaicedImage, .fromArray darkBright (some polarCamAngles) none none fun _ _ => 0,
    (runEdits demosaicedImage).heap.objs.size, 0, d, rfl, rfl, ?_, by rw [him]; simp, hd⟩
  unfold Answers
  rw [runEdits_snoc]
  show (step _ _).images = _
  rw [step_fromArray (S := S) _ _ _ h1]

/-- The dark correction of a demosaiced image (here with itself as dark) takes I, Q and U from the demosaiced images. -/
example : ∃ (es : List Edit) (o : Op) (k : Nat) (d : Fin 4 → Img ℝ) (L : Layout), o.recomputes = true ∧
    (∀ op i c junk, o ≠ .arithNumber op i c junk) ∧ Succeeds (runEdits es) o ∧ o.CalledOn (runEdits es) k ∧
    (runEdits es).demosaiced k = some d ∧ (∀ q, (d q).h = (d 0).h ∧ (d q).w = (d 0).w) ∧ o.inPlace = true ∧
    L.Describes ((runEdits (es ++ [.call o])).dic k) := by
  obtain ⟨him, -, hdata, ⟨d, hd, hsh⟩, hdic⟩ := demosaicedImage_facts
  have hi : (runEdits demosaicedImage).images[0]? = some 0 := by rw [him]; rfl
  have hflag : (runEdits demosaicedImage).isDemosaiced 0 = true :=
    (C117_present demosaicedImage 0 (by rw [him]; simp)).2 ⟨d, hd⟩
  obtain ⟨r, hr, -⟩ := C35_dark darkBright darkBright ⟨rfl, rfl⟩
  have hval : Op.value (runEdits demosaicedImage) (.subtractDark 0 0) ((runEdits demosaicedImage).heap.view 0) =
      (.ok (), { (runEdits demosaicedImage).heap.view 0 with
        data := r, stokes := ⟨stokesClosed d ⟨0, 1, 2, 3⟩, false⟩, darkSubtracted := true }) := by
    have hs : Op.value (runEdits demosaicedImage) (.subtractDark 0 0) ((runEdits demosaicedImage).heap.view 0) =
      secondV (runEdits demosaicedImage) 0 ((runEdits demosaicedImage).heap.view 0)
        fun d => subtractDarkV d ((runEdits demosaicedImage).heap.view 0) := rfl
    rw [hs]
    unfold secondV
    rw [hi]
    dsimp only
    unfold subtractDarkV withVal
    rw [show ((runEdits demosaicedImage).heap.view 0).data = darkBright from hdata,
      show (runEdits demosaicedImage).heap.dataOf 0 = darkBright from hdata, hr]
    dsimp only
    have hth : theoV { (runEdits demosaicedImage).heap.view 0 with data := r } = .ok (stokesClosed d ⟨0, 1, 2, 3⟩) := by
      unfold theoV
      rw [show ({ (runEdits demosaicedImage).heap.view 0 with data := r } : ImgView).isDemosaiced = true from hflag, if_pos rfl,
        show ({ (runEdits demosaicedImage).heap.view 0 with data := r } : ImgView).demosaicedImages = some d from hd]
      dsimp only
      rw [show ((runEdits demosaicedImage).heap.view 0).dic = polarCamAngles from hdic]
      exact theoStokes_ok d C02_polarCam.1
    unfold updateDataAndStokesV updateStokesV
    rw [hth]
    rfl
  obtain ⟨h1, h2⟩ := exec_place_value (o := .subtractDark 0 0) rfl hi rfl
  rw [hval] at h1 h2
  refine ⟨demosaicedImage, .subtractDark 0 0, 0, d, ⟨0, 1, 2, 3⟩, rfl, fun _ _ _ _ h => (by cases h), ⟨_, h1⟩, ⟨0, rfl, hi⟩, hd,
    fun q => ⟨(hsh q).1.trans (hsh 0).1.symm, (hsh q).2.trans (hsh 0).2.symm⟩, rfl, ?_⟩
  have : (runEdits (demosaicedImage ++ [.call (.subtractDark 0 0)])).dic 0 = polarCamAngles := by
    rw [runEdits_snoc]
    show ((step (runEdits demosaicedImage) (.subtractDark 0 0)).heap.view 0).dic = _
    rw [step_heap, h2]
    exact hdic
  rw [this]
  exact C02_polarCam.1

/-- Demosaicing an image (the copy of which is a different one). -/
example : ∃ (es : List Edit) (o : Op) (r k : Nat), o.renewsDemosaiced = true ∧ Succeeds (runEdits es) o ∧
    o.CalledOn (runEdits es) r ∧ k ∈ (runEdits es).images ∧ k ≠ r ∧
    (∀ i y x rad over fill, o = .maskOcculter i y x rad over fill → (runEdits es).isDemosaiced r = true) := by
  obtain ⟨him, -, hdata, -, hdic⟩ := demosaicedImage_facts
  obtain ⟨n, hn0, hans⟩ := demosaicedCopy
  have hans' := hans
  unfold Answers at hans'
  rw [him] at hans'
  have hi : (runEdits (demosaicedImage ++ [.call plainCopy])).images[0]? = some 0 := by rw [hans']; rfl
  have hview : (runEdits (demosaicedImage ++ [.call plainCopy])).heap.view 0 = (runEdits demosaicedImage).heap.view 0 := by
    rw [runEdits_snoc]
    rcases step_view_old (runEdits_valid demosaicedImage) plainCopy
      ((runEdits_valid demosaicedImage).2 0 (by rw [him]; simp)) (fun h => by cases h.1) with h | ⟨h, -⟩
    · exact h
    · cases h
  obtain ⟨h1, -⟩ := exec_place_value (o := .demosaic 0 "mean") rfl hi rfl
  refine ⟨demosaicedImage ++ [.call plainCopy], .demosaic 0 "mean", 0, n, rfl, ?_, ⟨0, rfl, hi⟩, by rw [hans']; simp, hn0,
    fun _ _ _ _ _ _ h => by cases h⟩
  obtain ⟨r, hr, -⟩ := C13_mean darkBright _ (split_ok rfl rfl)
  have hval : (Op.value (runEdits (demosaicedImage ++ [.call plainCopy])) (.demosaic 0 "mean")
      ((runEdits (demosaicedImage ++ [.call plainCopy])).heap.view 0)).1 = .ok () := by
    show (demosaicV "mean" _).1 = _
    rw [hview]
    unfold demosaicV
    rw [show ((runEdits demosaicedImage).heap.view 0).data = darkBright from hdata, hr]
    unfold withVal updateStokesV theoV
    dsimp only
    rw [if_pos rfl, show ((runEdits demosaicedImage).heap.view 0).dic = polarCamAngles from hdic, theoStokes_ok r C02_polarCam.1]
    rfl
  rw [hval] at h1
  exact ⟨_, h1⟩

end Micropol
