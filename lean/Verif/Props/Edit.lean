import Verif.Lemmas.Edit
import Verif.Props.BaseImage
import Verif.Props.Corrections
import Verif.Props.ObjectHeader

/-!
# C87: writing pixels

Sessions of calls and of writes `image.data[y, x] = v`.
-/

set_option autoImplicit false

namespace Micropol

open Classical

/-- C87: after any session, `image.data[y, x] = v` sets that pixel of the image and no other; outside the image it changes
nothing at all.  It changes the I, Q, U, header, dictionary and state of no image.  Another image either keeps its pixels,
or had the same pixels before and has the same afterwards. -/
theorem C87_write (es : List Edit) (i k : Nat) (hi : (runEdits es).images[i]? = some k) (y x : Int) (v : ℝ) :
    let s := runEdits es
    let t := runEdits (es ++ [.write i y x v])
    (-((s.data k).h : Int) ≤ y ∧ y < (s.data k).h ∧ -((s.data k).w : Int) ≤ x ∧ x < (s.data k).w →
      IsEdit (s.data k) (t.data k) y x v) ∧
    (¬ (-((s.data k).h : Int) ≤ y ∧ y < (s.data k).h ∧ -((s.data k).w : Int) ≤ x ∧ x < (s.data k).w) → t = s) ∧
    t.images = s.images ∧
    (∀ n, t.stokes n = s.stokes n ∧ t.header n = s.header n ∧ t.dic n = s.dic n ∧ t.isDemosaiced n = s.isDemosaiced n) ∧
    ∀ n, t.data n = s.data n ∨ (s.data n = s.data k ∧ t.data n = t.data k) := by
  intro s t
  have ht : t = editStep s (.write i y x v) := runEdits_snoc es _
  refine ⟨?_, ?_, ?_, ?_, ?_⟩
  · rintro ⟨h1, h2, h3, h4⟩
    obtain ⟨j, hj⟩ := resolve_in h1 h2
    obtain ⟨l, hl⟩ := resolve_in h3 h4
    rcases write_cases s i y x v with ⟨k', j', l', hk', hj', hl', e⟩ | ⟨-, e⟩
    · have : k' = k := Option.some.inj (hk'.symm.trans hi)
      subst this
      have : j' = j := Option.some.inj (hj'.symm.trans hj)
      subst this
      have : l' = l := Option.some.inj (hl'.symm.trans hl)
      subst this
      have hd : t.data k' = (s.data k').setPx j' l' v := by
        rw [ht, e]
        exact Store.set_same
      rw [hd]
      exact setPx_edit _ v hj' hl'
    · rcases e k hi with e | e
      · rw [hj] at e; cases e
      · rw [hl] at e; cases e
  · intro hc
    rw [ht]
    rcases write_cases s i y x v with ⟨k', j, l, hk', hj, hl, -⟩ | ⟨e, -⟩
    · have : k' = k := Option.some.inj (hk'.symm.trans hi)
      subst this
      exfalso
      obtain ⟨a1, a2⟩ := resolve_some hj
      obtain ⟨b1, b2⟩ := resolve_some hl
      exact hc (by omega)
    · exact e
  · rw [ht]; rfl
  · intro n
    obtain ⟨h1, h2, h3, -⟩ := write_objs s i y x v
    rw [ht]
    unfold State.stokes State.header State.dic State.isDemosaiced Heap.stokesOf Heap.headerOf Heap.dicOf
    rw [h1, h2, h3]
    exact ⟨rfl, rfl, rfl, rfl⟩
  · intro n
    rw [ht]
    by_cases h : arr s k = arr s n
    · refine Or.inr ⟨?_, write_same i y x v h⟩
      show s.heap.datas.cell (arr s n) = s.heap.datas.cell (arr s k)
      rw [h]
    · exact Or.inl (write_apart i y x v hi h)

/-- C40 in sessions with writes: a call changes the pixels of no image, except of the one an in place operation is called
on. -/
theorem C87_calls (es : List Edit) (o : Op) (k : Nat) (hk : k ∈ (runEdits es).images)
    (hno : ¬ (o.inPlace = true ∧ o.CalledOn (runEdits es) k)) :
    (runEdits (es ++ [.call o])).data k = (runEdits es).data k := by
  rw [runEdits_snoc]
  exact step_data_old (runEdits_valid es) o ((runEdits_valid es).2 k hk) hno

theorem independent_of_apart {es : List Edit} {k n : Nat} (hk : k < (runEdits es).heap.objs.size)
    (hn : n < (runEdits es).heap.objs.size) (h : arr (runEdits es) k ≠ arr (runEdits es) n) : Independent es k n := by
  intro es' i y x v
  have := apart_run es es' hk hn h
  rw [runEdits_snoc]
  exact ⟨fun hi => write_apart i y x v hi this, fun hi => write_apart i y x v hi this.symm⟩

/-- C87, the part that holds (1): an image made from an array, or by rebin, congrid, rotate, shift, hot pixel cleaning,
arithmetic, or as a copy with dark or flat correction, is for ever independent of the images that existed before. -/
theorem C87_new_partial (es : List Edit) (o : Op) (hin : o.inPlace = false) (hs : o.samePixels = false) (n : Nat)
    (hn : Answers es o n) (k : Nat) (hk : k ∈ (runEdits es).images) : Independent (es ++ [.call o]) k n := by
  have hv := runEdits_valid es
  have hk' := hv.2 k hk
  unfold Answers at hn
  have hn' := hn
  rw [runEdits_snoc] at hn
  have hex := exec_of_images hn
  have hap := new_apart hv hin hs hex hk'
  refine independent_of_apart (lt_of_lt_of_le hk' (runEdits_size es _)) ?_ ?_
  · refine (runEdits_valid _).2 n ?_
    rw [hn']
    simp
  · rw [runEdits_snoc]
    exact hap

/-- C87, the part that holds (2): a dark, flat or IFOV correction or an occulter mask makes the image it is called on
independent of all other images existing then, even of those it was copied from or to. -/
theorem C87_corrected_partial (es : List Edit) (o : Op) (hc : o.correctsPixels = true) (hok : Succeeds (runEdits es) o)
    (r : Nat) (hr : o.CalledOn (runEdits es) r) (k : Nat) (hk : k ∈ (runEdits es).images) (hkr : k ≠ r) :
    Independent (es ++ [.call o]) k r := by
  have hv := runEdits_valid es
  have hk' := hv.2 k hk
  have hr' : r < (runEdits es).heap.objs.size := by
    obtain ⟨i, -, hi⟩ := hr
    exact hv.2 r (List.mem_of_getElem? hi)
  refine independent_of_apart (lt_of_lt_of_le hk' (runEdits_size es _)) (lt_of_lt_of_le hr' (runEdits_size es _)) ?_
  rw [runEdits_snoc]
  exact corrected_apart hv hc hr hok hk' hkr

/-- Independence, once reached, is kept. -/
theorem C87_independence_kept (es es' : List Edit) (a b : Nat) (h : Independent es a b) : Independent (es ++ es') a b := by
  intro l i y x v
  rw [List.append_assoc es es' l]
  exact h (es' ++ l) i y x v

/-- C87, what happens otherwise: a plain copy and the result of `demodulate` have the pixels of the image they come from,
and every write to one is a write to the other, until the pixels of one of the two are corrected in place. -/
theorem C87_copies_stay_equal (es : List Edit) (o : Op) (hs : o.samePixels = true) (n : Nat) (hn : Answers es o n)
    (k : Nat) (hk : o.CalledOn (runEdits es) k) (es' : List Edit)
    (hno : ∀ pre o' post, es' = pre ++ .call o' :: post → o'.correctsPixels = true →
      ¬ o'.CalledOn (runEdits (es ++ [.call o] ++ pre)) k ∧ ¬ o'.CalledOn (runEdits (es ++ [.call o] ++ pre)) n) :
    (runEdits (es ++ [.call o] ++ es')).data n = (runEdits (es ++ [.call o] ++ es')).data k := by
  have hv := runEdits_valid es
  have hn' := hn
  unfold Answers at hn
  rw [runEdits_snoc] at hn
  have hex := exec_of_images hn
  have hsame : arr (runEdits (es ++ [.call o])) k = arr (runEdits (es ++ [.call o])) n := by
    rw [runEdits_snoc]
    exact new_same hv hs hex hk
  have hkl : k < (runEdits (es ++ [.call o])).heap.objs.size := by
    obtain ⟨i, -, hi⟩ := hk
    exact lt_of_lt_of_le (hv.2 k (List.mem_of_getElem? hi)) (runEdits_size es _)
  have hnl : n < (runEdits (es ++ [.call o])).heap.objs.size := by
    refine (runEdits_valid _).2 n ?_
    unfold Answers at hn'
    rw [hn']
    simp
  have : arr (runEdits (es ++ [.call o] ++ es')) k = arr (runEdits (es ++ [.call o] ++ es')) n := by
    induction es' using List.reverseRecOn with
    | nil => rw [List.append_nil]; exact hsame
    | append_singleton l e ih =>
      rw [← List.append_assoc, runEdits_snoc]
      refine same_step (runEdits_valid _) e (lt_of_lt_of_le hkl (runEdits_size _ l)) (lt_of_lt_of_le hnl (runEdits_size _ l))
        (ih fun pre o' post he => hno pre o' (post ++ [e]) (by rw [he]; simp)) ?_
      rintro o' rfl hc
      exact hno l o' [] rfl hc
  show (runEdits (es ++ [.call o] ++ es')).heap.datas.cell (arr _ n) = (runEdits (es ++ [.call o] ++ es')).heap.datas.cell (arr _ k)
  rw [this]

/-- C87, I, Q and U: a write leaves them as they are (`C87_write`), but the next successful rebin, shift, hot pixel cleaning,
arithmetic operation or dark, flat or IFOV correction computes them from the pixels as they are then. -/
theorem C87_refreshed (es : List Edit) (o : Op) (ho : o.recomputes = true) (hok : Succeeds (runEdits es) o) (k : Nat)
    (hk : o.CalledOn (runEdits es) k) (hd : (runEdits es).isDemosaiced k = false) (n : Nat)
    (hn : if o.inPlace then n = k else Answers es o n) :
    dataStokes ((runEdits (es ++ [.call o])).data n) ((runEdits (es ++ [.call o])).dic n) =
      .ok ((runEdits (es ++ [.call o])).stokes n) := by
  have hv := runEdits_valid es
  unfold Answers at hn
  rw [runEdits_snoc] at hn ⊢
  generalize runEdits es = s at *
  obtain ⟨i, hsrc, hi⟩ := hk
  obtain ⟨a, ha⟩ := hok
  show dataStokes ((step s o).heap.view n).data ((step s o).heap.view n).dic = .ok ((step s o).heap.view n).stokes.planes
  have hfresh : (o.value s (s.heap.view k)).1 = .ok () → TheoV (o.value s (s.heap.view k)).2 := value_fresh ho hd
  cases hin : o.inPlace with
  | true =>
    rw [hin, if_pos rfl] at hn
    subst hn
    obtain ⟨h1, h2⟩ := exec_place_value hsrc hi hin
    rw [step_heap, h2]
    refine (hfresh ?_).2
    rw [ha] at h1
    cases hx : (o.value s (s.heap.view n)).1 with
    | ok u => rfl
    | error e => rw [hx] at h1; cases h1
  | false =>
    rw [hin, if_neg (by decide)] at hn
    have hex := exec_of_images hn
    rw [returned_value hv hex hsrc hi]
    refine (hfresh ?_).2
    obtain ⟨h1, -⟩ := exec_new_value hv hsrc hi hin
    rw [ha] at h1
    cases hx : (o.value s (s.heap.view k)).1 with
    | ok u => rfl
    | error e => rw [hx] at h1; cases h1

/-- C35: after any session (writes included), dark subtraction from an image that is not demosaiced leaves I, Q and U computed
from the new pixels: half the sum of the superpixel and the differences of the pixels behind crossed polarizers. -/
theorem C35_stokes (es : List Edit) (i j k : Nat) (hk : (runEdits es).images[i]? = some k)
    (hok : Succeeds (runEdits es) (.subtractDark i j)) (hd : (runEdits es).isDemosaiced k = false) (L : Layout)
    (hL : L.Describes ((runEdits (es ++ [.call (.subtractDark i j)])).dic k)) :
    let d := (runEdits (es ++ [.call (.subtractDark i j)])).data k
    let S := (runEdits (es ++ [.call (.subtractDark i j)])).stokes k
    (∀ q, (S q).h = d.h / 2 ∧ (S q).w = d.w / 2) ∧
      ∀ y x, y < d.h / 2 → x < d.w / 2 →
        let v (q : Fin 4) := d.px (2 * y + q.val / 2) (2 * x + q.val % 2)
        (S 0).px y x = (v 0 + v 1 + v 2 + v 3) / 2 ∧
        (S 1).px y x = v L.p0 - v L.p90 ∧
        (S 2).px y x = v L.p45 - v L.pm45 := by
  have h := C87_refreshed es (.subtractDark i j) rfl hok k ⟨i, rfl, hk⟩ hd k rfl
  obtain ⟨hh, hw⟩ := dataStokes_even h
  obtain ⟨S, h1, h2, h3⟩ := C17_stokes _ hh hw L _ hL
  rw [h] at h1
  injection h1 with h1
  rw [h1]
  exact ⟨h2, h3⟩

/-! ## The example: an image, its copy, and a write -/

theorem runEdits_calls (ops : List Op) : runEdits (ops.map .call) = runOps ops := by
  unfold runEdits runOps
  rw [List.foldl_map]
  rfl

/-- The session `img = MicropolImage(darkBright)`. -/
noncomputable abbrev firstImage : List Edit := [.call (.fromArray darkBright none none none fun _ _ => 0)]

/-- `copy = MicropolImage(img)`. -/
noncomputable abbrev plainCopy : Op := .fromImage 0 none none none fun _ _ => 0

theorem firstImage_run : ∃ S, dataStokes darkBright polarCamAngles = .ok S ∧ (S 0).px 0 0 = 0 ∧
    runEdits firstImage = ⟨arrayHeap darkBright S none initState.heap, [0]⟩ := by
  obtain ⟨S, h1, h2, h3, h4, h5⟩ := darkBright_run
  exact ⟨S, h1, h3, (runEdits_calls [_]).trans h5⟩

theorem firstImage_view : ∃ S, dataStokes darkBright polarCamAngles = .ok S ∧ (S 0).px 0 0 = 0 ∧
    (runEdits firstImage).images = [0] ∧ (runEdits firstImage).data 0 = darkBright ∧ (runEdits firstImage).stokes 0 = S ∧
    (runEdits firstImage).dic 0 = polarCamAngles ∧ (runEdits firstImage).isDemosaiced 0 = false := by
  obtain ⟨S, h1, h2, h3⟩ := firstImage_run
  have hview : (runEdits firstImage).heap.view 0 = freshView darkBright S polarCamAngles := by
    rw [h3]
    exact arrayHeap_view darkBright S none initState.heap
  exact ⟨S, h1, h2, by rw [h3], congrArg ImgView.data hview, congrArg (fun v => v.stokes.planes) hview,
    congrArg ImgView.dic hview, congrArg ImgView.isDemosaiced hview⟩

theorem plainCopy_answers : Answers firstImage plainCopy 1 := by
  obtain ⟨S, h1, h2, h3⟩ := firstImage_run
  unfold Answers
  rw [runEdits_snoc, h3]
  show (step _ _).images = _
  rw [step_fromImage (k := 0) rfl]
  rfl

/-- C87 as stated does not hold: there is a session after which two images are not independent. -/
theorem C87_full_claim_false : ¬ ∀ (es : List Edit) (k n : Nat), k ∈ (runEdits es).images → n ∈ (runEdits es).images →
    k ≠ n → Independent es k n := by
  intro h
  obtain ⟨S, -, -, him, hd, -⟩ := firstImage_view
  have hans := plainCopy_answers
  have hans' := hans
  unfold Answers at hans'
  rw [him] at hans'
  have hind := h (firstImage ++ [.call plainCopy]) 0 1 (by rw [hans']; simp) (by rw [hans']; simp) (by decide)
  have h0 := (hind [] 0 0 0 5).1 (by rw [List.append_nil, hans']; rfl)
  rw [List.append_nil] at h0
  have hcalled : plainCopy.CalledOn (runEdits firstImage) 0 := ⟨0, rfl, by rw [him]; rfl⟩
  have e1 := C87_copies_stay_equal firstImage plainCopy rfl 1 hans 0 hcalled [] (by
    intro pre o post he
    have := congrArg List.length he
    simp at this)
  rw [List.append_nil] at e1
  have e2 := C87_copies_stay_equal firstImage plainCopy rfl 1 hans 0 hcalled [.write 0 0 0 5] (by
    intro pre o post he
    cases pre with
    | nil => cases he
    | cons a l => cases l <;> cases he)
  have hk0 : (runEdits (firstImage ++ [.call plainCopy])).data 0 = darkBright :=
    (C87_calls firstImage plainCopy 0 (by rw [him]; simp) fun h => by cases h.1).trans hd
  have hw := (C87_write (firstImage ++ [.call plainCopy]) 0 0 (by rw [hans']; rfl) 0 0 5).1
    (by rw [hk0]; decide)
  have e3 : (runEdits (firstImage ++ [.call plainCopy] ++ [.write 0 0 0 5])).data 0 = darkBright := by
    rw [← e2, h0, e1, hk0]
  rw [e3, hk0] at hw
  obtain ⟨-, -, j, l, hj, hl, hj', hl', hpx, -⟩ := hw
  have : darkBright.h = 2 := rfl
  have : darkBright.w = 4 := rfl
  obtain rfl : j = 0 := by omega
  obtain rfl : l = 0 := by omega
  simp [darkBright, Img.ofFn_px] at hpx

/-- C87: I, Q and U do not follow a write: there is a session of one construction and one write after which they are not those
of the pixels. -/
theorem C87_stale : ∃ (es : List Edit) (k : Nat), k ∈ (runEdits es).images ∧ (runEdits es).isDemosaiced k = false ∧
    dataStokes ((runEdits es).data k) ((runEdits es).dic k) ≠ .ok ((runEdits es).stokes k) := by
  obtain ⟨S, hS, h0, him, hd, hst, hdic, hdem⟩ := firstImage_view
  obtain ⟨w1, -, w3, w4, -⟩ := C87_write firstImage 0 0 (by rw [him]; rfl) 0 0 5
  obtain ⟨s1, -, s3, s4⟩ := w4 0
  have hw := w1 (by rw [hd]; decide)
  refine ⟨firstImage ++ [.write 0 0 0 5], 0, by rw [w3, him]; simp, by rw [s4, hdem], ?_⟩
  rw [s1, s3, hst, hdic]
  generalize (runEdits (firstImage ++ [.write 0 0 0 5])).data 0 = B at *
  rw [hd] at hw
  obtain ⟨hBh, hBw, j, l, hj, hl, hj', hl', hpx, hother⟩ := hw
  have hh : darkBright.h = 2 := rfl
  have hww : darkBright.w = 4 := rfl
  obtain rfl : j = 0 := by omega
  obtain rfl : l = 0 := by omega
  obtain ⟨S', h1, -, h3⟩ := C17_stokes B (by rw [hBh]; rfl) (by rw [hBw]; rfl) ⟨0, 1, 2, 3⟩ polarCamAngles C02_polarCam.1
  rw [h1]
  intro hq
  injection hq with hq
  have := (h3 0 0 (by rw [hBh, hh]; decide) (by rw [hBw, hww]; decide)).1
  rw [hq, h0] at this
  have g : ∀ a b, a < 2 → b < 2 → (a ≠ 0 ∨ b ≠ 0) → B.px a b = 0 := by
    intro a b ha hb hab
    rw [hother a b (by omega) (by omega) hab]
    unfold darkBright
    rw [Img.ofFn_px ha (by omega), if_pos hb]
  have h01 := g 0 1 (by decide) (by decide) (by decide)
  have h10 := g 1 0 (by decide) (by decide) (by decide)
  have h11 := g 1 1 (by decide) (by decide) (by decide)
  change (0 : ℝ) = (B.px 0 0 + B.px 0 1 + B.px 1 0 + B.px 1 1) / 2 at this
  rw [hpx, h01, h10, h11] at this
  norm_num at this

/-! ## The hypotheses are met -/

/-- A write inside an image, through negative indices. -/
example : ∃ (es : List Edit) (i k : Nat), (runEdits es).images[i]? = some k ∧
    IsEdit ((runEdits es).data k) ((runEdits (es ++ [.write i (-1) (-4) 7])).data k) (-1) (-4) 7 := by
  obtain ⟨S, hS, h0, him, hd, -⟩ := firstImage_view
  refine ⟨firstImage, 0, 0, by rw [him]; rfl, ?_⟩
  exact (C87_write firstImage 0 0 (by rw [him]; rfl) (-1) (-4) 7).1 (by rw [hd]; decide)

/-- A second image from an array. -/
example : ∃ (es : List Edit) (o : Op) (n k : Nat), o.inPlace = false ∧ o.samePixels = false ∧ Answers es o n ∧
    k ∈ (runEdits es).images := by
  obtain ⟨S, h1, h2, h3⟩ := firstImage_run
  refine ⟨firstImage, .fromArray darkBright none none none fun _ _ => 0, 1, 0, rfl, rfl, ?_, by rw [h3]; simp⟩
  unfold Answers
  rw [runEdits_snoc, h3]
  show (step _ _).images = _
  rw [step_fromArray (S := S) _ _ _ h1]
  rfl

/-- A copy that is then dark corrected, with the first image as dark. -/
example : ∃ (es : List Edit) (o : Op) (k r : Nat), o.correctsPixels = true ∧ o.recomputes = true ∧
    Succeeds (runEdits es) o ∧ o.CalledOn (runEdits es) r ∧ k ∈ (runEdits es).images ∧ k ≠ r ∧
    (runEdits es).isDemosaiced r = false := by
  obtain ⟨S, hS, -, hrun⟩ := firstImage_run
  have hrun2 : runEdits (firstImage ++ [.call plainCopy]) =
      ⟨copyHeap 0 none (arrayHeap darkBright S none initState.heap), [0, 1]⟩ := by
    rw [runEdits_snoc, hrun]
    exact step_fromImage (s := ⟨arrayHeap darkBright S none initState.heap, [0]⟩) (i := 0) (k := 0) rfl none (fun _ _ => 0)
  have hview : (runEdits (firstImage ++ [.call plainCopy])).heap.view 1 = freshView darkBright S polarCamAngles := by
    rw [hrun2]
    exact (copyHeap_view_new 0 none (arrayHeap darkBright S none initState.heap)).trans
      (arrayHeap_view darkBright S none initState.heap)
  have hview0 : (runEdits (firstImage ++ [.call plainCopy])).heap.view 0 = freshView darkBright S polarCamAngles := by
    rw [hrun2]
    exact (copyHeap_view_old 0 none (arrayHeap darkBright S none initState.heap) (Nat.zero_lt_one)).trans
      (arrayHeap_view darkBright S none initState.heap)
  have h0 : (runEdits (firstImage ++ [.call plainCopy])).images[0]? = some 0 := by rw [hrun2]; rfl
  have h1 : (runEdits (firstImage ++ [.call plainCopy])).images[1]? = some 1 := by rw [hrun2]; rfl
  refine ⟨firstImage ++ [Edit.call plainCopy], .subtractDark 1 0, 0, 1, rfl, rfl, ?_, ⟨1, rfl, h1⟩, List.mem_of_getElem? h0,
    by decide, congrArg ImgView.isDemosaiced hview⟩
  have hp := (exec_place_value (o := .subtractDark 1 0) rfl h1 rfl).1
  have hval : (Op.value (runEdits (firstImage ++ [.call plainCopy])) (.subtractDark 1 0)
      ((runEdits (firstImage ++ [.call plainCopy])).heap.view 1)).1 = .ok () := by
    show (secondV _ 0 _ _).1 = _
    unfold secondV
    rw [h0]
    dsimp only
    rw [hview, show (runEdits (firstImage ++ [.call plainCopy])).heap.dataOf 0 = darkBright from congrArg ImgView.data hview0]
    obtain ⟨r, hr, hsh, -⟩ := C35_dark darkBright darkBright ⟨rfl, rfl⟩
    unfold subtractDarkV withVal
    rw [show (freshView darkBright S polarCamAngles).data = darkBright from rfl, hr]
    dsimp only
    have hu := updateData_theo (v := freshView darkBright S polarCamAngles) (d := r) ⟨rfl, hS⟩
      ⟨by rw [hsh.1]; rfl, by rw [hsh.2]; rfl⟩
    unfold andThen
    split
    · rfl
    · rename_i e v he
      rw [he] at hu
      cases hu
  rw [hval] at hp
  exact ⟨_, hp⟩

end Micropol
