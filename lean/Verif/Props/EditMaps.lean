import Verif.Lemmas.EditMaps
import Verif.Props.Edit
import Verif.Props.Polarization

/-!
# C108: writing into I, Q and U

Sessions of calls, of writes `image.data[y, x] = v` and of writes `image.I.data[y, x] = v` (also `Q`, `U`).
-/

set_option autoImplicit false

namespace Micropol

open Classical

/-- C108: after any session, `image.I.data[y, x] = v` (or `Q`, `U`) sets that value of that map of the image and nothing else
of it; outside the map it changes nothing at all.  It changes the pixels, header, dictionary and state of no image.  Another
image either keeps its maps, or had the same maps before and has the same afterwards. -/
theorem C108_write (es : List Edit) (i k : Nat) (hi : (runEdits es).images[i]? = some k) (p : Fin 3) (y x : Int) (v : ℝ) :
    let s := runEdits es
    let t := runEdits (es ++ [.writeMap i p y x v])
    let inside := -((s.stokes k p).h : Int) ≤ y ∧ y < (s.stokes k p).h ∧ -((s.stokes k p).w : Int) ≤ x ∧ x < (s.stokes k p).w
    (inside → IsEdit (s.stokes k p) (t.stokes k p) y x v ∧ ∀ q, q ≠ p → t.stokes k q = s.stokes k q) ∧
    (¬ inside → t = s) ∧
    t.images = s.images ∧
    (∀ n, t.data n = s.data n ∧ t.header n = s.header n ∧ t.dic n = s.dic n ∧ t.isDemosaiced n = s.isDemosaiced n) ∧
    ∀ n, t.stokes n = s.stokes n ∨ (s.stokes n = s.stokes k ∧ t.stokes n = t.stokes k) := by
  intro s t inside
  have ht : t = editStep s (.writeMap i p y x v) := runEdits_snoc es _
  refine ⟨?_, ?_, ?_, ?_, ?_⟩
  · rintro ⟨h1, h2, h3, h4⟩
    obtain ⟨j, hj⟩ := resolve_in h1 h2
    obtain ⟨l, hl⟩ := resolve_in h3 h4
    rcases writeMap_cases s i p y x v with ⟨k', j', l', hk', hj', hl', e⟩ | ⟨-, e⟩
    · have : k' = k := Option.some.inj (hk'.symm.trans hi)
      subst this
      have : j' = j := Option.some.inj (hj'.symm.trans hj)
      subst this
      have : l' = l := Option.some.inj (hl'.symm.trans hl)
      subst this
      have hd : t.stokes k' = fun q => if q = p then (s.stokes k' p).setPx j' l' v else s.stokes k' q := by
        rw [ht, e]
        exact congrArg StokesVec.planes Store.set_same
      rw [hd]
      refine ⟨?_, fun q hq => if_neg hq⟩
      dsimp only
      rw [if_pos rfl]
      exact setPx_edit _ v hj' hl'
    · rcases e k hi with e | e
      · rw [hj] at e; cases e
      · rw [hl] at e; cases e
  · intro hc
    rw [ht]
    rcases writeMap_cases s i p y x v with ⟨k', j, l, hk', hj, hl, -⟩ | ⟨e, -⟩
    · have : k' = k := Option.some.inj (hk'.symm.trans hi)
      subst this
      exfalso
      obtain ⟨a1, a2⟩ := resolve_some hj
      obtain ⟨b1, b2⟩ := resolve_some hl
      exact hc (by show _ ∧ _; omega)
    · exact e
  · rw [ht]; rfl
  · intro n
    obtain ⟨h1, h2, h3, -⟩ := writeMap_objs s i p y x v
    rw [ht]
    unfold State.data State.header State.dic State.isDemosaiced Heap.dataOf Heap.headerOf Heap.dicOf
    rw [h1, h2, h3]
    exact ⟨rfl, rfl, rfl, rfl⟩
  · intro n
    rw [ht]
    by_cases h : maps s k = maps s n
    · refine Or.inr ⟨?_, writeMap_same i p y x v h⟩
      show (s.heap.stokes.cell (maps s n)).planes = (s.heap.stokes.cell (maps s k)).planes
      rw [h]
    · exact Or.inl (writeMap_apart i p y x v hi h)

/-- C108: pB, AoLP and DoLP follow the write at the place written, with the other two maps as they were, and are as before
everywhere else. -/
theorem C108_polarization (es : List Edit) (i k : Nat) (hi : (runEdits es).images[i]? = some k) (p : Fin 3) (y x : Int) (v : ℝ)
    (hsh : SameShape ((runEdits es).stokes k))
    (hin : -(((runEdits es).stokes k 0).h : Int) ≤ y ∧ y < ((runEdits es).stokes k 0).h ∧
      -(((runEdits es).stokes k 0).w : Int) ≤ x ∧ x < ((runEdits es).stokes k 0).w) :
    let S := (runEdits es).stokes k
    let T := (runEdits (es ++ [.writeMap i p y x v])).stokes k
    ∃ j l : Nat, j < (S 0).h ∧ l < (S 0).w ∧ ((j : Int) = y ∨ (j : Int) = y + (S 0).h) ∧
      ((l : Int) = x ∨ (l : Int) = x + (S 0).w) ∧
      (let I := if p = 0 then v else (S 0).px j l
       let Q := if p = 1 then v else (S 1).px j l
       let U := if p = 2 then v else (S 2).px j l
       (pB T).px j l = Real.sqrt (Q ^ 2 + U ^ 2) ∧ (AoLP T).px j l = Complex.arg ⟨Q, U⟩ / 2 ∧
       ∃ D, DoLP T = .ok D ∧ D.px j l = if I = 0 then 0 else Real.sqrt (Q ^ 2 + U ^ 2) / I) ∧
      ∀ j' l', j' < (S 0).h → l' < (S 0).w → (j' ≠ j ∨ l' ≠ l) →
        (pB T).px j' l' = (pB S).px j' l' ∧ (AoLP T).px j' l' = (AoLP S).px j' l' ∧
        ∃ D D', DoLP S = .ok D ∧ DoLP T = .ok D' ∧ D'.px j' l' = D.px j' l' := by
  intro S T
  have hS : SameShape S := hsh
  obtain ⟨hw, -⟩ := C108_write es i k hi p y x v
  obtain ⟨⟨eh, ew, j, l, hj, hl, hjy, hlx, hv, hrest⟩, hother⟩ := hw (by rw [(hsh p).1, (hsh p).2]; exact hin)
  rw [(hsh p).1] at hj hjy hrest
  rw [(hsh p).2] at hl hlx hrest
  have hq : ∀ q, (T q).h = (S 0).h ∧ (T q).w = (S 0).w := by
    intro q
    by_cases h : q = p
    · subst h
      exact ⟨eh.trans (hS q).1, ew.trans (hS q).2⟩
    · have : T q = S q := hother q h
      rw [this]
      exact hS q
  have hT : SameShape T := fun q => ⟨(hq q).1.trans (hq 0).1.symm, (hq q).2.trans (hq 0).2.symm⟩
  have at_ : ∀ q, (T q).px j l = if p = q then v else (S q).px j l := by
    intro q
    by_cases h : p = q
    · rw [if_pos h, ← h]
      exact hv
    · rw [if_neg h]
      have : T q = S q := hother q (Ne.symm h)
      rw [this]
  have off : ∀ q j' l', j' < (S 0).h → l' < (S 0).w → (j' ≠ j ∨ l' ≠ l) → (T q).px j' l' = (S q).px j' l' := by
    intro q j' l' h1 h2 h3
    by_cases h : q = p
    · subst h
      exact hrest j' l' h1 h2 h3
    · have : T q = S q := hother q h
      rw [this]
  have hjT : j < (T 0).h := by rw [(hq 0).1]; exact hj
  have hlT : l < (T 0).w := by rw [(hq 0).2]; exact hl
  obtain ⟨D, hD, -, -, hDp⟩ := C19_total S hS
  obtain ⟨D', hD', -, -, hDp'⟩ := C19_total T hT
  refine ⟨j, l, hj, hl, hjy, hlx, ?_, ?_⟩
  · dsimp only
    have e0 := at_ 0
    have e1 := at_ 1
    have e2 := at_ 2
    have hpB : (pB T).px j l = Real.sqrt ((if p = 1 then v else (S 1).px j l) ^ 2 + (if p = 2 then v else (S 2).px j l) ^ 2) := by
      rw [pB_px hT hjT hlT, e1, e2, pow_two, pow_two]
    refine ⟨hpB, by rw [AoLP_px hT hjT hlT, e1, e2], D', hD', ?_⟩
    obtain ⟨d0, d1⟩ := hDp' j l hjT hlT
    rw [← e0, ← hpB]
    by_cases h0 : (T 0).px j l = 0
    · rw [if_pos h0, d0 h0]
    · rw [if_neg h0, d1 h0]
  · intro j' l' h1 h2 h3
    have h1T : j' < (T 0).h := by rw [(hq 0).1]; exact h1
    have h2T : l' < (T 0).w := by rw [(hq 0).2]; exact h2
    have e : ∀ q, (T q).px j' l' = (S q).px j' l' := fun q => off q j' l' h1 h2 h3
    have hpB : (pB T).px j' l' = (pB S).px j' l' := by rw [pB_px hT h1T h2T, pB_px hS h1 h2, e, e]
    refine ⟨hpB, by rw [AoLP_px hT h1T h2T, AoLP_px hS h1 h2, e, e], D, D', hD, hD', ?_⟩
    obtain ⟨d0, d1⟩ := hDp j' l' h1 h2
    obtain ⟨d0', d1'⟩ := hDp' j' l' h1T h2T
    by_cases h0 : (S 0).px j' l' = 0
    · rw [d0 h0, d0' (by rw [e, h0])]
    · rw [d1 h0, d1' (by rw [e]; exact h0), hpB, e]

/-- C41 in sessions with writes: a call other than `rotate` and `mask_occulter` changes the maps of no image, except of the one
an in place operation is called on. -/
theorem C108_calls (es : List Edit) (o : Op) (hrot : ∀ i rot, o ≠ .rotate i rot)
    (hmask : ∀ i y x r over fill, o ≠ .maskOcculter i y x r over fill) (k : Nat) (hk : k ∈ (runEdits es).images)
    (hno : ¬ (o.inPlace = true ∧ o.CalledOn (runEdits es) k)) :
    (runEdits (es ++ [.call o])).stokes k = (runEdits es).stokes k := by
  rw [runEdits_snoc]
  rcases step_view_old (runEdits_valid es) o ((runEdits_valid es).2 k hk) hno with h | ⟨hw, -⟩
  · exact congrArg (fun v => v.stokes.planes) h
  · cases o with
    | rotate i rot => exact absurd rfl (hrot i rot)
    | maskOcculter i y x r over fill => exact absurd rfl (hmask i y x r over fill)
    | _ => cases hw

theorem independentMaps_of_apart {es : List Edit} {k n : Nat} (hk : k < (runEdits es).heap.objs.size)
    (hn : n < (runEdits es).heap.objs.size) (h : maps (runEdits es) k ≠ maps (runEdits es) n) : IndependentMaps es k n := by
  intro es' i p y x v
  have := mapsApart_run es es' hk hn h
  rw [runEdits_snoc]
  exact ⟨fun hi => writeMap_apart i p y x v hi this, fun hi => writeMap_apart i p y x v hi this.symm⟩

/-- C108, the part that holds (1): an image made from an array, or by rebin, congrid, demodulate, shift, hot pixel cleaning,
arithmetic, or as a copy with dark or flat correction, has maps that are for ever independent of those of the images that
existed before. -/
theorem C108_new_partial (es : List Edit) (o : Op) (hin : o.inPlace = false) (hs : o.sharesMaps = false) (n : Nat)
    (hn : Answers es o n) (k : Nat) (hk : k ∈ (runEdits es).images) : IndependentMaps (es ++ [.call o]) k n := by
  have hv := runEdits_valid es
  have hk' := hv.2 k hk
  unfold Answers at hn
  have hn' := hn
  rw [runEdits_snoc] at hn
  have hex := exec_of_images hn
  have hap := newMaps_apart hv hin hs hex hk'
  refine independentMaps_of_apart (lt_of_lt_of_le hk' (runEdits_size es _)) ?_ ?_
  · refine (runEdits_valid _).2 n ?_
    rw [hn']
    simp
  · rw [runEdits_snoc]
    exact hap

/-- C108, the part that holds (2): demosaicing and a dark, flat or IFOV correction make the maps of the image they are called
on independent of those of all other images existing then, even of those it was copied or rotated from or to. -/
theorem C108_renewed_partial (es : List Edit) (o : Op) (hc : o.renewsMaps = true) (hok : Succeeds (runEdits es) o)
    (r : Nat) (hr : o.CalledOn (runEdits es) r) (k : Nat) (hk : k ∈ (runEdits es).images) (hkr : k ≠ r) :
    IndependentMaps (es ++ [.call o]) k r := by
  have hv := runEdits_valid es
  have hk' := hv.2 k hk
  have hr' : r < (runEdits es).heap.objs.size := by
    obtain ⟨i, -, hi⟩ := hr
    exact hv.2 r (List.mem_of_getElem? hi)
  refine independentMaps_of_apart (lt_of_lt_of_le hk' (runEdits_size es _)) (lt_of_lt_of_le hr' (runEdits_size es _)) ?_
  rw [runEdits_snoc]
  exact renewed_apart hv hc hr hok hk' hkr

/-- Independence, once reached, is kept. -/
theorem C108_independence_kept (es es' : List Edit) (a b : Nat) (h : IndependentMaps es a b) :
    IndependentMaps (es ++ es') a b := by
  intro l i p y x v
  rw [List.append_assoc es es' l]
  exact h (es' ++ l) i p y x v

/-- C108, what happens otherwise: a plain copy and the result of `rotate` have the maps of the image they come from, and every
write into a map of one is a write into that of the other, until one of the two is demosaiced or corrected in place. -/
theorem C108_shared_stay_equal (es : List Edit) (o : Op) (hs : o.sharesMaps = true) (n : Nat) (hn : Answers es o n)
    (k : Nat) (hk : o.CalledOn (runEdits es) k) (es' : List Edit)
    (hno : ∀ pre o' post, es' = pre ++ .call o' :: post → o'.renewsMaps = true →
      ¬ o'.CalledOn (runEdits (es ++ [.call o] ++ pre)) k ∧ ¬ o'.CalledOn (runEdits (es ++ [.call o] ++ pre)) n) :
    (runEdits (es ++ [.call o] ++ es')).stokes n = (runEdits (es ++ [.call o] ++ es')).stokes k := by
  have hv := runEdits_valid es
  have hn' := hn
  unfold Answers at hn
  rw [runEdits_snoc] at hn
  have hex := exec_of_images hn
  have hsame : maps (runEdits (es ++ [.call o])) k = maps (runEdits (es ++ [.call o])) n := by
    rw [runEdits_snoc]
    exact newMaps_same hv hs hex hk
  have hkl : k < (runEdits (es ++ [.call o])).heap.objs.size := by
    obtain ⟨i, -, hi⟩ := hk
    exact lt_of_lt_of_le (hv.2 k (List.mem_of_getElem? hi)) (runEdits_size es _)
  have hnl : n < (runEdits (es ++ [.call o])).heap.objs.size := by
    refine (runEdits_valid _).2 n ?_
    unfold Answers at hn'
    rw [hn']
    simp
  have : maps (runEdits (es ++ [.call o] ++ es')) k = maps (runEdits (es ++ [.call o] ++ es')) n := by
    induction es' using List.reverseRecOn with
    | nil => rw [List.append_nil]; exact hsame
    | append_singleton l e ih =>
      rw [← List.append_assoc, runEdits_snoc]
      refine mapsSame_step (runEdits_valid _) e (lt_of_lt_of_le hkl (runEdits_size _ l))
        (lt_of_lt_of_le hnl (runEdits_size _ l)) (ih fun pre o' post he => hno pre o' (post ++ [e]) (by rw [he]; simp)) ?_
      rintro o' rfl hc
      exact hno l o' [] rfl hc
  show ((runEdits (es ++ [.call o] ++ es')).heap.stokes.cell (maps _ n)).planes =
    ((runEdits (es ++ [.call o] ++ es')).heap.stokes.cell (maps _ k)).planes
  rw [this]

/-- C108 as stated does not hold: there is a session after which the maps of two images are not independent. -/
theorem C108_full_claim_false : ¬ ∀ (es : List Edit) (k n : Nat), k ∈ (runEdits es).images → n ∈ (runEdits es).images →
    k ≠ n → IndependentMaps es k n := by
  intro h
  obtain ⟨S, hS, h0, him, -, hst, -⟩ := firstImage_view
  obtain ⟨S', hS', hsh, -⟩ := darkBright_stokes
  obtain rfl : S' = S := by rw [hS] at hS'; cases hS'; rfl
  have hans := plainCopy_answers
  have hans' := hans
  unfold Answers at hans'
  rw [him] at hans'
  have hind := h (firstImage ++ [.call plainCopy]) 0 1 (by rw [hans']; simp) (by rw [hans']; simp) (by decide)
  have hw := (hind [] 0 0 0 0 5).1 (by rw [List.append_nil, hans']; rfl)
  rw [List.append_nil] at hw
  have hcalled : plainCopy.CalledOn (runEdits firstImage) 0 := ⟨0, rfl, by rw [him]; rfl⟩
  have e1 := C108_shared_stay_equal firstImage plainCopy rfl 1 hans 0 hcalled [] (by
    intro pre o post he
    have := congrArg List.length he
    simp at this)
  rw [List.append_nil] at e1
  have e2 := C108_shared_stay_equal firstImage plainCopy rfl 1 hans 0 hcalled [.writeMap 0 0 0 0 5] (by
    intro pre o post he
    cases pre with
    | nil => cases he
    | cons a l => cases l <;> cases he)
  have hk0 : (runEdits (firstImage ++ [.call plainCopy])).stokes 0 = S' :=
    (C108_calls firstImage plainCopy (fun _ _ h => by cases h) (fun _ _ _ _ _ _ h => by cases h) 0 (by rw [him]; simp)
      fun h => by cases h.1).trans hst
  have hwr := ((C108_write (firstImage ++ [.call plainCopy]) 0 0 (by rw [hans']; rfl) 0 0 0 5).1
    (by rw [hk0, (hsh 0).1, (hsh 0).2]; decide)).1
  have e3 : (runEdits (firstImage ++ [.call plainCopy] ++ [.writeMap 0 0 0 0 5])).stokes 0 = S' := by
    rw [← e2, hw, e1, hk0]
  rw [e3, hk0] at hwr
  obtain ⟨-, -, j, l, hj, hl, hj', hl', hpx, -⟩ := hwr
  rw [(hsh 0).1] at hj hj'
  rw [(hsh 0).2] at hl hl'
  obtain rfl : j = 0 := by omega
  obtain rfl : l = 0 := by omega
  rw [h0] at hpx
  norm_num at hpx

/-! ## The hypotheses are met -/

/-- A write into the Q map through negative indices. -/
example : ∃ (es : List Edit) (i k : Nat), (runEdits es).images[i]? = some k ∧ SameShape ((runEdits es).stokes k) ∧
    IsEdit ((runEdits es).stokes k 1) ((runEdits (es ++ [.writeMap i 1 (-1) (-2) 7])).stokes k 1) (-1) (-2) 7 := by
  obtain ⟨S, hS, -, him, -, hst, -⟩ := firstImage_view
  obtain ⟨S', hS', hsh, -⟩ := darkBright_stokes
  obtain rfl : S' = S := by rw [hS] at hS'; cases hS'; rfl
  refine ⟨firstImage, 0, 0, by rw [him]; rfl, ?_, ?_⟩
  · rw [hst]
    intro q
    rw [(hsh q).1, (hsh q).2, (hsh 0).1, (hsh 0).2]
    exact ⟨rfl, rfl⟩
  · exact ((C108_write firstImage 0 0 (by rw [him]; rfl) 1 (-1) (-2) 7).1 (by rw [hst, (hsh 1).1, (hsh 1).2]; decide)).1

/-- A second image from an array. -/
example : ∃ (es : List Edit) (o : Op) (n k : Nat), o.inPlace = false ∧ o.sharesMaps = false ∧ Answers es o n ∧
    k ∈ (runEdits es).images := by
  obtain ⟨S, h1, h2, h3⟩ := firstImage_run
  refine ⟨firstImage, .fromArray darkBright none none none fun _ _ => 0, 1, 0, rfl, rfl, ?_, by rw [h3]; simp⟩
  unfold Answers
  rw [runEdits_snoc, h3]
  show (step _ _).images = _
  rw [step_fromArray (S := S) _ _ _ h1]
  rfl

/-- The image rotated by 180°. -/
example : ∃ (es : List Edit) (o : Op) (n k : Nat), o.sharesMaps = true ∧ (∃ i rot, o = .rotate i rot) ∧ Answers es o n ∧
    o.CalledOn (runEdits es) k := by
  obtain ⟨S, h1, h2, h3⟩ := firstImage_run
  have hi : (runEdits firstImage).images[0]? = some 0 := by rw [h3]; rfl
  refine ⟨firstImage, .rotate 0 halfTurn, 1, 0, rfl, ⟨0, halfTurn, rfl⟩, ?_, ⟨0, rfl, hi⟩⟩
  unfold Answers
  rw [runEdits_snoc]
  show (step _ _).images = _
  have hview : (runEdits firstImage).heap.view 0 = freshView darkBright S polarCamAngles := by
    rw [h3]
    exact arrayHeap_view darkBright S none initState.heap
  obtain ⟨r, hr⟩ := rotateData_halfTurn (d := darkBright) rfl rfl
  have hval : (Op.value (runEdits firstImage) (.rotate 0 halfTurn) ((runEdits firstImage).heap.view 0)).1 = .ok () := by
    rw [hview]
    show (rotateV halfTurn (freshView darkBright S polarCamAngles)).1 = _
    unfold rotateV freshView
    dsimp only
    rw [hr]
    unfold withVal rewriteStokesV andThen
    dsimp only
    rw [rewriteV_halfTurn ⟨S, false⟩]
  obtain ⟨e1, -⟩ := exec_new_value (o := .rotate 0 halfTurn) (runEdits_valid firstImage) rfl hi rfl
  rw [hval] at e1
  have hsz : (runEdits firstImage).heap.objs.size = 1 := by rw [h3]; rfl
  rw [hsz] at e1
  unfold step
  cases hx : exec (runEdits firstImage).images (.rotate 0 halfTurn) (runEdits firstImage).heap with
  | mk a h =>
    rw [hx] at e1
    change a = Except.ok (some 1) at e1
    rw [e1]

end Micropol
