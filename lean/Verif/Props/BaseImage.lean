import Verif.Lemmas.BaseImage
import Verif.Spec.Object
import Verif.Props.Shift
import Verif.Props.Rebin
import Verif.Props.Corrections
import Mathlib.Tactic.NormNum

/-!
# C82, C83: sessions with the base class `Image`

C82: images are independent of each other and of the caller's arrays, their headers state their sizes, and every method
returns the documented pixels, computed from the pixels at the time of the call.  (Violated by assignment to `image.data`,
which stores the caller's array itself.)

C83: header keywords belong to one image and stay until they are changed.  (Violated: copies and results have none.)
-/

set_option autoImplicit false

namespace Micropol

noncomputable section

/-! ## Specification -/

/-- Statements that write pixels or keywords, or replace the array of an image. -/
def BaseOp.edits : BaseOp → Prop
  | .assign _ _ | .writeArray _ _ _ _ | .writeImage _ _ _ _ | .setCard _ _ _ => True
  | _ => False

/-- Assignments `image.data = array`. -/
def BaseOp.assigns : BaseOp → Prop
  | .assign _ _ => True
  | _ => False

/-- `B` is `A` with the pixel in row `y`, column `x` (counted from the end when negative) set to `v`. -/
def IsEdit (A B : Img ℝ) (y x : Int) (v : ℝ) : Prop :=
  B.h = A.h ∧ B.w = A.w ∧ ∃ j l : Nat, j < A.h ∧ l < A.w ∧ ((j : Int) = y ∨ (j : Int) = y + A.h) ∧
    ((l : Int) = x ∨ (l : Int) = x + A.w) ∧ B.px j l = v ∧
    ∀ j' l', j' < A.h → l' < A.w → (j' ≠ j ∨ l' ≠ l) → B.px j' l' = A.px j' l'

/-! ## C82 -/

/-- C82: at any point of any session, `NAXIS1`, `NAXIS2`, `height` and `width` state the shape of the pixels. -/
theorem C82_sizes (ops : List BaseOp) (i : Nat) (hi : i < (baseRun ops).count) :
    ((baseRun ops).headerOf i).naxis1 = ((baseRun ops).pixels i).w ∧
    ((baseRun ops).headerOf i).naxis2 = ((baseRun ops).pixels i).h ∧
    (baseRun ops).sizeOf i = (((baseRun ops).pixels i).h, ((baseRun ops).pixels i).w) := (run_fine ops).sizes i hi

/-- C82: constructing, loading, copying, `shift`, `rebin`, the operators, and reading `image.data` change no existing image, and
none of the caller's arrays. -/
theorem C82_others_unchanged (ops : List BaseOp) (o : BaseOp) (ho : ¬ o.edits) :
    (baseRun ops).count ≤ (baseRun (ops ++ [o])).count ∧
    (∀ i, i < (baseRun ops).count → (baseRun (ops ++ [o])).pixels i = (baseRun ops).pixels i ∧
      (baseRun (ops ++ [o])).headerOf i = (baseRun ops).headerOf i) ∧
    ∀ k A, (baseRun ops).array k = some A → (baseRun (ops ++ [o])).array k = some A := by
  rw [baseRun_snoc]
  have f := run_fine ops
  generalize baseRun ops = s at *
  have hm : ∀ {t : BaseState} {A : Img ℝ} {cards : String → Option String}, Made s t A cards →
      s.count ≤ t.count ∧ (∀ i, i < s.count → t.pixels i = s.pixels i ∧ t.headerOf i = s.headerOf i) ∧
      ∀ k A, s.array k = some A → t.array k = some A := by
    intro t A cards m
    refine ⟨?_, fun i hi => ⟨m.oldPixels f hi, m.oldHeader f hi⟩, ?_⟩
    · have := m.count
      unfold BaseState.count
      omega
    · intro k B hk
      unfold BaseState.array at hk ⊢
      rw [m.held]
      cases e : s.held[k]? with
      | none => rw [e] at hk; exact hk
      | some r =>
        rw [e] at hk
        rw [← hk]
        exact congrArg some (m.oldArrays r (f.held r (List.mem_of_getElem? e)))
  have happ : ∀ (l : List Nat) (k r r' : Nat), l[k]? = some r → (l ++ [r'])[k]? = some r := by
    intro l k r r' h
    have hk : k < l.length := by
      by_contra hc
      rw [List.getElem?_eq_none (by omega)] at h
      cases h
    rw [List.getElem?_append_left hk, h]
  rcases step_did s o with h | h
  · rw [h]
    exact ⟨le_rfl, fun i _ => ⟨rfl, rfl⟩, fun k A h => h⟩
  · generalize s.step o = t at h
    cases h with
    | array A =>
      refine ⟨le_rfl, fun i hi => ⟨Store.alloc_old (f.data i hi), rfl⟩, ?_⟩
      intro k B hk
      unfold BaseState.array at hk ⊢
      cases e : s.held[k]? with
      | none => rw [e] at hk; cases hk
      | some r =>
        rw [e] at hk
        dsimp only
        rw [happ _ _ _ _ e, ← hk]
        exact congrArg some (Store.alloc_old (f.held r (List.mem_of_getElem? e)))
    | take i hi =>
      refine ⟨le_rfl, fun i hi => ⟨rfl, rfl⟩, ?_⟩
      intro k B hk
      unfold BaseState.array at hk ⊢
      cases e : s.held[k]? with
      | none => rw [e] at hk; cases hk
      | some r =>
        rw [e] at hk
        dsimp only
        rw [happ _ _ _ _ e]
        exact hk
    | assign i k r hi hr => exact absurd trivial ho
    | writeArray k r y x v j l hr hj hl => exact absurd trivial ho
    | writeImage i y x v j l hi hj hl => exact absurd trivial ho
    | setCard i key value hi => exact absurd trivial ho
    | load A cards t h => exact hm h
    | fromArray k r t hr h => exact hm h
    | fromImage i t hi h => exact hm h
    | shift i y x m t d hi hd h => exact hm h
    | rebin i b t d hi hd h => exact hm h
    | arithImage op i j junk t d hi hj hd h => exact hm h
    | arithNumber op i c junk t d hi hd h => exact hm h

theorem resolve_some {n : Nat} {y : Int} {j : Nat} (h : Img.resolve n y = some j) :
    j < n ∧ ((j : Int) = y ∨ (j : Int) = y + n) := by
  unfold Img.resolve at h
  split at h
  · split at h
    · cases h
      omega
    · cases h
  · split at h
    · cases h
      omega
    · cases h

theorem setPx_edit (A : Img ℝ) {y x : Int} {j l : Nat} (v : ℝ) (hj : Img.resolve A.h y = some j)
    (hl : Img.resolve A.w x = some l) : IsEdit A (A.setPx j l v) y x v := by
  obtain ⟨h1, h2⟩ := resolve_some hj
  obtain ⟨h3, h4⟩ := resolve_some hl
  refine ⟨rfl, rfl, j, l, h1, h3, h2, h4, ?_, ?_⟩
  · unfold Img.setPx
    rw [Img.ofFn_px h1 h3, if_pos ⟨rfl, rfl⟩]
  · intro j' l' hj' hl' hne
    unfold Img.setPx
    rw [Img.ofFn_px hj' hl', if_neg (by omega)]

theorem resolve_in {n : Nat} {y : Int} (h : -(n : Int) ≤ y) (h' : y < n) : ∃ j, Img.resolve n y = some j := by
  unfold Img.resolve
  split
  · exact ⟨_, rfl⟩
  · rw [if_pos (by omega)]
    exact ⟨_, rfl⟩

theorem resolve_out {n : Nat} {y : Int} (h : ¬ (-(n : Int) ≤ y ∧ y < n)) : Img.resolve n y = none := by
  unfold Img.resolve
  split
  · rw [if_neg (by omega)]
  · rw [if_neg (by omega)]

/-- C82: `image.data[y, x] = v` changes that pixel of the image, and no other; outside the image it changes nothing. -/
theorem C82_write (ops : List BaseOp) (i : Nat) (hi : i < (baseRun ops).count) (y x : Int) (v : ℝ) :
    (-(((baseRun ops).pixels i).h : Int) ≤ y → y < ((baseRun ops).pixels i).h →
      -(((baseRun ops).pixels i).w : Int) ≤ x → x < ((baseRun ops).pixels i).w →
      IsEdit ((baseRun ops).pixels i) ((baseRun (ops ++ [.writeImage i y x v])).pixels i) y x v) ∧
    (¬ (-(((baseRun ops).pixels i).h : Int) ≤ y ∧ y < ((baseRun ops).pixels i).h ∧
      -(((baseRun ops).pixels i).w : Int) ≤ x ∧ x < ((baseRun ops).pixels i).w) →
      baseRun (ops ++ [.writeImage i y x v]) = baseRun ops) := by
  rw [baseRun_snoc]
  generalize baseRun ops = s at *
  have e : s.exec (.writeImage i y x v) = s.writeRef (s.objs.cell i).data y x v := by
    show (s.image i >>= fun i => s.writeRef (s.objs.cell i).data y x v) = _
    rw [image_of_lt hi]
    rfl
  constructor
  · intro h1 h2 h3 h4
    obtain ⟨j, hj⟩ := resolve_in h1 h2
    obtain ⟨l, hl⟩ := resolve_in h3 h4
    have e' : s.writeRef (s.objs.cell i).data y x v =
        .ok { s with arrays := s.arrays.set (s.objs.cell i).data ((s.pixels i).setPx j l v) } := by
      unfold BaseState.writeRef
      rw [show Img.resolve (s.arrays.cell (s.objs.cell i).data).h y = some j from hj,
        show Img.resolve (s.arrays.cell (s.objs.cell i).data).w x = some l from hl]
      rfl
    rw [step_of_exec (e.trans e')]
    have : ({ s with arrays := s.arrays.set (s.objs.cell i).data ((s.pixels i).setPx j l v) } : BaseState).pixels i =
        (s.pixels i).setPx j l v := Store.set_same
    rw [this]
    exact setPx_edit _ v hj hl
  · intro hc
    unfold BaseState.step
    rw [e]
    unfold BaseState.writeRef
    have hc' : Img.resolve (s.arrays.cell (s.objs.cell i).data).h y = none ∨
        Img.resolve (s.arrays.cell (s.objs.cell i).data).w x = none := by
      by_cases h : -((s.pixels i).h : Int) ≤ y ∧ y < (s.pixels i).h
      · exact .inr (resolve_out fun h' => hc ⟨h.1, h.2, h'.1, h'.2⟩)
      · exact .inl (resolve_out h)
    rcases hc' with h | h
    · rw [h]
    · rw [h]
      cases Img.resolve (s.arrays.cell (s.objs.cell i).data).h y <;> rfl

/-- No two images hold the same array. -/
def Unshared (s : BaseState) : Prop :=
  ∀ i j, i < s.objs.size → j < s.objs.size → (s.objs.cell i).data = (s.objs.cell j).data → i = j

theorem Made.unshared {s t : BaseState} {A : Img ℝ} {cards : String → Option String} (m : Made s t A cards) (f : BaseFine s)
    (u : Unshared s) : Unshared t := by
  intro i j hi hj e
  rcases m.cases hi with h | rfl <;> rcases m.cases hj with h' | rfl
  · rw [m.oldObjs i h, m.oldObjs j h'] at e
    exact u i j h h' e
  · rw [m.oldObjs i h] at e
    have := f.data i h
    have := m.newData
    omega
  · rw [m.oldObjs j h'] at e
    have := f.data j h'
    have := m.newData
    omega
  · rfl

theorem did_unshared {s t : BaseState} {o : BaseOp} (f : BaseFine s) (u : Unshared s) (h : Did s o t) (ho : ¬ o.assigns) :
    Unshared t := by
  cases h with
  | array A => exact u
  | take i hi => exact u
  | assign i k r hi hr => exact absurd trivial ho
  | writeArray k r y x v j l hr hj hl => exact u
  | writeImage i y x v j l hi hj hl => exact u
  | setCard i key value hi => exact u
  | load A cards t h => exact h.unshared f u
  | fromArray k r t hr h => exact h.unshared f u
  | fromImage i t hi h => exact h.unshared f u
  | shift i y x m t d hi hd h => exact h.unshared f u
  | rebin i b t d hi hd h => exact h.unshared f u
  | arithImage op i j junk t d hi hj hd h => exact h.unshared f u
  | arithNumber op i c junk t d hi hd h => exact h.unshared f u

theorem run_unshared (ops : List BaseOp) (hops : ∀ o ∈ ops, ¬ o.assigns) : Unshared (baseRun ops) := by
  induction ops using List.reverseRecOn with
  | nil => exact fun i j hi => absurd hi (Nat.not_lt_zero _)
  | append_singleton ops o ih =>
    rw [baseRun_snoc]
    have u := ih fun o ho => hops o (List.mem_append_left _ ho)
    rcases step_did (baseRun ops) o with h | h
    · rw [h]
      exact u
    · exact did_unshared (run_fine ops) u h (hops o (by simp))

/-- C82 (partial: sessions without assignment to `image.data`; see `C82_assignment_shares`): writing pixels of one image, or of an
array got from `image.data`, never changes two images: if two images differ after the statement, they are the same image. -/
theorem C82_images_separate_partial (ops : List BaseOp) (hops : ∀ o ∈ ops, ¬ o.assigns) (o : BaseOp) (ho : ¬ o.assigns)
    (i j : Nat) (hi : i < (baseRun ops).count) (hj : j < (baseRun ops).count)
    (hci : (baseRun (ops ++ [o])).pixels i ≠ (baseRun ops).pixels i)
    (hcj : (baseRun (ops ++ [o])).pixels j ≠ (baseRun ops).pixels j) : i = j := by
  have u := run_unshared ops hops
  by_cases he : o.edits
  · rw [baseRun_snoc] at hci hcj
    generalize baseRun ops = s at *
    rcases step_did s o with h | h
    · rw [h] at hci
      exact absurd rfl hci
    · generalize s.step o = t at h hci hcj
      have key : ∀ r A, ({ s with arrays := s.arrays.set r A } : BaseState).pixels i ≠ s.pixels i →
          ({ s with arrays := s.arrays.set r A } : BaseState).pixels j ≠ s.pixels j → i = j := by
        intro r A h1 h2
        have e1 : (s.objs.cell i).data = r := by
          by_contra hne
          exact h1 (Store.set_other hne)
        have e2 : (s.objs.cell j).data = r := by
          by_contra hne
          exact h2 (Store.set_other hne)
        exact u i j hi hj (e1.trans e2.symm)
      cases h with
      | assign i k r hi hr => exact absurd trivial ho
      | writeArray k r y x v a b hr hj hl => exact key _ _ hci hcj
      | writeImage i y x v a b hi hj hl => exact key _ _ hci hcj
      | setCard i key value hi => exact absurd rfl hci
      | array A => exact absurd he id
      | take i hi => exact absurd he id
      | load A cards t h => exact absurd he id
      | fromArray k r t hr h => exact absurd he id
      | fromImage i t hi h => exact absurd he id
      | shift i y x m t d hi hd h => exact absurd he id
      | rebin i b t d hi hd h => exact absurd he id
      | arithImage op i j junk t d hi hj hd h => exact absurd he id
      | arithNumber op i c junk t d hi hd h => exact absurd he id
  · exact absurd ((C82_others_unchanged ops o he).2.1 i hi).1 hci

/-- C82 (partial as above): in particular writing image `i` leaves every other image as it was. -/
theorem C82_write_other_partial (ops : List BaseOp) (hops : ∀ o ∈ ops, ¬ o.assigns) (i j : Nat)
    (hj : j < (baseRun ops).count) (hne : i ≠ j) (y x : Int) (v : ℝ) :
    (baseRun (ops ++ [.writeImage i y x v])).pixels j = (baseRun ops).pixels j := by
  have u := run_unshared ops hops
  rw [baseRun_snoc]
  generalize baseRun ops = s at *
  rcases step_did s (.writeImage i y x v) with h | h
  · rw [h]
  · generalize s.step (.writeImage i y x v) = t at h
    cases h with
    | writeImage _ _ _ _ a b hi ha hb => exact Store.set_other fun e => hne (u i j hi hj e.symm)

/-- The caller's array `k` is the object `r`, held by no image and no other variable. -/
structure Own (s : BaseState) (k r : Nat) : Prop where
  held : s.held[k]? = some r
  valid : r < s.arrays.size
  images : ∀ i, i < s.objs.size → (s.objs.cell i).data ≠ r
  others : ∀ k', s.held[k']? = some r → k' = k

theorem Made.own {s t : BaseState} {A : Img ℝ} {cards : String → Option String} (m : Made s t A cards) {k r : Nat}
    (w : Own s k r) : Own t k r where
  held := by rw [m.held]; exact w.held
  valid := w.valid.trans m.arrays
  images i hi := by
    rcases m.cases hi with h | rfl
    · rw [m.oldObjs i h]
      exact w.images i h
    · have := m.newData
      have := w.valid
      omega
  others k' h := by
    rw [m.held] at h
    exact w.others k' h

theorem own_append {s : BaseState} {k r r' : Nat} (w : Own s k r) (hne : r' ≠ r) :
    (s.held ++ [r'])[k]? = some r ∧ ∀ k', (s.held ++ [r'])[k']? = some r → k' = k := by
  have hk : k < s.held.length := by
    by_contra hc
    have := w.held
    rw [List.getElem?_eq_none (by omega)] at this
    cases this
  refine ⟨by rw [List.getElem?_append_left hk]; exact w.held, ?_⟩
  intro k' h
  by_cases hk' : k' < s.held.length
  · rw [List.getElem?_append_left hk'] at h
    exact w.others k' h
  · rw [List.getElem?_append_right (by omega)] at h
    have := List.mem_of_getElem? h
    rw [List.mem_singleton] at this
    exact absurd this.symm hne

theorem did_own {s t : BaseState} {o : BaseOp} {k r : Nat} (w : Own s k r) (h : Did s o t) (ho : ∀ i, o ≠ .assign i k) :
    Own t k r := by
  cases h with
  | array A =>
    obtain ⟨h1, h2⟩ := own_append w (r' := s.arrays.size) (by have := w.valid; omega)
    exact ⟨h1, w.valid.trans (Nat.lt_succ_self _), w.images, h2⟩
  | take i hi =>
    obtain ⟨h1, h2⟩ := own_append w (r' := (s.objs.cell i).data) (w.images i hi)
    exact ⟨h1, w.valid, w.images, h2⟩
  | assign i k' r' hi hr =>
    refine ⟨w.held, w.valid, ?_, w.others⟩
    intro j hj
    show ((s.objs.set i _).cell j).data ≠ r
    by_cases e : j = i
    · rw [e, Store.set_same]
      show r' ≠ r
      intro e'
      subst e'
      exact ho i (by rw [w.others k' hr])
    · rw [Store.set_other e]
      exact w.images j hj
  | writeArray k r y x v j l hr hj hl => exact ⟨w.held, w.valid, w.images, w.others⟩
  | writeImage i y x v j l hi hj hl => exact ⟨w.held, w.valid, w.images, w.others⟩
  | setCard i key value hi => exact ⟨w.held, w.valid, w.images, w.others⟩
  | load A cards t h => exact h.own w
  | fromArray k r t hr h => exact h.own w
  | fromImage i t hi h => exact h.own w
  | shift i y x m t d hi hd h => exact h.own w
  | rebin i b t d hi hd h => exact h.own w
  | arithImage op i j junk t d hi hj hd h => exact h.own w
  | arithNumber op i c junk t d hi hd h => exact h.own w

theorem run_own (pre mid : List BaseOp) (A : Img ℝ) (hmid : ∀ i, BaseOp.assign i (baseRun pre).held.length ∉ mid) :
    Own (baseRun (pre ++ .array A :: mid)) (baseRun pre).held.length (baseRun pre).arrays.size := by
  induction mid using List.reverseRecOn with
  | nil =>
    rw [baseRun_snoc, step_of_exec (rfl : (baseRun pre).exec (.array A) = _)]
    have f := run_fine pre
    generalize baseRun pre = s at *
    refine ⟨?_, Nat.lt_succ_self _, fun i hi => (f.data i hi).ne, ?_⟩
    · show (s.held ++ [s.arrays.size])[s.held.length]? = _
      rw [List.getElem?_append_right le_rfl, Nat.sub_self]
      rfl
    · intro k' h
      have h : (s.held ++ [s.arrays.size])[k']? = some s.arrays.size := h
      by_cases hk' : k' < s.held.length
      · rw [List.getElem?_append_left hk'] at h
        exact absurd (f.held _ (List.mem_of_getElem? h)) (lt_irrefl _)
      · have hlt : k' < (s.held ++ [s.arrays.size]).length := by
          by_contra hc
          rw [List.getElem?_eq_none (by omega)] at h
          cases h
        rw [List.length_append, List.length_singleton] at hlt
        omega
  | append_singleton mid o ih =>
    have w := ih fun i h => hmid i (List.mem_append_left _ h)
    rw [show pre ++ .array A :: (mid ++ [o]) = (pre ++ .array A :: mid) ++ [o] by simp, baseRun_snoc]
    rcases step_did (baseRun (pre ++ .array A :: mid)) o with h | h
    · rw [h]
      exact w
    · exact did_own w h fun i e => hmid i (by rw [← e]; simp)

/-- C82: an array the caller made stays the caller's own, whatever images are constructed from it, as long as it is not assigned to
`image.data`: writing it changes no image, and writing an image does not change it. -/
theorem C82_caller_array (pre mid : List BaseOp) (A : Img ℝ) (k : Nat) (hk : k = (baseRun pre).held.length)
    (hmid : ∀ i, BaseOp.assign i k ∉ mid) (i : Nat) (hi : i < (baseRun (pre ++ .array A :: mid)).count) (y x : Int) (v : ℝ) :
    (baseRun (pre ++ .array A :: mid ++ [.writeArray k y x v])).pixels i = (baseRun (pre ++ .array A :: mid)).pixels i ∧
    (baseRun (pre ++ .array A :: mid ++ [.writeImage i y x v])).array k = (baseRun (pre ++ .array A :: mid)).array k := by
  subst hk
  have w := run_own pre mid A hmid
  generalize (baseRun pre).held.length = k at *
  rw [baseRun_snoc, baseRun_snoc]
  generalize baseRun (pre ++ .array A :: mid) = s at *
  constructor
  · rcases step_did s (.writeArray k y x v) with h | h
    · rw [h]
    · generalize s.step (.writeArray k y x v) = t at h
      cases h with
      | writeArray _ r _ _ _ a b hr ha hb =>
        refine Store.set_other ?_
        rw [w.held] at hr
        cases hr
        exact w.images i hi
  · rcases step_did s (.writeImage i y x v) with h | h
    · rw [h]
    · generalize s.step (.writeImage i y x v) = t at h
      cases h with
      | writeImage _ _ _ _ a b hi ha hb =>
        unfold BaseState.array
        dsimp only
        rw [w.held]
        exact congrArg some (Store.set_other (w.images i hi).symm)

/-! ### What the methods return -/

theorem made_pixels {s t : BaseState} {A : Img ℝ} {cards : String → Option String} (m : Made s t A cards) :
    t.count = s.count + 1 ∧ t.pixels s.count = A := ⟨m.count, m.pixels⟩

/-- C82: `Image(array)` and `Image(image)` are new images with the pixels the argument has at the time of the call. -/
theorem C82_copies (ops : List BaseOp) :
    (∀ k A, (baseRun ops).array k = some A → (baseRun (ops ++ [.fromArray k])).count = (baseRun ops).count + 1 ∧
      (baseRun (ops ++ [.fromArray k])).pixels (baseRun ops).count = A) ∧
    ∀ i, i < (baseRun ops).count → (baseRun (ops ++ [.fromImage i])).count = (baseRun ops).count + 1 ∧
      (baseRun (ops ++ [.fromImage i])).pixels (baseRun ops).count = (baseRun ops).pixels i := by
  constructor
  · intro k A hk
    rw [baseRun_snoc]
    generalize baseRun ops = s at *
    unfold BaseState.array at hk
    cases e : s.held[k]? with
    | none => rw [e] at hk; cases hk
    | some r =>
      rw [e] at hk
      cases hk
      have h : s.exec (.fromArray k) = .ok (s.newImage (s.arrays.cell r) fun _ => none) := by
        show (s.variable k >>= _) = _
        rw [variable_of e]
        rfl
      rw [step_of_exec h]
      exact made_pixels (newImage_made _ _ _)
  · intro i hi
    rw [baseRun_snoc]
    generalize baseRun ops = s at *
    have h : s.exec (.fromImage i) = .ok (s.newImage (s.pixels i) fun _ => none) := by
      show (s.image i >>= _) = _
      rw [image_of_lt hi]
      rfl
    rw [step_of_exec h]
    exact made_pixels (newImage_made _ _ _)

/-- C82: `shift` always returns a new image: the old one shifted. -/
theorem C82_shift (ops : List BaseOp) (i : Nat) (hi : i < (baseRun ops).count) (y x : Int) (missing : ℝ) :
    (baseRun (ops ++ [.shift i y x missing])).count = (baseRun ops).count + 1 ∧
    IsShiftOf ((baseRun ops).pixels i) ((baseRun (ops ++ [.shift i y x missing])).pixels (baseRun ops).count) y x missing := by
  rw [baseRun_snoc]
  generalize baseRun ops = s at *
  obtain ⟨d, hd, hs⟩ := C03_shift (s.pixels i) y x missing
  have h : s.exec (.shift i y x missing) = .ok (s.newImage d fun _ => none) := by
    show (s.image i >>= _) = _
    rw [image_of_lt hi]
    show (shiftKernel (s.pixels i) y x missing >>= _) = _
    rw [hd]
    rfl
  rw [step_of_exec h]
  obtain ⟨h1, h2⟩ := made_pixels (newImage_made s d fun _ => none)
  rw [h2]
  exact ⟨h1, hs⟩

/-- C82: `rebin(b)` with `b ≥ 1` returns a new image, each pixel of which is the sum of a block of the old one; other binnings
change nothing. -/
theorem C82_rebin (ops : List BaseOp) (i : Nat) (hi : i < (baseRun ops).count) :
    (∀ b : Nat, 1 ≤ b → (baseRun (ops ++ [.rebin i b])).count = (baseRun ops).count + 1 ∧
      IsBinningOf ((baseRun ops).pixels i) ((baseRun (ops ++ [.rebin i b])).pixels (baseRun ops).count) b) ∧
    ∀ b : Int, b ≤ 0 → baseRun (ops ++ [.rebin i b]) = baseRun ops := by
  constructor
  · intro b hb
    rw [baseRun_snoc]
    generalize baseRun ops = s at *
    obtain ⟨d, hd, hs⟩ := C08_rebin (s.pixels i) b hb
    have h : s.exec (.rebin i b) = .ok (({ s.newImage (s.pixels i) (fun _ => none) with
        arrays := (s.newImage (s.pixels i) fun _ => none).arrays.alloc d } : BaseState).setData
          s.objs.size (s.newImage (s.pixels i) fun _ => none).arrays.size) := by
      show (s.image i >>= _) = _
      rw [image_of_lt hi]
      show (imageRebinData (s.pixels i) b >>= _) = _
      rw [hd]
      rfl
    rw [step_of_exec h]
    obtain ⟨h1, h2⟩ := made_pixels (replaced_made s (s.pixels i) d)
    rw [h2]
    exact ⟨h1, hs⟩
  · intro b hb
    rw [baseRun_snoc]
    generalize baseRun ops = s at *
    unfold BaseState.step
    have h : s.exec (.rebin i b) = .error .valueError := by
      show (s.image i >>= _) = _
      rw [image_of_lt hi]
      show (imageRebinData (s.pixels i) b >>= _) = _
      rw [(C11_rejects _ b hb).1]
      rfl
    rw [h]

/-- C82: arithmetic of two images of the same shape returns a new image with the result of the operation at every pixel (where it is
defined: no division by 0). -/
theorem C82_arithmetic_images (ops : List BaseOp) (op : Arith) (i j : Nat) (hi : i < (baseRun ops).count)
    (hj : j < (baseRun ops).count) (hs : ((baseRun ops).pixels i).SameShape ((baseRun ops).pixels j)) (junk : Nat → Nat → ℝ) :
    let A := (baseRun ops).pixels i
    let B := (baseRun ops).pixels j
    let t := baseRun (ops ++ [.arithImage op i j junk])
    t.count = (baseRun ops).count + 1 ∧ (t.pixels (baseRun ops).count).SameShape A ∧
      ∀ y x, y < A.h → x < A.w → op.Defined (B.px y x) →
        (t.pixels (baseRun ops).count).px y x = op.apply (A.px y x) (B.px y x) := by
  intro A B t
  obtain ⟨d, hd, hsh, hp⟩ : ∃ d, arithData op junk A (.image B) = .ok d ∧ d.SameShape A ∧
      ∀ y x, y < A.h → x < A.w → op.Defined (B.px y x) → d.px y x = op.apply (A.px y x) (B.px y x) := by
    obtain ⟨a, b, c, h1, h2, h3, s1, s2, s3, hp⟩ := C39_images A B hs
    obtain ⟨q, r, h4, -, s4, -, hq⟩ := C39_div_partial junk A B hs 1
    cases op
    · exact ⟨a, h1, s1, fun y x hy hx _ => (hp y x hy hx).1⟩
    · exact ⟨b, h2, s2, fun y x hy hx _ => (hp y x hy hx).2.1⟩
    · exact ⟨c, h3, s3, fun y x hy hx _ => (hp y x hy hx).2.2⟩
    · exact ⟨q, h4, s4, fun y x hy hx hne => (hq y x hy hx).1 hne⟩
  have h : (baseRun ops).exec (.arithImage op i j junk) = .ok ((baseRun ops).newImage d fun _ => none) := by
    show ((baseRun ops).image i >>= _) = _
    rw [image_of_lt hi]
    show ((baseRun ops).image j >>= _) = _
    rw [image_of_lt hj]
    show (arithData op junk A (.image B) >>= _) = _
    rw [hd]
    rfl
  have ht : t = (baseRun ops).newImage d fun _ => none := (baseRun_snoc _ _).trans (step_of_exec h)
  rw [ht]
  obtain ⟨h1, h2⟩ := made_pixels (newImage_made (baseRun ops) d fun _ => none)
  rw [h2]
  exact ⟨h1, hsh, hp⟩

/-- C82: arithmetic with a number. -/
theorem C82_arithmetic_numbers (ops : List BaseOp) (op : Arith) (i : Nat) (hi : i < (baseRun ops).count) (c : ℝ)
    (junk : Nat → Nat → ℝ) :
    let A := (baseRun ops).pixels i
    let t := baseRun (ops ++ [.arithNumber op i c junk])
    t.count = (baseRun ops).count + 1 ∧ (t.pixels (baseRun ops).count).SameShape A ∧
      ∀ y x, y < A.h → x < A.w → op.Defined c → (t.pixels (baseRun ops).count).px y x = op.apply (A.px y x) c := by
  intro A t
  obtain ⟨d, hd, hsh, hp⟩ : ∃ d, arithData op junk A (.number c) = .ok d ∧ d.SameShape A ∧
      ∀ y x, y < A.h → x < A.w → op.Defined c → d.px y x = op.apply (A.px y x) c := by
    obtain ⟨a, b, e, h1, h2, h3, s1, s2, s3, hp⟩ := C39_numbers A c
    obtain ⟨q, r, -, h4, -, s4, hq⟩ := C39_div_partial junk A A ⟨rfl, rfl⟩ c
    cases op
    · exact ⟨a, h1, s1, fun y x hy hx _ => (hp y x hy hx).1⟩
    · exact ⟨b, h2, s2, fun y x hy hx _ => (hp y x hy hx).2.1⟩
    · exact ⟨e, h3, s3, fun y x hy hx _ => (hp y x hy hx).2.2⟩
    · exact ⟨r, h4, s4, fun y x hy hx hne => (hq y x hy hx).2 hne⟩
  have h : (baseRun ops).exec (.arithNumber op i c junk) = .ok ((baseRun ops).newImage d fun _ => none) := by
    show ((baseRun ops).image i >>= _) = _
    rw [image_of_lt hi]
    show (arithData op junk A (.number c) >>= _) = _
    rw [hd]
    rfl
  have ht : t = (baseRun ops).newImage d fun _ => none := (baseRun_snoc _ _).trans (step_of_exec h)
  rw [ht]
  obtain ⟨h1, h2⟩ := made_pixels (newImage_made (baseRun ops) d fun _ => none)
  rw [h2]
  exact ⟨h1, hsh, hp⟩

/-! ### Assignment shares -/

theorem assign_step {s : BaseState} {i k r : Nat} (hi : i < s.objs.size) (hr : s.held[k]? = some r) :
    s.step (.assign i k) = s.setData i r := by
  refine step_of_exec ?_
  show (s.image i >>= _) = _
  rw [image_of_lt hi]
  show (s.variable k >>= _) = _
  rw [variable_of hr]
  rfl

/-- C82: `image.data = array` gives the image the pixels of the array. -/
theorem C82_assign (ops : List BaseOp) (i k : Nat) (A : Img ℝ) (hi : i < (baseRun ops).count)
    (hk : (baseRun ops).array k = some A) : (baseRun (ops ++ [.assign i k])).pixels i = A := by
  rw [baseRun_snoc]
  generalize baseRun ops = s at *
  unfold BaseState.array at hk
  cases e : s.held[k]? with
  | none => rw [e] at hk; cases hk
  | some r =>
    rw [e] at hk
    cases hk
    rw [assign_step hi e]
    show s.arrays.cell ((s.objs.set i _).cell i).data = _
    rw [Store.set_same]

/-- C82 violated: after `image.data = array`, every write to the array is a write to the image. -/
theorem C82_assignment_shares (ops : List BaseOp) (i k : Nat) (A : Img ℝ) (hi : i < (baseRun ops).count)
    (hk : (baseRun ops).array k = some A) (y x : Int) (v : ℝ) (h1 : -(A.h : Int) ≤ y) (h2 : y < A.h) (h3 : -(A.w : Int) ≤ x)
    (h4 : x < A.w) :
    IsEdit A ((baseRun (ops ++ [.assign i k, .writeArray k y x v])).pixels i) y x v := by
  rw [show ops ++ [BaseOp.assign i k, .writeArray k y x v] = (ops ++ [.assign i k]) ++ [.writeArray k y x v] by simp,
    baseRun_snoc, baseRun_snoc]
  generalize baseRun ops = s at *
  unfold BaseState.array at hk
  cases e : s.held[k]? with
  | none => rw [e] at hk; cases hk
  | some r =>
    rw [e] at hk
    cases hk
    rw [assign_step hi e]
    obtain ⟨j, hj⟩ := resolve_in h1 h2
    obtain ⟨l, hl⟩ := resolve_in h3 h4
    have h : (s.setData i r).exec (.writeArray k y x v) =
        .ok { s.setData i r with arrays := s.arrays.set r ((s.arrays.cell r).setPx j l v) } := by
      show ((s.setData i r).variable k >>= _) = _
      rw [variable_of (s := s.setData i r) e]
      show (s.setData i r).writeRef r y x v = _
      unfold BaseState.writeRef
      rw [show Img.resolve ((s.setData i r).arrays.cell r).h y = some j from hj,
        show Img.resolve ((s.setData i r).arrays.cell r).w x = some l from hl]
      rfl
    rw [step_of_exec h]
    have : ({ s.setData i r with arrays := s.arrays.set r ((s.arrays.cell r).setPx j l v) } : BaseState).pixels i =
        (s.arrays.cell r).setPx j l v := by
      show (s.arrays.set r _).cell ((s.objs.set i _).cell i).data = _
      rw [Store.set_same]
      exact Store.set_same
    rw [this]
    exact setPx_edit _ v hj hl

/-- A session: an array and two images made from it. -/
def twoImages : List BaseOp := [.array (Img.const 2 3 5), .fromArray 0, .fromArray 0]

theorem twoImages_facts : (baseRun twoImages).count = 2 ∧ (baseRun twoImages).pixels 0 = Img.const 2 3 5 ∧
    (baseRun twoImages).pixels 1 = Img.const 2 3 5 ∧ (baseRun twoImages).array 0 = some (Img.const 2 3 5) := by
  have a0 : (baseRun [.array (Img.const 2 3 5)]).array 0 = some (Img.const 2 3 5) := rfl
  have c0 : (baseRun [.array (Img.const 2 3 5)]).count = 0 := rfl
  have h1 := (C82_copies [.array (Img.const 2 3 5)]).1 0 _ a0
  rw [c0] at h1
  have h1' := (C82_others_unchanged [.array (Img.const 2 3 5)] (.fromArray 0) id).2.2 0 _ a0
  have h2 := (C82_copies ([.array (Img.const 2 3 5)] ++ [.fromArray 0])).1 0 _ h1'
  rw [h1.1] at h2
  have h3 := C82_others_unchanged ([.array (Img.const 2 3 5)] ++ [.fromArray 0]) (.fromArray 0) id
  refine ⟨h2.1, ?_, h2.2, h3.2.2 0 _ h1'⟩
  have := (h3.2.1 0 (by rw [h1.1]; decide)).1
  exact this.trans h1.2

/-- Writing the first image leaves the second as it was; writing the array leaves both. -/
example : (∃ j l, ((baseRun (twoImages ++ [.writeImage 0 (-1) 0 9])).pixels 0).px j l = 9) ∧
    (baseRun (twoImages ++ [.writeImage 0 (-1) 0 9])).pixels 1 = Img.const 2 3 5 ∧
    (baseRun (twoImages ++ [.writeArray 0 1 1 9])).pixels 0 = Img.const 2 3 5 := by
  obtain ⟨h1, h2, h3, h4⟩ := twoImages_facts
  refine ⟨?_, ?_, ?_⟩
  · obtain ⟨-, -, j, l, -, -, -, -, h, -⟩ := (C82_write twoImages 0 (by rw [h1]; decide) (-1) 0 9).1 (by rw [h2]; decide)
      (by rw [h2]; decide) (by rw [h2]; decide) (by rw [h2]; decide)
    exact ⟨j, l, h⟩
  · rw [C82_write_other_partial twoImages ?_ 0 1 (by rw [h1]; decide) (by decide), h3]
    intro o ho
    simp only [twoImages, List.mem_cons, List.not_mem_nil, or_false] at ho
    rcases ho with rfl | rfl | rfl <;> exact id
  · have := (C82_caller_array [] [.fromArray 0, .fromArray 0] (Img.const 2 3 5) 0 rfl (by intro i; simp) 0 (by
      have := h1
      unfold twoImages at this
      show 0 < (baseRun ([] ++ _)).count
      rw [List.nil_append, this]
      decide) 1 1 9).1
    exact this.trans h2

/-- A sum and a binned image in that session. -/
example : ((baseRun (twoImages ++ [.arithImage .add 0 1 fun _ _ => 0])).pixels 2).px 1 2 = 10 ∧
    ((baseRun (twoImages ++ [.rebin 0 2])).pixels 2).w = 1 := by
  obtain ⟨h1, h2, h3, h4⟩ := twoImages_facts
  constructor
  · have h := (C82_arithmetic_images twoImages .add 0 1 (by rw [h1]; decide) (by rw [h1]; decide) (by rw [h2, h3]; exact ⟨rfl, rfl⟩)
      fun _ _ => 0).2.2 1 2
    rw [h1, h2, h3] at h
    rw [h (by decide) (by decide) trivial]
    unfold Img.const
    rw [Img.ofFn_px (by decide) (by decide)]
    norm_num [Arith.apply]
  · have h := ((C82_rebin twoImages 0 (by rw [h1]; decide)).1 2 (by decide)).2.2.1
    rw [h1, h2] at h
    exact h

/-- C82 violated: two images that are not to share anything do, after the second was given the array of the first. -/
theorem C82_full_claim_false : ∃ (ops : List BaseOp) (i j : Nat) (y x : Int) (v : ℝ),
    i < (baseRun ops).count ∧ j < (baseRun ops).count ∧ i ≠ j ∧
    (baseRun (ops ++ [.writeImage i y x v])).pixels j ≠ (baseRun ops).pixels j := by
  refine ⟨[.load (Img.const 1 1 5) (fun _ => none), .load (Img.const 1 1 6) (fun _ => none), .take 0, .assign 1 0], 0, 1, 0, 0, 9,
    by decide, by decide, by decide, ?_⟩
  have e1 : (baseRun [.load (Img.const 1 1 5) (fun _ => none), .load (Img.const 1 1 6) (fun _ => none), .take 0, .assign 1 0]).pixels 1
      = Img.const 1 1 5 := rfl
  have e2 : (baseRun ([.load (Img.const 1 1 5) (fun _ => none), .load (Img.const 1 1 6) (fun _ => none), .take 0, .assign 1 0] ++
      [.writeImage 0 0 0 9])).pixels 1 = (Img.const 1 1 (5 : ℝ)).setPx 0 0 9 := rfl
  rw [e1, e2]
  intro h
  have := congrArg (fun A => Img.px A 0 0) h
  unfold Img.setPx Img.const at this
  rw [Img.ofFn_px (by exact Nat.one_pos) (by exact Nat.one_pos), Img.ofFn_px (by exact Nat.one_pos) (by exact Nat.one_pos),
    if_pos ⟨rfl, rfl⟩] at this
  norm_num at this

/-! ## C83 -/

/-- C83: a loaded image has the keywords of the file. -/
theorem C83_loaded (ops : List BaseOp) (A : Img ℝ) (cards : String → Option String) :
    (baseRun (ops ++ [.load A cards])).count = (baseRun ops).count + 1 ∧
    ((baseRun (ops ++ [.load A cards])).headerOf (baseRun ops).count).cards = cards ∧
    (baseRun (ops ++ [.load A cards])).pixels (baseRun ops).count = A := by
  rw [baseRun_snoc, step_of_exec (rfl : (baseRun ops).exec (.load A cards) = _)]
  have m := newImage_made (baseRun ops) A cards
  obtain ⟨h1, h2⟩ := made_pixels m
  refine ⟨h1, ?_, h2⟩
  exact congrArg BaseHeader.cards m.newHeaderOf

/-- C83: keywords change only when they are written: writing a keyword of an image sets it there and nowhere else, and no other
statement changes any keyword. -/
theorem C83_keywords (ops : List BaseOp) (i : Nat) (hi : i < (baseRun ops).count) :
    (∀ key value, ((baseRun (ops ++ [.setCard i key value])).headerOf i).cards key = some value ∧
      ∀ key', key' ≠ key → ((baseRun (ops ++ [.setCard i key value])).headerOf i).cards key' =
        ((baseRun ops).headerOf i).cards key') ∧
    ∀ o, (∀ key value, o ≠ .setCard i key value) →
      ((baseRun (ops ++ [o])).headerOf i).cards = ((baseRun ops).headerOf i).cards := by
  have f := run_fine ops
  constructor
  · intro key value
    rw [baseRun_snoc]
    generalize baseRun ops = s at *
    have h : s.exec (.setCard i key value) = .ok { s with headers := (s.headers.set (s.objs.cell i).header
        ⟨(s.headerOf i).naxis1, (s.headerOf i).naxis2, fun k => if k = key then some value else (s.headerOf i).cards k⟩) } := by
      show (s.image i >>= _) = _
      rw [image_of_lt hi]
      rfl
    rw [step_of_exec h]
    unfold BaseState.headerOf
    dsimp only
    rw [Store.set_same]
    refine ⟨if_pos rfl, fun key' hne => ?_⟩
    dsimp only
    rw [if_neg hne]
  · intro o ho
    by_cases he : o.edits
    · rw [baseRun_snoc]
      generalize baseRun ops = s at *
      rcases step_did s o with h | h
      · rw [h]
      · generalize s.step o = t at h
        cases h with
        | assign j k r hj hr =>
          unfold BaseState.headerOf
          have e : ((s.setData j r).objs.cell i).header = (s.objs.cell i).header := by
            show ((s.objs.set j _).cell i).header = _
            by_cases e : i = j
            · rw [e, Store.set_same]
            · rw [Store.set_other e]
          rw [e]
          show ((s.headers.set (s.objs.cell j).header _).cell (s.objs.cell i).header).cards = _
          by_cases e : i = j
          · rw [e, Store.set_same]
            rfl
          · rw [Store.set_other fun e' => e (f.separate i j hi hj e')]
        | writeArray k r y x v a b hr hj hl => rfl
        | writeImage j y x v a b hj ha hb => rfl
        | setCard j key value hj =>
          have e : i ≠ j := fun e => ho key value (by rw [e])
          show ((s.headers.set (s.objs.cell j).header _).cell (s.objs.cell i).header).cards = _
          rw [Store.set_other fun e' => e (f.separate i j hi hj e')]
          rfl
        | array A => exact absurd he id
        | take i hi => exact absurd he id
        | load A cards t h => exact absurd he id
        | fromArray k r t hr h => exact absurd he id
        | fromImage i t hi h => exact absurd he id
        | shift i y x m t d hi hd h => exact absurd he id
        | rebin i b t d hi hd h => exact absurd he id
        | arithImage op i j junk t d hi hj hd h => exact absurd he id
        | arithNumber op i c junk t d hi hd h => exact absurd he id
    · rw [((C82_others_unchanged ops o he).2.1 i hi).2]

/-- Calls that make an image from images or arrays of the session. -/
def BaseOp.derives : BaseOp → Prop
  | .fromArray _ | .fromImage _ | .shift _ _ _ _ | .rebin _ _ | .arithImage _ _ _ _ | .arithNumber _ _ _ _ => True
  | _ => False

/-- C83 violated: an image made by copying, `shift`, `rebin` or an operator has no keyword of the image it was made from, only
the sizes. -/
theorem C83_keywords_lost (ops : List BaseOp) (o : BaseOp) (ho : o.derives)
    (hn : (baseRun (ops ++ [o])).count = (baseRun ops).count + 1) (key : String) :
    ((baseRun (ops ++ [o])).headerOf (baseRun ops).count).cards key = none := by
  rw [baseRun_snoc] at *
  generalize baseRun ops = s at *
  rcases step_did s o with h | h
  · rw [h] at hn
    omega
  · generalize s.step o = t at *
    have hm : ∀ {A : Img ℝ}, Made s t A (fun _ => none) → (t.headerOf s.count).cards key = none := by
      intro A m
      exact congrArg (fun h => BaseHeader.cards h key) m.newHeaderOf
    cases h with
    | array A => exact absurd ho id
    | take i hi => exact absurd ho id
    | assign i k r hi hr => exact absurd ho id
    | writeArray k r y x v j l hr hj hl => exact absurd ho id
    | writeImage i y x v j l hi hj hl => exact absurd ho id
    | setCard i key value hi => exact absurd ho id
    | load A cards t h => exact absurd ho id
    | fromArray k r t hr h => exact hm h
    | fromImage i t hi h => exact hm h
    | shift i y x m t d hi hd h => exact hm h
    | rebin i b t d hi hd h => exact hm h
    | arithImage op i j junk t d hi hj hd h => exact hm h
    | arithNumber op i c junk t d hi hd h => exact hm h

/-- C83 violated: the date of a loaded image is missing from its copy. -/
theorem C83_full_claim_false : ∃ (ops : List BaseOp) (i : Nat) (key value : String), i < (baseRun ops).count ∧
    ((baseRun ops).headerOf i).cards key = some value ∧
    (baseRun (ops ++ [.fromImage i])).count = (baseRun ops).count + 1 ∧
    ((baseRun (ops ++ [.fromImage i])).headerOf (baseRun ops).count).cards key = none := by
  have h := C83_loaded [] (Img.const 2 2 1) (fun _ => some "2022-11-16")
  have hi : 0 < (baseRun ([] ++ [.load (Img.const 2 2 1) fun _ => some "2022-11-16"])).count := by
    rw [h.1]
    exact Nat.succ_pos _
  have hc := ((C82_copies ([] ++ [.load (Img.const 2 2 1) fun _ => some "2022-11-16"])).2 0 hi).1
  exact ⟨_, 0, "DATE-OBS", "2022-11-16", hi, congrFun h.2.1 "DATE-OBS", hc, C83_keywords_lost _ (.fromImage 0) trivial hc _⟩

end

end Micropol
