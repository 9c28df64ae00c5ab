import Verif.Lemmas.Again
import Verif.Props.ObjectPixels

/-!
# C128: making a call again

What a call returns is determined by what the images it is given look like, whatever else happened in the session; so a call
that returns a new image can be repeated, now or later, and gives the same.  The exception is `rotate`: it overwrites the
Stokes maps of the image it is called on, and the second call rotates the rotated ones.  Demosaicing twice in place and
masking the occulter twice is doing it once, and so is demodulating the demodulated image with the same demodulator.
-/

set_option autoImplicit false

namespace Micropol

open Classical

/-- C128: the same call after two histories, on images that look the same: it raises in neither or the same exception in
both; if it returns an image, it does so after both, and the images look the same; and an image changed in place looks the
same afterwards. -/
theorem C128_determined (ops ops' : List Op) (o : Op) (h : SameInputs ops ops' o) :
    (∀ e, Raises (runOps ops) o e ↔ Raises (runOps ops') o e) ∧
    (∀ n, Returns ops o n → ∃ n', Returns ops' o n' ∧
      (runOps (ops' ++ [o])).look n' = (runOps (ops ++ [o])).look n) ∧
    (o.inPlace = true → ∀ k k', o.CalledOn (runOps ops) k → o.CalledOn (runOps ops') k' →
      (runOps (ops' ++ [o])).look k' = (runOps (ops ++ [o])).look k) := by
  obtain ⟨h1, h2, h3⟩ := twin_of_looks (runOps_valid ops) (runOps_valid ops') h.1 (fun hd => by
    rw [run_next, run_next]; exact h.2 hd)
  refine ⟨h1, fun n hn => ?_, ?_⟩
  · unfold Returns at hn ⊢
    rw [runOps_snoc] at hn ⊢
    obtain ⟨n', e, hl⟩ := h2 n (exec_of_images hn)
    refine ⟨n', step_images_ok e, ?_⟩
    rw [runOps_snoc, look_view, look_view, hl]
  · rintro hin k k' ⟨i, hi, hk⟩ ⟨j, hj, hk'⟩
    rw [hi] at hj
    cases hj
    rw [runOps_snoc, runOps_snoc, look_view, look_view, h3 hin i k k' hi hk hk']

/-- The images a call is given keep their looks through calls that leave them alone. -/
theorem leaves_looks {ops more : List Op} {o : Op} (h : LeavesInputs ops more o) {i : Nat} (hi : i ∈ o.operands) {k : Nat}
    (hk : (runOps ops).images[i]? = some k) :
    (runOps (ops ++ more)).images[i]? = some k ∧ (runOps (ops ++ more)).look k = (runOps ops).look k := by
  induction more using List.reverseRecOn with
  | nil => rw [List.append_nil]; exact ⟨hk, rfl⟩
  | append_singleton more p ih =>
    obtain ⟨i1, i2⟩ := ih fun pre q post hq => h pre q (post ++ [p]) (by rw [hq]; simp)
    obtain ⟨hrot, hmask, -, hno⟩ := h more p [] rfl
    rw [← List.append_assoc, runOps_snoc]
    constructor
    · obtain ⟨l, hl⟩ := C40_images_kept (ops ++ more) p
      rw [hl, List.getElem?_append_left (List.getElem?_eq_some_iff.1 i1).1]
      exact i1
    · rw [← i2, look_view, look_view]
      rcases step_view_old (runOps_valid (ops ++ more)) p (mem_lt (runOps_valid _) i1) (hno i hi k hk) with e | ⟨hw, -⟩
      · rw [e]
      · cases p with
        | rotate j rot => exact absurd rfl (hrot j rot)
        | maskOcculter j y x r over fill => exact absurd rfl (hmask j y x r over fill)
        | _ => cases hw

theorem leaves_default {ops more : List Op} {o : Op} (h : LeavesInputs ops more o) :
    lastDefault (ops ++ more) = lastDefault ops := by
  induction more using List.reverseRecOn with
  | nil => rw [List.append_nil]
  | append_singleton more p ih =>
    have hp := (h more p [] rfl).2.2.1
    rw [← List.append_assoc, lastDefault_snoc, ih fun pre q post hq => h pre q (post ++ [p]) (by rw [hq]; simp)]
    cases p with
    | setDefault d => exact absurd rfl (hp d)
    | _ => rfl

/-- C128, the part that holds: a call, made again after others that leave alone the images it is given (which exist), among
them perhaps the call itself, raises the same exception or returns an image that looks the same. -/
theorem C128_again_partial (ops more : List Op) (o : Op) (h : LeavesInputs ops more o)
    (hex : ∀ i ∈ o.operands, i < (runOps ops).images.length) :
    (∀ e, Raises (runOps ops) o e ↔ Raises (runOps (ops ++ more)) o e) ∧
    ∀ n, Returns ops o n → ∃ n', Returns (ops ++ more) o n' ∧
      (runOps (ops ++ more ++ [o])).look n' = (runOps (ops ++ [o])).look n := by
  have hin : SameInputs ops (ops ++ more) o := by
    refine ⟨fun i hi => ?_, fun _ => by rw [leaves_default h]⟩
    obtain ⟨h1, h2⟩ := leaves_looks h hi (List.getElem?_eq_getElem (hex i hi))
    unfold State.lookAt
    rw [h1, List.getElem?_eq_getElem (hex i hi), Option.map_some, Option.map_some, h2]
  exact ⟨(C128_determined ops _ o hin).1, (C128_determined ops _ o hin).2.1⟩

/-- C128, the part that holds: a call that returns a new image, other than `rotate`, made twice in a row. -/
theorem C128_twice_partial (ops : List Op) (o : Op) (hnew : o.inPlace = false) (hrot : ∀ i rot, o ≠ .rotate i rot) (n : Nat)
    (hn : Returns ops o n) :
    ∃ n', n' ≠ n ∧ Returns (ops ++ [o]) o n' ∧ (runOps (ops ++ [o] ++ [o])).look n' = (runOps (ops ++ [o])).look n := by
  have hex : (exec (runOps ops).images o (runOps ops).heap).1 = .ok (some n) := by
    unfold Returns at hn; rw [runOps_snoc] at hn; exact exec_of_images hn
  have hop : ∀ i ∈ o.operands, i < (runOps ops).images.length := by
    intro i hi
    by_contra hlt
    have hnone : (runOps ops).images[i]? = none := List.getElem?_eq_none (by omega)
    have bad : ∀ {α : Type} (m : Py Unit × ImgView) (x : Py α) (f : Unit → α), x = m.1.map f → m.1 = .error .nameError →
        x = .error .nameError := fun m x f h1 h2 => by rw [h1, h2]; rfl
    have hopt : ∀ (j : Option Nat) (v : ImgView) (f : Option (Img ℝ) → Py Unit × ImgView), i ∈ j.toList →
        (optV (runOps ops) j v f).1 = .error .nameError := by
      intro j v f hj
      cases j with
      | none => cases hj
      | some j =>
        have : i = j := by simpa using hj
        subst this
        unfold optV secondV
        dsimp only
        rw [hnone]
    have hopt2 : ∀ (j l : Option Nat) (v : ImgView) (f : Option (Img ℝ) → Option (Img ℝ) → Py Unit × ImgView),
        i ∈ j.toList ∨ i ∈ l.toList → ∃ e, (optV (runOps ops) j v fun d => optV (runOps ops) l v (f d)).1 = .error e := by
      intro j l v f hj
      by_cases h1 : i ∈ j.toList
      · exact ⟨_, hopt j v _ h1⟩
      · have h2 : i ∈ l.toList := hj.resolve_left h1
        cases j with
        | none => exact ⟨_, hopt l v _ h2⟩
        | some j =>
          unfold optV
          dsimp only
          unfold secondV
          cases (runOps ops).images[j]? with
          | none => exact ⟨_, rfl⟩
          | some k => exact ⟨_, hopt l v _ h2⟩
    cases hsrc : o.source with
    | none =>
      cases o with
      | fromArray d dic dark flat junk =>
        let v : ImgView := ⟨d, ⟨fun _ => d, false⟩, polarCamAngles, false, false, false, false, none⟩
        have h1 := (exec_fromArray (runOps_valid ops) d dic dark flat junk v).1
        simp only [Op.operands, List.mem_append] at hi
        obtain ⟨e, he⟩ := hopt2 dark flat v _ hi
        unfold fromArrayV at h1
        rw [hex] at h1
        rw [he] at h1
        cases h1
      | setDefault d => cases hi
      | _ => cases hsrc
    | some j =>
      cases hj : (runOps ops).images[j]? with
      | none =>
        have := exec_no_name hsrc hj
        rw [hex] at this
        cases this
      | some k =>
        have h1 := (exec_new_value (runOps_valid ops) hsrc hj hnew).1
        rw [hex] at h1
        have hne : i ≠ j := by
          rintro rfl
          rw [hnone] at hj
          cases hj
        have hsec : ∀ (v : ImgView) (f : Img ℝ → Py Unit × ImgView), (secondV (runOps ops) i v f).1 = .error .nameError := by
          intro v f
          unfold secondV
          rw [hnone]
        cases o with
        | fromImage j' dic dark flat junk =>
          cases hsrc
          simp only [Op.operands, List.mem_cons, List.mem_append] at hi
          obtain ⟨e, he⟩ := hopt2 dark flat ((runOps ops).heap.view k) (fun d f => applyCorrectionsV junk d f ((runOps ops).heap.view k))
            (hi.resolve_left hne)
          unfold Op.value at h1
          dsimp only at h1
          rw [he] at h1
          cases h1
        | cleanHotPixels j' f median =>
          cases hsrc
          simp only [Op.operands, List.mem_cons, List.not_mem_nil, or_false] at hi
          obtain rfl := hi.resolve_left hne
          unfold Op.value at h1
          dsimp only at h1
          rw [hsec] at h1
          cases h1
        | arithImage op j' l junk =>
          cases hsrc
          simp only [Op.operands, List.mem_cons, List.not_mem_nil, or_false] at hi
          obtain rfl := hi.resolve_left hne
          unfold Op.value at h1
          dsimp only at h1
          rw [hsec] at h1
          cases h1
        | setDefault d => cases hsrc
        | fromArray d dic dark flat junk => cases hsrc
        | _ =>
          first
            | (cases hnew; done)
            | (cases hsrc
               simp only [Op.operands, List.mem_cons, List.not_mem_nil, or_false] at hi
               exact hne hi)
  have hl : LeavesInputs ops [o] o := by
    intro pre p post hp
    have : pre = [] ∧ p = o ∧ post = [] := by
      cases pre with
      | nil => simp at hp; exact ⟨rfl, hp.1.symm, hp.2⟩
      | cons a l => simp at hp
    obtain ⟨rfl, rfl, rfl⟩ := this
    refine ⟨hrot, ?_, ?_, ?_⟩
    · rintro i y x r over fill rfl; cases hnew
    · rintro d rfl
      cases hex
    · intro i _ k _ hc
      rw [hnew] at hc
      cases hc.1
  obtain ⟨n', h1, h2⟩ := (C128_again_partial ops [o] o hl hop).2 n hn
  refine ⟨n', ?_, h1, h2⟩
  rintro rfl
  have hv := runOps_valid (ops ++ [o])
  have hmem : n' ∈ (runOps (ops ++ [o])).images := by
    unfold Returns at hn
    rw [hn]
    simp
  have hlt := hv.2 n' hmem
  have hex2 : (exec (runOps (ops ++ [o])).images o (runOps (ops ++ [o])).heap).1 = .ok (some n') := by
    unfold Returns at h1; rw [runOps_snoc] at h1; exact exec_of_images h1
  have := (((exec_frame _ hv o _ rfl).1 _ hex2).2 n' rfl).2.2 hnew
  omega

/-- In place calls whose second application changes nothing. -/
theorem place_again {s : State} (hv : Valid s) {o : Op} {i k0 : Nat} (hsrc : o.source = some i) (hk0 : s.images[i]? = some k0)
    (hin : o.inPlace = true)
    (htw : (o.value (step s o) (o.value s (s.heap.view k0)).2).2 = (o.value s (s.heap.view k0)).2) (k : Nat)
    (hk : k ∈ (step s o).images) : (step (step s o) o).heap.view k = (step s o).heap.view k := by
  have hv1 := step_valid hv o
  have hk1 : (step s o).images[i]? = some k0 := by
    rcases step_images s o with h | ⟨n, -, h⟩
    · rw [h]; exact hk0
    · rw [h, List.getElem?_append_left (List.getElem?_eq_some_iff.1 hk0).1]; exact hk0
  have e1 : (step s o).heap.view k0 = (o.value s (s.heap.view k0)).2 := by
    rw [step_heap]; exact (exec_place_value hsrc hk0 hin).2
  have e2 : (o.value (step s o) ((step s o).heap.view k0)).2 = (step s o).heap.view k0 := by rw [e1, htw]
  have e3 : (step (step s o) o).heap.view k0 = (step s o).heap.view k0 := by
    rw [step_heap, (exec_place_value hsrc hk1 hin).2, e2]
  by_cases hc : o.CalledOn (step s o) k
  · obtain ⟨j, hj, hjk⟩ := hc
    rw [hsrc] at hj
    cases hj
    rw [hk1] at hjk
    cases hjk
    exact e3
  · rcases step_view_old hv1 o (hv1.2 k hk) (fun h => hc h.2) with h | ⟨-, r, ⟨j, hj, hjr⟩, h1, h2⟩
    · exact h
    · rw [hsrc] at hj
      cases hj
      rw [hk1] at hjr
      cases hjr
      rw [h2, e2, ← h1]

theorem missing_again {s : State} {o : Op} {i : Nat} (hsrc : o.source = some i) (hk0 : s.images[i]? = none) : step s o = s := by
  have h : exec s.images o s.heap = (.error .nameError, s.heap) := by
    cases o <;> first
      | (cases hsrc; done)
      | (cases hsrc; unfold exec; dsimp only; rw [run_named_none hk0])
  unfold step
  rw [h]

/-- C128: demosaicing an image again, in the same way, changes no image, whether it raises or not. -/
theorem C128_demosaic_again (ops : List Op) (i : Nat) (mode : String) (k : Nat)
    (hk : k ∈ (runOps (ops ++ [.demosaic i mode])).images) :
    (runOps (ops ++ [.demosaic i mode] ++ [.demosaic i mode])).look k = (runOps (ops ++ [.demosaic i mode])).look k := by
  rw [runOps_snoc (ops ++ _), runOps_snoc] at *
  rw [look_view, look_view]
  cases h : (runOps ops).images[i]? with
  | none => rw [missing_again (o := .demosaic i mode) rfl h, missing_again (o := .demosaic i mode) rfl h]
  | some k0 =>
    rw [place_again (runOps_valid ops) (o := .demosaic i mode) rfl h rfl ?_ k hk]
    show (demosaicV mode (demosaicV mode _).2).2 = _
    rw [demosaicV_twice]
    rfl

/-- C128: masking the occulter again, with the same circle and fill, changes no image. -/
theorem C128_mask_again (ops : List Op) (i : Nat) (y x r over fill : ℝ) (k : Nat)
    (hk : k ∈ (runOps (ops ++ [.maskOcculter i y x r over fill])).images) :
    (runOps (ops ++ [.maskOcculter i y x r over fill] ++ [.maskOcculter i y x r over fill])).look k =
      (runOps (ops ++ [.maskOcculter i y x r over fill])).look k := by
  rw [runOps_snoc (ops ++ _), runOps_snoc] at *
  rw [look_view, look_view]
  cases h : (runOps ops).images[i]? with
  | none => rw [missing_again (o := .maskOcculter i y x r over fill) rfl h, missing_again (o := .maskOcculter i y x r over fill) rfl h]
  | some k0 =>
    rw [place_again (runOps_valid ops) (o := .maskOcculter i y x r over fill) rfl h rfl ?_ k hk]
    show (maskOcculterV y x r over fill (maskOcculterV y x r over fill _).2).2 = _
    rw [maskOcculterV_twice (run_sound ops k0 (List.mem_of_getElem? h))]
    rfl

/-- C128: an image that `demodulate` returned, demodulated again with the same demodulator, gives an image that looks the
same. -/
theorem C128_demodulate_again (ops : List Op) (i : Nat) (D : Demodulator ℝ) (dem : Bool) (n : Nat)
    (hn : Returns ops (.demodulate i D dem) n) :
    ∃ n', Returns (ops ++ [.demodulate i D dem]) (.demodulate (runOps ops).images.length D dem) n' ∧
      (runOps (ops ++ [.demodulate i D dem] ++ [.demodulate (runOps ops).images.length D dem])).look n' =
        (runOps (ops ++ [.demodulate i D dem])).look n := by
  unfold Returns at hn ⊢
  rw [runOps_snoc] at hn
  rw [runOps_snoc (ops ++ _), runOps_snoc ops]
  have hv := runOps_valid ops
  have hv1 := step_valid hv (.demodulate i D dem)
  have hj : (step (runOps ops) (.demodulate i D dem)).images[(runOps ops).images.length]? = some n := by
    rw [hn]; simp
  cases hi : (runOps ops).images[i]? with
  | none =>
    have := exec_no_name (s := runOps ops) (o := .demodulate i D dem) rfl hi
    rw [exec_of_images hn] at this
    cases this
  | some k =>
    have hnew := exec_new_value hv (o := .demodulate i D dem) rfl hi rfl
    obtain ⟨hok, -⟩ := newCall_ok hnew hn
    have hview := returned_value hv (exec_of_images hn) (o := .demodulate i D dem) rfl hi
    have hval : (Op.demodulate i D dem).value (runOps ops) ((runOps ops).heap.view k) =
        demodulateV D dem ((runOps ops).heap.view k) := rfl
    rw [hval] at hok hview
    have hnew2 := exec_new_value hv1 (o := .demodulate (runOps ops).images.length D dem) rfl hj rfl
    have hval2 : (Op.demodulate (runOps ops).images.length D dem).value (step (runOps ops) (.demodulate i D dem))
        ((step (runOps ops) (.demodulate i D dem)).heap.view n) = demodulateV D dem ((runOps ops).heap.view k) := by
      rw [hview]
      exact demodulateV_again hok
    rw [hval2] at hnew2
    have hex := hnew2.1
    rw [hok] at hex
    refine ⟨_, step_images_ok hex, ?_⟩
    rw [look_view, look_view, step_heap _ (Op.demodulate (runOps ops).images.length D dem), hnew2.2 hok, hview]

/-! ## Rotation -/

theorem rotate_source_view {s : State} (hv : Valid s) {i k : Nat} (rot : Img ℝ → Py (Img ℝ)) (hk : s.images[i]? = some k) :
    (step s (.rotate i rot)).heap.view k = { s.heap.view k with stokes := (rotateV rot (s.heap.view k)).2.stokes } := by
  have hlt := mem_lt hv hk
  have fr := step_frame hv (.rotate i rot)
  have hobj := fr.obj k hlt (fun h => by cases h.1)
  have hdata := fr.data _ (hv.1 k hlt).1
  have hst : (step s (.rotate i rot)).heap.stokes.cell (s.heap.objs.cell k).stokes = (rotateV rot (s.heap.view k)).2.stokes :=
    shared_cell hv (o := .rotate i rot) rfl ⟨i, rfl, hk⟩
  rw [← hst]
  unfold Heap.view Heap.dataOf Heap.stokesOf Heap.dicOf
  rw [hobj, hdata]

theorem rotateV_halfTurn {v : ImgView} (hh : v.data.h % 2 = 0) (hw : v.data.w % 2 = 0) : ∃ d, rotateV halfTurn v =
    (.ok (), { v with data := d, stokes := ⟨fun k => Img.ofFn (v.stokes.planes k).h
    (v.stokes.planes k).w (fun y x => (v.stokes.planes k).px ((v.stokes.planes k).h - 1 - y) ((v.stokes.planes k).w - 1 - x)),
      v.stokes.isList⟩ }) := by
  obtain ⟨d, hd⟩ := rotateData_halfTurn hh hw
  refine ⟨d, ?_⟩
  unfold rotateV
  rw [hd]
  unfold withVal rewriteStokesV andThen
  dsimp only
  rw [rewriteV_halfTurn]

/-- C128, violation: turning the same image by 180° twice gives two results with different Stokes maps. -/
theorem C128_rotate_differs : ∃ (ops : List Op) (o : Op) (n n' : Nat), o.inPlace = false ∧ Returns ops o n ∧
    Returns (ops ++ [o]) o n' ∧ (runOps (ops ++ [o] ++ [o])).stokes n' ≠ (runOps (ops ++ [o])).stokes n := by
  obtain ⟨S, hS, hsh, h0, h1, hrun⟩ := darkBright_run
  set ops : List Op := [.fromArray darkBright none none none fun _ _ => 0] with hops
  have hv := runOps_valid ops
  have hk : (runOps ops).images[0]? = some 0 := by rw [hrun]; rfl
  have hview : (runOps ops).heap.view 0 = freshView darkBright S polarCamAngles := by
    rw [hrun]
    exact arrayHeap_view darkBright S none initState.heap
  obtain ⟨d, hd⟩ := rotateV_halfTurn (v := freshView darkBright S polarCamAngles)
    (show darkBright.h % 2 = 0 from rfl) (show darkBright.w % 2 = 0 from rfl)
  have a := exec_new_value hv (o := .rotate 0 halfTurn) rfl hk rfl
  have av : (Op.rotate 0 halfTurn).value (runOps ops) ((runOps ops).heap.view 0) = rotateV halfTurn ((runOps ops).heap.view 0) := rfl
  rw [av, hview, hd] at a
  have hv1 := step_valid hv (.rotate 0 halfTurn)
  have hk1 : (step (runOps ops) (.rotate 0 halfTurn)).images[0]? = some 0 := by
    rw [step_images_ok a.1, List.getElem?_append_left (List.getElem?_eq_some_iff.1 hk).1]; exact hk
  have hview1 := rotate_source_view hv halfTurn hk
  rw [hview, hd] at hview1
  have b := exec_new_value hv1 (o := .rotate 0 halfTurn) rfl hk1 rfl
  have bv : (Op.rotate 0 halfTurn).value (step (runOps ops) (.rotate 0 halfTurn))
      ((step (runOps ops) (.rotate 0 halfTurn)).heap.view 0) =
      rotateV halfTurn ((step (runOps ops) (.rotate 0 halfTurn)).heap.view 0) := rfl
  rw [bv, hview1] at b
  obtain ⟨d', hd'⟩ := rotateV_halfTurn (v := { freshView darkBright S polarCamAngles with stokes :=
    ⟨fun k => Img.ofFn (S k).h (S k).w (fun y x => (S k).px ((S k).h - 1 - y) ((S k).w - 1 - x)), false⟩ })
    (show darkBright.h % 2 = 0 from rfl) (show darkBright.w % 2 = 0 from rfl)
  have hd'' := hd'
  dsimp only [freshView] at hd'' b
  rw [hd''] at b
  refine ⟨ops, .rotate 0 halfTurn, (runOps ops).heap.objs.size, (step (runOps ops) (.rotate 0 halfTurn)).heap.objs.size, rfl,
    ?_, ?_, ?_⟩
  · unfold Returns
    rw [runOps_snoc]
    exact step_images_ok a.1
  · unfold Returns
    rw [runOps_snoc (ops ++ _), runOps_snoc ops]
    exact step_images_ok b.1
  · rw [runOps_snoc (ops ++ _), runOps_snoc ops]
    intro heq
    have e1 := congrArg (fun v => v.stokes.planes) (a.2 rfl)
    have e2 := congrArg (fun v => v.stokes.planes) (b.2 rfl)
    rw [← step_heap] at e1 e2
    have hpx := congrArg (fun A => A.px 0 0) (congrFun ((e2.symm.trans heq).trans e1) 0)
    dsimp only [freshView] at hpx
    rw [Img.ofFn_px (by show 0 < (S 0).h; rw [(hsh 0).1]; decide) (by show 0 < (S 0).w; rw [(hsh 0).2]; decide)] at hpx
    rw [Img.ofFn_px (by show (S 0).h - 1 - 0 < (S 0).h; rw [(hsh 0).1]; decide)
      (by show (S 0).w - 1 - 0 < (S 0).w; rw [(hsh 0).2]; decide)] at hpx
    rw [Img.ofFn_px (by rw [(hsh 0).1]; decide) (by rw [(hsh 0).2]; decide)] at hpx
    simp only [Img.ofFn, (hsh 0).1, (hsh 0).2] at hpx
    norm_num at hpx
    rw [h0, h1] at hpx
    norm_num at hpx

/-! ## Examples -/

/-- An image is copied twice. -/
example : ∃ n n', Returns [.fromArray darkBright none none none fun _ _ => 0] (.fromImage 0 none none none fun _ _ => 0) n ∧
    n' ≠ n ∧ Returns ([.fromArray darkBright none none none fun _ _ => 0] ++ [.fromImage 0 none none none fun _ _ => 0])
      (.fromImage 0 none none none fun _ _ => 0) n' := by
  obtain ⟨S, hS, hsh, h0, h1, hrun⟩ := darkBright_run
  have hn : Returns [.fromArray darkBright none none none fun _ _ => 0] (.fromImage 0 none none none fun _ _ => 0) 1 := by
    unfold Returns
    rw [runOps_snoc, hrun, step_fromImage (k := 0) rfl]
    rfl
  obtain ⟨n', h1, h2, -⟩ := C128_twice_partial _ _ rfl (by intro i rot h; cases h) 1 hn
  exact ⟨1, n', hn, h1, h2⟩

/-- Two images; the second is demosaiced and corrected in place, which leaves alone what a demodulation of the first is
given. -/
example (D : Demodulator ℝ) : LeavesInputs [.fromArray darkBright none none none fun _ _ => 0]
    [.fromImage 0 none none none fun _ _ => 0, .demosaic 1 "adjacent", .correctIfov 1] (.demodulate 0 D false) := by
  obtain ⟨S, hS, hsh, h0, h1, hrun⟩ := darkBright_run
  have hk0 : ∀ k, (runOps [.fromArray darkBright none none none fun _ _ => 0]).images[0]? = some k → k = 0 := by
    intro k hk
    rw [hrun] at hk
    exact (Option.some.inj hk).symm
  have hr2 : (runOps ([.fromArray darkBright none none none fun _ _ => 0] ++ [.fromImage 0 none none none fun _ _ => 0])).images =
      [0, 1] := by
    rw [runOps_snoc, hrun, step_fromImage (k := 0) rfl]
    rfl
  have hr3 : ∃ l, (runOps ([.fromArray darkBright none none none fun _ _ => 0] ++
      [.fromImage 0 none none none fun _ _ => 0, .demosaic 1 "adjacent"])).images = [0, 1] ++ l := by
    obtain ⟨l, hl⟩ := C40_images_kept ([.fromArray darkBright none none none fun _ _ => 0] ++
      [.fromImage 0 none none none fun _ _ => 0]) (.demosaic 1 "adjacent")
    rw [← runOps_snoc, hr2] at hl
    exact ⟨l, hl⟩
  intro pre p post hp
  have hcases : (pre = [] ∧ p = .fromImage 0 none none none fun _ _ => 0) ∨
      (pre = [.fromImage 0 none none none fun _ _ => 0] ∧ p = .demosaic 1 "adjacent") ∨
      (pre = [.fromImage 0 none none none fun _ _ => 0, .demosaic 1 "adjacent"] ∧ p = .correctIfov 1) := by
    rcases pre with _ | ⟨a, _ | ⟨b, _ | ⟨c, l⟩⟩⟩ <;> simp_all
  rcases hcases with ⟨rfl, rfl⟩ | ⟨rfl, rfl⟩ | ⟨rfl, rfl⟩
  · refine ⟨by intros; simp, by intros; simp, by intros; simp, ?_⟩
    rintro i - k - ⟨h, -⟩
    cases h
  · refine ⟨by intros; simp, by intros; simp, by intros; simp, ?_⟩
    rintro i hi k hk ⟨-, j, hj, hjk⟩
    have : i = 0 := by simpa [Op.operands] using hi
    subst this
    cases hj
    rw [hr2, hk0 k hk] at hjk
    cases hjk
  · refine ⟨by intros; simp, by intros; simp, by intros; simp, ?_⟩
    rintro i hi k hk ⟨-, j, hj, hjk⟩
    have : i = 0 := by simpa [Op.operands] using hi
    subst this
    cases hj
    obtain ⟨l, hl⟩ := hr3
    rw [hl, hk0 k hk] at hjk
    cases hjk

/-- An image that can be demodulated, and again. -/
example : ∃ n n', Returns oneImage (.demodulate 0 ⟨fun _ _ => Img.const 1 2 1, some (Img.const 1 2 1)⟩ false) n ∧
    Returns (oneImage ++ [.demodulate 0 ⟨fun _ _ => Img.const 1 2 1, some (Img.const 1 2 1)⟩ false])
      (.demodulate (runOps oneImage).images.length ⟨fun _ _ => Img.const 1 2 1, some (Img.const 1 2 1)⟩ false) n' := by
  obtain ⟨h1, h2, h3⟩ := oneImage_facts
  obtain ⟨t1, -⟩ := C77_theoretical_return oneImage h3 0 0 h1
  obtain ⟨n, hn⟩ := t1 ⟨fun _ _ => Img.const 1 2 1, some (Img.const 1 2 1)⟩ (by
    rw [h2]
    refine ⟨fun _ _ => ⟨rfl, rfl⟩, ?_⟩
    rintro f hf
    cases hf
    exact ⟨rfl, rfl⟩)
  obtain ⟨n', hn', -⟩ := C128_demodulate_again oneImage 0 _ false n hn
  exact ⟨n, n', hn, hn'⟩

end Micropol
