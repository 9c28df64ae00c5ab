import Verif.Props.ObjectStokes
import Verif.Lemmas.AnyHistory
import Verif.Props.ObjectHeader
import Verif.Props.Corrections
import Verif.Props.Congrid
import Verif.Props.Shift
import Verif.Props.Rebin
import Verif.Props.Demodulate
import Verif.Spec.Prepare
import Verif.Lemmas.Prepare

/-!
# C39, C77: what the methods of image objects do to the pixels, after any history

The array level theorems (C05, C09, C24, C35-C39, C70) say what the functions compute; these say that a method called on an
image object, at any point of any session, gives the image it returns exactly those pixels, computed from the pixels that the
image (and the second operand) had just before the call.
-/

set_option autoImplicit false

namespace Micropol

noncomputable section

open Classical Finset

/-- The image returned has the data of the value semantics, and there was no exception. -/
theorem returned_data {ops : List Op} {o : Op} {n : Nat} (hn : Returns ops o n) {i k : Nat} (hsrc : o.source = some i)
    (hk : (runOps ops).images[i]? = some k) :
    (o.value (runOps ops) ((runOps ops).heap.view k)).1 = .ok () ∧
    (runOps (ops ++ [o])).heap.view n = (o.value (runOps ops) ((runOps ops).heap.view k)).2 := by
  unfold Returns at hn
  rw [runOps_snoc] at hn ⊢
  have hx := exec_of_images hn
  refine ⟨?_, returned_value (runOps_valid ops) hx hsrc hk⟩
  cases hin : o.inPlace with
  | true =>
    have h1 := (exec_place_value hsrc hk hin).1
    rw [hx] at h1
    cases hv : (o.value (runOps ops) ((runOps ops).heap.view k)).1 with
    | error e => rw [hv] at h1; cases h1
    | ok u => rfl
  | false =>
    have h1 := (exec_new_value (runOps_valid ops) hsrc hk hin).1
    rw [hx] at h1
    cases hv : (o.value (runOps ops) ((runOps ops).heap.view k)).1 with
    | error e => rw [hv] at h1; cases h1
    | ok u => rfl

theorem updateData_data {d : Img ℝ} {v : ImgView} (h : (updateDataAndStokesV d v).1 = .ok ()) :
    (updateDataAndStokesV d v).2.data = d := by
  unfold updateDataAndStokesV updateStokesV at h ⊢
  obtain ⟨S, -, e⟩ := withVal_ok h
  rw [e]

/-- Computed, then stored. -/
theorem stored_data {x : Py (Img ℝ)} {v : ImgView} (h : (withVal x v fun d => updateDataAndStokesV d v).1 = .ok ()) :
    x = .ok (withVal x v fun d => updateDataAndStokesV d v).2.data := by
  obtain ⟨d, hd, e⟩ := withVal_ok h
  rw [e] at h ⊢
  rw [updateData_data h, hd]

theorem even_named {ops : List Op} {i k : Nat} (hk : (runOps ops).images[i]? = some k) :
    EvenImg ((runOps ops).data k) := C44_even ops k (List.mem_of_getElem? hk)

/-- Two images of even sides that can be combined have the same shape. -/
theorem same_of_ok {f : Nat → Nat → ℝ → ℝ → ℝ} {A B C : Img ℝ} (hA : EvenImg A) (hB : EvenImg B)
    (h : npBinAt f A B = .ok C) : A.SameShape B := by
  by_contra hne
  have hne' : A.h ≠ B.h ∨ A.w ≠ B.w := by unfold Img.SameShape at hne; tauto
  rw [npBinAt_error hA.1 hA.2 hB.1 hB.2 hne'] at h
  cases h

/-! ## C39 -/

/-- C39: `image op other`, at any point of any session: the images have the same shape (otherwise there is no result) and every
pixel of the result is the operator applied to the two pixels (division: where the divisor is not 0). -/
theorem C39_session_images (ops : List Op) (op : Arith) (i j k l n : Nat) (junk : Nat → Nat → ℝ)
    (hk : (runOps ops).images[i]? = some k) (hl : (runOps ops).images[j]? = some l)
    (hn : Returns ops (.arithImage op i j junk) n) :
    let A := (runOps ops).data k
    let B := (runOps ops).data l
    let C := (runOps (ops ++ [.arithImage op i j junk])).data n
    A.SameShape B ∧ C.SameShape A ∧ ∀ y x, y < A.h → x < A.w → op.Defined (B.px y x) →
      C.px y x = op.apply (A.px y x) (B.px y x) := by
  intro A B C
  obtain ⟨h1, h2⟩ := returned_data hn rfl hk
  have hA : EvenImg A := even_named hk
  have hB : EvenImg B := even_named hl
  have hC : C = _ := congrArg ImgView.data h2
  have e : (Op.arithImage op i j junk).value (runOps ops) ((runOps ops).heap.view k) =
      withVal (arithData op junk A (.image B)) ((runOps ops).heap.view k)
        fun d => updateDataAndStokesV d ((runOps ops).heap.view k) := by
    unfold Op.value secondV
    dsimp only
    rw [hl]
    rfl
  rw [e] at h1 hC
  have h3 := stored_data h1
  rw [← hC] at h3
  cases op with
  | add =>
    have hs : A.SameShape B := same_of_ok hA hB h3
    obtain ⟨r, _, _, er, -, -, hr, -, -, hp⟩ := C39_images A B hs
    have : r = C := Except.ok.inj (er.symm.trans h3)
    subst this
    exact ⟨hs, hr, fun y x hy hx _ => (hp y x hy hx).1⟩
  | sub =>
    have hs : A.SameShape B := same_of_ok hA hB h3
    obtain ⟨_, r, _, -, er, -, -, hr, -, hp⟩ := C39_images A B hs
    have : r = C := Except.ok.inj (er.symm.trans h3)
    subst this
    exact ⟨hs, hr, fun y x hy hx _ => (hp y x hy hx).2.1⟩
  | mul =>
    have hs : A.SameShape B := same_of_ok hA hB h3
    obtain ⟨_, _, r, -, -, er, -, -, hr, hp⟩ := C39_images A B hs
    have : r = C := Except.ok.inj (er.symm.trans h3)
    subst this
    exact ⟨hs, hr, fun y x hy hx _ => (hp y x hy hx).2.2⟩
  | div =>
    have hs : A.SameShape B := same_of_ok (f := fun y x a b => if b ≠ 0 then a / b else junk y x) hA hB h3
    obtain ⟨r, _, er, -, hr, -, hp⟩ := C39_div_partial junk A B hs 0
    have : r = C := Except.ok.inj (er.symm.trans h3)
    subst this
    exact ⟨hs, hr, fun y x hy hx hd => (hp y x hy hx).1 hd⟩

/-- C39: `image op number`, at any point of any session. -/
theorem C39_session_numbers (ops : List Op) (op : Arith) (i k n : Nat) (c : ℝ) (junk : Nat → Nat → ℝ)
    (hk : (runOps ops).images[i]? = some k) (hn : Returns ops (.arithNumber op i c junk) n) :
    let A := (runOps ops).data k
    let C := (runOps (ops ++ [.arithNumber op i c junk])).data n
    C.SameShape A ∧ ∀ y x, y < A.h → x < A.w → op.Defined c → C.px y x = op.apply (A.px y x) c := by
  intro A C
  obtain ⟨h1, h2⟩ := returned_data hn rfl hk
  have hC : C = _ := congrArg ImgView.data h2
  have h3 : arithData op junk A (.number c) = .ok C := by
    have e : (Op.arithNumber op i c junk).value (runOps ops) ((runOps ops).heap.view k) =
      withVal (arithData op junk A (.number c)) ((runOps ops).heap.view k) fun d =>
        withVal (dataStokes d ((runOps ops).heap.view k).dic) ((runOps ops).heap.view k)
          fun S => (.ok (), freshView d S ((runOps ops).heap.view k).dic) := rfl
    rw [e] at h1 hC
    obtain ⟨d, hd, e1⟩ := withVal_ok h1
    rw [e1] at h1 hC
    obtain ⟨S, -, e2⟩ := withVal_ok h1
    rw [e2] at hC
    rw [hd]
    exact congrArg Except.ok hC.symm
  cases op with
  | add =>
    obtain ⟨r, _, _, er, -, -, hr, -, -, hp⟩ := C39_numbers A c
    have : r = C := Except.ok.inj (er.symm.trans h3)
    subst this
    exact ⟨hr, fun y x hy hx _ => (hp y x hy hx).1⟩
  | sub =>
    obtain ⟨_, r, _, -, er, -, -, hr, -, hp⟩ := C39_numbers A c
    have : r = C := Except.ok.inj (er.symm.trans h3)
    subst this
    exact ⟨hr, fun y x hy hx _ => (hp y x hy hx).2.1⟩
  | mul =>
    obtain ⟨_, _, r, -, -, er, -, -, hr, hp⟩ := C39_numbers A c
    have : r = C := Except.ok.inj (er.symm.trans h3)
    subst this
    exact ⟨hr, fun y x hy hx _ => (hp y x hy hx).2.2⟩
  | div =>
    obtain ⟨_, r, -, er, -, hr, hp⟩ := C39_div_partial junk A A ⟨rfl, rfl⟩ c
    have : r = C := Except.ok.inj (er.symm.trans h3)
    subst this
    exact ⟨hr, fun y x hy hx hd => (hp y x hy hx).2 hd⟩

/-! ## C77 -/

/-- C77: a copy of an image has the same pixels and the same Stokes maps. -/
theorem C77_copy (ops : List Op) (i k : Nat) (dic : Option AngleDic) (junk : Nat → Nat → ℝ)
    (hk : (runOps ops).images[i]? = some k) :
    ∃ n, Returns ops (.fromImage i dic none none junk) n ∧
      (runOps (ops ++ [.fromImage i dic none none junk])).data n = (runOps ops).data k ∧
      (runOps (ops ++ [.fromImage i dic none none junk])).stokes n = (runOps ops).stokes k := by
  have hn : Returns ops (.fromImage i dic none none junk) (runOps ops).heap.objs.size := by
    unfold Returns
    rw [runOps_snoc, step_fromImage hk]
  obtain ⟨-, h2⟩ := returned_data hn rfl hk
  exact ⟨_, hn, congrArg ImgView.data h2, congrArg (fun v => v.stokes.planes) h2⟩

/-- C77: `rebin(b)` sums `b × b` pixels of the same family. -/
theorem C77_rebin (ops : List Op) (i k n : Nat) (b : Int) (hk : (runOps ops).images[i]? = some k)
    (hn : Returns ops (.rebin i b) n) :
    let A := (runOps ops).data k
    let C := (runOps (ops ++ [.rebin i b])).data n
    ∃ m : Nat, 1 ≤ m ∧ b = m ∧ C.HasShape (2 * (A.h / (2 * m))) (2 * (A.w / (2 * m))) ∧
      ∀ y x, y < C.h → x < C.w → C.px y x = familySum A m y x := by
  intro A C
  obtain ⟨h1, h2⟩ := returned_data hn rfl hk
  have hA : EvenImg A := even_named hk
  have hC : C = _ := congrArg ImgView.data h2
  have e : (Op.rebin i b).value (runOps ops) ((runOps ops).heap.view k) =
      if b ≤ 0 then (.error .valueError, (runOps ops).heap.view k) else
      withVal (micropolarrayRebin A b) ((runOps ops).heap.view k)
        fun d => updateDataAndStokesV d ((runOps ops).heap.view k) := rfl
  rw [e] at h1 hC
  split at h1
  · cases h1
  · rename_i hb
    rw [if_neg hb] at hC
    have h3 := stored_data h1
    rw [← hC] at h3
    obtain ⟨m, rfl⟩ : ∃ m : Nat, b = m := ⟨b.toNat, by omega⟩
    have hm : 1 ≤ m := by omega
    rw [micropolarrayRebin_ok A m hm hA.1 hA.2] at h3
    have h4 := (Except.ok.inj h3).symm
    refine ⟨m, hm, rfl, ⟨by rw [h4]; rfl, by rw [h4]; rfl⟩, ?_⟩
    intro y x hy hx
    rw [h4] at hy hx ⊢
    rw [Img.ofFn_px (by exact hy) (by exact hx)]
    exact blockSum_family A m y x

/-- C77: `shift(y, x)` moves the image by `2y` rows and `2x` columns. -/
theorem C77_shift (ops : List Op) (i k n : Nat) (y x : Int) (m : ℝ) (hk : (runOps ops).images[i]? = some k)
    (hn : Returns ops (.shift i y x m) n) :
    IsShiftOf ((runOps ops).data k) ((runOps (ops ++ [.shift i y x m])).data n) (2 * y) (2 * x) m := by
  obtain ⟨h1, h2⟩ := returned_data hn rfl hk
  have hA := even_named hk
  have hC := congrArg ImgView.data h2
  have h3 : shiftMicropol ((runOps ops).data k) y x m = .ok ((runOps (ops ++ [.shift i y x m])).data n) :=
    (stored_data (x := shiftMicropol ((runOps ops).data k) y x m) h1).trans (congrArg Except.ok hC.symm)
  rw [C05_shift_micropol _ hA.1 hA.2] at h3
  obtain ⟨r, er, hr⟩ := C03_shift ((runOps ops).data k) (2 * y) (2 * x) m
  have : r = (runOps (ops ++ [.shift i y x m])).data n := Except.ok.inj (er.symm.trans h3)
  rw [← this]
  exact hr

/-- C77: `clean_hot_pixels` replaces the flagged pixels by the filtered pixel of the same family, and only those. -/
theorem C77_hot_pixels (ops : List Op) (i j k l n : Nat) (median : Img ℝ → Img ℝ)
    (hf : ∀ A, (median A).SameShape A) (hk : (runOps ops).images[i]? = some k) (hl : (runOps ops).images[j]? = some l)
    (hs : ((runOps ops).data k).SameShape ((runOps ops).data l)) (hn : Returns ops (.cleanHotPixels i j median) n) :
    let A := (runOps ops).data k
    let F := (runOps ops).data l
    let C := (runOps (ops ++ [.cleanHotPixels i j median])).data n
    C.SameShape A ∧ ∀ y x, y < A.h → x < A.w → C.px y x =
      if F.px y x = 1 then (median (A.family (y % 2) (x % 2))).px (y / 2) (x / 2) else A.px y x := by
  intro A F C
  obtain ⟨h1, h2⟩ := returned_data hn rfl hk
  have hA : EvenImg A := even_named hk
  have hC : C = _ := congrArg ImgView.data h2
  have e : (Op.cleanHotPixels i j median).value (runOps ops) ((runOps ops).heap.view k) =
      withVal (cleanHotPixelsData median A F) ((runOps ops).heap.view k)
        fun d => updateDataAndStokesV d ((runOps ops).heap.view k) := by
    unfold Op.value secondV
    dsimp only
    rw [hl]
    rfl
  rw [e] at h1 hC
  have h3 := stored_data h1
  rw [← hC] at h3
  obtain ⟨r, er, hr, hp⟩ := C38_clean median hf A F _ (split_ok hA.1 hA.2) hs
  have : r = C := Except.ok.inj (er.symm.trans h3)
  subst this
  refine ⟨hr, ?_⟩
  intro y x hy hx
  obtain ⟨hh, hw⟩ := hA
  have := hp (y / 2) (x / 2) ⟨2 * (y % 2) + x % 2, by omega⟩ (by omega) (by omega)
  dsimp only at this
  rw [show (2 * (y % 2) + x % 2) / 2 = y % 2 by omega, show (2 * (y % 2) + x % 2) % 2 = x % 2 by omega,
    show 2 * (y / 2) + y % 2 = y by omega, show 2 * (x / 2) + x % 2 = x by omega] at this
  split
  · rename_i h; exact this.2 h
  · rename_i h; exact this.1 h

/-- The pixels after an in place call. -/
theorem place_data {ops : List Op} {o : Op} {i k : Nat} (hin : o.inPlace = true) (hsrc : o.source = some i)
    (hk : (runOps ops).images[i]? = some k) :
    (runOps (ops ++ [o])).data k = (o.value (runOps ops) ((runOps ops).heap.view k)).2.data := by
  have := (exec_place_value hsrc hk hin).2
  rw [runOps_snoc]
  unfold State.data
  rw [step_heap]
  exact congrArg ImgView.data this

theorem place_returns {ops : List Op} {o : Op} {i k n : Nat} (hin : o.inPlace = true) (hsrc : o.source = some i)
    (hk : (runOps ops).images[i]? = some k) (hn : Returns ops o n) : n = k := by
  unfold Returns at hn
  rw [runOps_snoc] at hn
  have hx := exec_of_images hn
  have h1 := (exec_place_value hsrc hk hin).1
  rw [hx] at h1
  cases hv : (o.value (runOps ops) ((runOps ops).heap.view k)).1 with
  | error e => rw [hv] at h1; cases h1
  | ok u =>
    rw [hv] at h1
    injection h1 with h1
    cases o with
    | demosaic i m => injection h1
    | subtractDark i d => injection h1
    | correctFlat i f j => injection h1
    | correctIfov i => injection h1
    | maskOcculter i y x r ov f => cases h1
    | _ => cases hin

theorem marked_data {x : Py (Img ℝ)} {v : ImgView} {m : ImgView → ImgView} (hm : ∀ v, (m v).data = v.data)
    (h : (withVal x v fun d => andThen (updateDataAndStokesV d v) fun v => (.ok (), m v)).1 = .ok ()) :
    x = .ok (withVal x v fun d => andThen (updateDataAndStokesV d v) fun v => (.ok (), m v)).2.data := by
  obtain ⟨d, hd, e⟩ := withVal_ok h
  rw [e] at h ⊢
  obtain ⟨w, hw, e2⟩ := andThen_ok h
  rw [e2]
  dsimp only
  rw [hm, hd]
  have := updateData_data (d := d) (v := v) (by rw [hw])
  rw [hw] at this
  exact congrArg Except.ok this.symm

/-- C77: `subtract_dark`, in place: every pixel becomes `max (pixel - dark, 0)`. -/
theorem C77_dark (ops : List Op) (i j k l n : Nat) (hk : (runOps ops).images[i]? = some k)
    (hl : (runOps ops).images[j]? = some l) (hn : Returns ops (.subtractDark i j) n) :
    let A := (runOps ops).data k
    let B := (runOps ops).data l
    let C := (runOps (ops ++ [.subtractDark i j])).data k
    n = k ∧ A.SameShape B ∧ C.SameShape A ∧ ∀ y x, y < A.h → x < A.w → C.px y x = max (A.px y x - B.px y x) 0 := by
  intro A B C
  obtain ⟨h1, h2⟩ := returned_data hn rfl hk
  have hA : EvenImg A := even_named hk
  have hB : EvenImg B := even_named hl
  have hC : C = _ := place_data (o := .subtractDark i j) rfl rfl hk
  have e : (Op.subtractDark i j).value (runOps ops) ((runOps ops).heap.view k) =
      withVal (subtractDarkData A B) ((runOps ops).heap.view k) fun d =>
        andThen (updateDataAndStokesV d ((runOps ops).heap.view k)) fun v => (.ok (), { v with darkSubtracted := true }) := by
    unfold Op.value secondV
    dsimp only
    rw [hl]
    rfl
  rw [e] at h1 hC
  have h3 := marked_data (m := fun v => { v with darkSubtracted := true }) (fun _ => rfl) h1
  rw [← hC] at h3
  have hs : A.SameShape B := by
    unfold subtractDarkData at h3
    obtain ⟨D, hD, -⟩ := Py.bind_eq_ok.1 h3
    exact same_of_ok (f := fun _ _ a b => a - b) hA hB hD
  obtain ⟨r, er, hr, hp⟩ := C35_dark A B hs
  have : r = C := Except.ok.inj (er.symm.trans h3)
  subst this
  exact ⟨place_returns rfl rfl hk hn, hs, hr, hp⟩

/-- C77: `correct_flat`, in place: every pixel is divided by the flat normalised to mean 1 (where the flat is not 0). -/
theorem C77_flat (ops : List Op) (i j k l n : Nat) (junk : Nat → Nat → ℝ) (hk : (runOps ops).images[i]? = some k)
    (hl : (runOps ops).images[j]? = some l) (hn : Returns ops (.correctFlat i j junk) n) :
    let A := (runOps ops).data k
    let B := (runOps ops).data l
    let C := (runOps (ops ++ [.correctFlat i j junk])).data k
    n = k ∧ A.SameShape B ∧ C.SameShape A ∧ ∀ y x, y < A.h → x < A.w → B.mean ≠ 0 → B.px y x ≠ 0 →
      C.px y x = A.px y x * B.mean / B.px y x := by
  intro A B C
  obtain ⟨h1, h2⟩ := returned_data hn rfl hk
  have hA : EvenImg A := even_named hk
  have hB : EvenImg B := even_named hl
  have hC : C = _ := place_data (o := .correctFlat i j junk) rfl rfl hk
  have e : (Op.correctFlat i j junk).value (runOps ops) ((runOps ops).heap.view k) =
      withVal (correctFlatData junk A B) ((runOps ops).heap.view k) fun d =>
        andThen (updateDataAndStokesV d ((runOps ops).heap.view k)) fun v => (.ok (), { v with flatSubtracted := true }) := by
    unfold Op.value secondV
    dsimp only
    rw [hl]
    rfl
  rw [e] at h1 hC
  have h3 := marked_data (m := fun v => { v with flatSubtracted := true }) (fun _ => rfl) h1
  rw [← hC] at h3
  have hs : A.SameShape B := by
    have h4 := h3
    unfold correctFlatData at h4
    obtain ⟨D, -, hD⟩ := Py.bind_eq_ok.1 h4
    split at hD
    · cases hD
    · exact same_of_ok (f := fun y x a b => if b ≠ 0 then a / b else junk y x) (B := B.map fun v => v / D) hA hB hD
  have hsh := correctFlatData_shape hA hB h3
  refine ⟨place_returns rfl rfl hk hn, hs, hsh, ?_⟩
  intro y x hy hx hm hp
  obtain ⟨r, er, hr, hpx⟩ := C36_flat_partial junk A B hs (by omega) (by omega) hm
  have : r = C := Except.ok.inj (er.symm.trans h3)
  rw [← this]
  exact hpx y x hy hx hp

/-- C77: `correct_ifov`, in place. -/
theorem C77_ifov (ops : List Op) (i k n : Nat) (hk : (runOps ops).images[i]? = some k)
    (hn : Returns ops (.correctIfov i) n) :
    let A := (runOps ops).data k
    let C := (runOps (ops ++ [.correctIfov i])).data k
    n = k ∧ C.SameShape A ∧ ∀ y x, y < A.h → x < A.w →
      ((y < 2 ∨ x < 2) → C.px y x = 0) ∧
      (2 ≤ y → 2 ≤ x → C.px y x = (A.px y x + A.px (y - 2) x + A.px y (x - 2) + A.px (y - 2) (x - 2)) / 4) := by
  intro A C
  obtain ⟨h1, h2⟩ := returned_data hn rfl hk
  have hA : EvenImg A := even_named hk
  have hC : C = _ := place_data (o := .correctIfov i) rfl rfl hk
  have h3 : correctIfovData A = .ok C := (stored_data (x := correctIfovData A) h1).trans (congrArg Except.ok hC.symm)
  obtain ⟨r, er, hr, hp⟩ := C37_ifov A hA.1 hA.2
  have : r = C := Except.ok.inj (er.symm.trans h3)
  subst this
  exact ⟨place_returns rfl rfl hk hn, hr, hp⟩

/-- C77: `rotate` turns each family by itself; `rot` is the rotation of one plane. -/
theorem C77_rotate (ops : List Op) (i k n : Nat) (rot : Img ℝ → Py (Img ℝ)) (hk : (runOps ops).images[i]? = some k)
    (hn : Returns ops (.rotate i rot) n) (hrot : ∀ A B, rot A = .ok B → B.SameShape A) :
    let A := (runOps ops).data k
    let C := (runOps (ops ++ [.rotate i rot])).data n
    C.SameShape A ∧ ∀ a b, a < 2 → b < 2 → rot (A.family a b) = .ok (C.family a b) := by
  intro A C
  obtain ⟨h1, h2⟩ := returned_data hn rfl hk
  have hA : EvenImg A := even_named hk
  have hC : C = _ := congrArg ImgView.data h2
  have h3 : rotateData rot A = .ok C := by
    have e : (Op.rotate i rot).value (runOps ops) ((runOps ops).heap.view k) =
      withVal (rotateData rot A) ((runOps ops).heap.view k) fun d =>
        andThen (rewriteStokesV rot ((runOps ops).heap.view k)) fun v => (.ok (), { v with data := d }) := rfl
    rw [e] at h1 hC
    obtain ⟨d, hd, e1⟩ := withVal_ok h1
    rw [e1] at h1 hC
    obtain ⟨v, -, e2⟩ := andThen_ok h1
    rw [e2] at hC
    rw [hd]
    exact congrArg Except.ok hC.symm
  obtain ⟨hh, hw⟩ := hA
  unfold rotateData at h3
  rw [split_ok hh hw, Py.ok_bind] at h3
  obtain ⟨t, ht, h3⟩ := Py.bind_eq_ok.1 h3
  have key : ∀ q : Fin 4, rot (A.family (q.val / 2) (q.val % 2)) = .ok (t q) ∧ (t q).HasShape (A.h / 2) (A.w / 2) := by
    have one : ∀ (X B : Img ℝ), (rot X >>= fun B => assignPlane X.h X.w B) = .ok B → rot X = .ok B ∧ B.SameShape X := by
      intro X B hB
      obtain ⟨Z, hZ, hB⟩ := Py.bind_eq_ok.1 hB
      have hs := hrot X Z hZ
      unfold assignPlane at hB
      rw [if_pos ⟨Or.inl hs.1, Or.inl hs.2⟩] at hB
      have : Z = B := by
        rw [← Except.ok.inj hB]
        refine Img.eq_ofFn hs.1 hs.2 ?_
        intro y x hy hx
        rw [← hs.1] at hy
        rw [← hs.2] at hx
        rw [bidx_of_lt hy, bidx_of_lt hx]
      subst this
      exact ⟨hZ, hs⟩
    unfold mapFour at ht
    obtain ⟨a, ha, ht⟩ := Py.bind_eq_ok.1 ht
    obtain ⟨b, hb, ht⟩ := Py.bind_eq_ok.1 ht
    obtain ⟨c, hc, ht⟩ := Py.bind_eq_ok.1 ht
    obtain ⟨d, hd, ht⟩ := Py.bind_eq_ok.1 ht
    have ht : t = ![a, b, c, d] := (Except.ok.inj ht).symm
    subst ht
    intro q
    fin_cases q
    · exact one _ a ha
    · exact one _ b hb
    · exact one _ c hc
    · exact one _ d hd
  rw [merge_ok (fun q => (key q).2.1) (fun q => (key q).2.2)] at h3
  have h4 := (Except.ok.inj h3).symm
  have hsh : C.SameShape A := ⟨by rw [h4]; show 2 * (A.h / 2) = A.h; omega, by rw [h4]; show 2 * (A.w / 2) = A.w; omega⟩
  refine ⟨hsh, ?_⟩
  intro a b ha hb
  obtain ⟨q, rfl, rfl⟩ : ∃ q : Fin 4, q.val / 2 = a ∧ q.val % 2 = b :=
    ⟨⟨2 * a + b, by omega⟩, by dsimp; omega, by dsimp; omega⟩
  rw [(key q).1]
  congr 1
  refine Img.eq_ofFn ((key q).2.1.trans (by rw [hsh.1])) ((key q).2.2.trans (by rw [hsh.2])) ?_
  intro y x hy hx
  rw [hsh.1] at hy
  rw [hsh.2] at hx
  rw [h4, Img.ofFn_px (by omega) (by omega), show famIdx (2 * y + q.val / 2) (2 * x + q.val % 2) = q from famIdx_of q y x,
    show (2 * y + q.val / 2) / 2 = y by omega, show (2 * x + q.val % 2) / 2 = x by omega]

/-- C77: `congrid` resamples each family by itself. -/
theorem C77_congrid (ops : List Op) (i k n newY newX : Nat) (hk : (runOps ops).images[i]? = some k)
    (hn : Returns ops (.congrid i newY newX) n) (hA : 4 ≤ ((runOps ops).data k).h ∧ 4 ≤ ((runOps ops).data k).w)
    (hY : 4 ≤ newY) (hX : 4 ≤ newX) :
    let A := (runOps ops).data k
    let C := (runOps (ops ++ [.congrid i newY newX])).data n
    C.HasShape (2 * (newY / 2)) (2 * (newX / 2)) ∧
      ∀ a b, a < 2 → b < 2 → IsResampled (A.family a b) (newY / 2) (newX / 2) (C.family a b) := by
  intro A C
  obtain ⟨h1, h2⟩ := returned_data hn rfl hk
  have hE : EvenImg A := even_named hk
  have hC : C = _ := congrArg ImgView.data h2
  have h3 : congridData A newY newX = .ok C := by
    have e : (Op.congrid i newY newX).value (runOps ops) ((runOps ops).heap.view k) =
      congridV newY newX ((runOps ops).heap.view k) := rfl
    rw [e] at h1 hC
    unfold congridV at h1 hC
    obtain ⟨d, hd, e1⟩ := withVal_ok h1
    rw [e1] at h1 hC
    obtain ⟨s0, -, e2⟩ := withVal_ok h1
    rw [e2] at h1 hC
    obtain ⟨s1, -, e3⟩ := withVal_ok h1
    rw [e3] at h1 hC
    obtain ⟨s2, -, e4⟩ := withVal_ok h1
    rw [e4] at hC
    exact hd.trans (congrArg Except.ok hC.symm)
  obtain ⟨r, er, hr, hp⟩ := C70_families A hE.1 hE.2 hA newY newX hY hX
  have : r = C := Except.ok.inj (er.symm.trans h3)
  subst this
  refine ⟨hr, fun a b ha hb => ?_⟩
  have := hp a b ha hb
  unfold Img.family
  rw [show C.h / 2 = newY / 2 by rw [hr.1]; omega, show C.w / 2 = newX / 2 by rw [hr.2]; omega]
  exact this

/-- C77: `demodulate` keeps the pixels; where the calibration fit was found the Stokes vector is the tensor applied to the four
pixels of the superpixel, elsewhere it is what it was. -/
theorem C77_demodulate (ops : List Op) (i k n : Nat) (D : Demodulator ℝ) (flags : Img ℝ) (hf : D.fitFoundFlags = some flags)
    (hk : (runOps ops).images[i]? = some k) (hn : Returns ops (.demodulate i D false) n) (hD : D.Fits ((runOps ops).data k))
    (hS : ∀ q, ((runOps ops).stokes k q).HasShape (((runOps ops).data k).h / 2) (((runOps ops).data k).w / 2)) :
    let A := (runOps ops).data k
    let s' := runOps (ops ++ [.demodulate i D false])
    s'.data n = A ∧ ∀ q, (s'.stokes n q).HasShape (A.h / 2) (A.w / 2) ∧ ∀ y x, y < A.h / 2 → x < A.w / 2 →
      (s'.stokes n q).px y x =
        if flags.px y x = 1 then
          (D.mij q 0).px y x * A.px (2 * y) (2 * x) + (D.mij q 1).px y x * A.px (2 * y) (2 * x + 1) +
          (D.mij q 2).px y x * A.px (2 * y + 1) (2 * x) + (D.mij q 3).px y x * A.px (2 * y + 1) (2 * x + 1)
        else ((runOps ops).stokes k q).px y x := by
  intro A s'
  obtain ⟨h1, h2⟩ := returned_data hn rfl hk
  have hE : EvenImg A := even_named hk
  have e : (Op.demodulate i D false).value (runOps ops) ((runOps ops).heap.view k) =
      withVal (demodulatePlain A ((runOps ops).stokes k) D) ((runOps ops).heap.view k) fun S =>
        (.ok (), { (runOps ops).heap.view k with stokes := ⟨S, false⟩, isDemodulated := true }) := rfl
  rw [e] at h1 h2
  obtain ⟨S, hS', e1⟩ := withVal_ok h1
  rw [e1] at h2
  have hdat : s'.data n = A := congrArg ImgView.data h2
  have hst : s'.stokes n = S := congrArg (fun v => v.stokes.planes) h2
  refine ⟨hdat, ?_⟩
  rw [hst]
  obtain ⟨T, hT, hp⟩ := C24_flags A _ (split_ok hE.1 hE.2) _ hS D (fun a b => hD.1 a b) flags hf (hD.2 flags hf)
  have : T = S := Except.ok.inj (hT.symm.trans hS')
  subst this
  intro q
  refine ⟨(hp q).1, ?_⟩
  intro y x hy hx
  rw [(hp q).2 y x hy hx]
  split
  · rw [Fin.sum_univ_four, Img.ofFn_px hy hx, Img.ofFn_px hy hx, Img.ofFn_px hy hx, Img.ofFn_px hy hx]
    rfl
  · rfl

/-! ## Which calls return -/

theorem returns_new {ops : List Op} {o : Op} {i k : Nat} (hin : o.inPlace = false) (hsrc : o.source = some i)
    (hk : (runOps ops).images[i]? = some k) (hok : (o.value (runOps ops) ((runOps ops).heap.view k)).1 = .ok ()) :
    ∃ n, Returns ops o n := by
  refine ⟨(runOps ops).heap.objs.size, ?_⟩
  have h1 := (exec_new_value (runOps_valid ops) hsrc hk hin).1
  rw [hok] at h1
  unfold Returns
  rw [runOps_snoc]
  unfold step
  generalize exec (runOps ops).images o (runOps ops).heap = r at h1
  obtain ⟨a, h⟩ := r
  dsimp only at h1
  subst h1
  rfl

theorem returns_place {ops : List Op} {o : Op} {i k : Nat} (hin : o.inPlace = true) (hsrc : o.source = some i)
    (hr : o.returns (runOps ops) k = some k) (hk : (runOps ops).images[i]? = some k)
    (hok : (o.value (runOps ops) ((runOps ops).heap.view k)).1 = .ok ()) : Returns ops o k := by
  have h1 := (exec_place_value hsrc hk hin).1
  rw [hok, hr] at h1
  unfold Returns
  rw [runOps_snoc]
  unfold step
  generalize exec (runOps ops).images o (runOps ops).heap = r at h1
  obtain ⟨a, h⟩ := r
  dsimp only at h1
  subst h1
  rfl

theorem stored_ok {x : Py (Img ℝ)} {v : ImgView} {d : Img ℝ} (hv : SoundV v) (hx : x = .ok d) (hd : EvenImg d) :
    (withVal x v fun d => updateDataAndStokesV d v).1 = .ok () := by
  rw [hx]
  exact updateData_ok hv hd

theorem marked_ok {x : Py (Img ℝ)} {v : ImgView} {d : Img ℝ} {m : ImgView → ImgView} (hv : SoundV v) (hx : x = .ok d)
    (hd : EvenImg d) : (withVal x v fun d => andThen (updateDataAndStokesV d v) fun v => (.ok (), m v)).1 = .ok () := by
  rw [hx]
  have := updateData_ok hv hd
  show (andThen (updateDataAndStokesV d v) fun v => (.ok (), m v)).1 = .ok ()
  generalize updateDataAndStokesV d v = r at this
  obtain ⟨a, w⟩ := r
  dsimp only at this
  subst this
  rfl

/-- C77: after any history, `rebin(b)` for `b ≥ 1`,
`shift`, `correct_ifov` and arithmetic with a number always return an image. -/
theorem C77_always_return (ops : List Op) (i k : Nat)
    (hk : (runOps ops).images[i]? = some k) :
    (∀ b : Int, 1 ≤ b → ∃ n, Returns ops (.rebin i b) n) ∧
    (∀ y x m, ∃ n, Returns ops (.shift i y x m) n) ∧
    (∃ n, Returns ops (.correctIfov i) n) ∧
    (∀ op c junk, ∃ n, Returns ops (.arithNumber op i c junk) n) := by
  have hv := run_sound ops k (List.mem_of_getElem? hk)
  have hA : EvenImg ((runOps ops).data k) := even_named hk
  refine ⟨?_, ?_, ?_, ?_⟩
  · intro b hb
    refine returns_new rfl rfl hk ?_
    obtain ⟨r, hr, h1, h2⟩ := (C11_total ((runOps ops).data k) b hb).2 hA.1 hA.2
    unfold micropolRebinData at hr
    rw [if_neg (by omega)] at hr
    show (if b ≤ 0 then _ else _ : Py Unit × ImgView).1 = _
    rw [if_neg (by omega)]
    exact stored_ok hv hr ⟨h1, h2⟩
  · intro y x m
    refine returns_new rfl rfl hk ?_
    have hr := shiftMicropol_ok ((runOps ops).data k) hA.1 hA.2 y x m
    exact stored_ok hv hr (even_of_shape hA (shift_shape hA hr))
  · obtain ⟨r, hr, hs, -⟩ := C37_ifov ((runOps ops).data k) hA.1 hA.2
    exact ⟨k, returns_place rfl rfl rfl hk (stored_ok hv hr (even_of_shape hA hs))⟩
  · intro op c junk
    refine returns_new rfl rfl hk ?_
    obtain ⟨d, hd⟩ : ∃ d, arithData op junk ((runOps ops).data k) (.number c) = .ok d := by cases op <;> exact ⟨_, rfl⟩
    obtain ⟨S, hS⟩ := SoundV.whole_dataStokes hv.2.1 (even_of_shape hA (arithNumber_shape hd))
    show (withVal (arithData op junk ((runOps ops).data k) (.number c)) ((runOps ops).heap.view k) fun d =>
      withVal (dataStokes d ((runOps ops).heap.view k).dic) ((runOps ops).heap.view k)
        fun S => (.ok (), freshView d S ((runOps ops).heap.view k).dic)).1 = .ok ()
    rw [hd]
    show (withVal (dataStokes d ((runOps ops).heap.view k).dic) ((runOps ops).heap.view k)
        fun S => (.ok (), freshView d S ((runOps ops).heap.view k).dic)).1 = .ok ()
    rw [hS]
    rfl

/-- C77: after any history, arithmetic with an image and dark subtraction return exactly for images of the same shape. -/
theorem C77_same_shape_return (ops : List Op) (i j k l : Nat)
    (hk : (runOps ops).images[i]? = some k) (hl : (runOps ops).images[j]? = some l) :
    (∀ op junk, (∃ n, Returns ops (.arithImage op i j junk) n) ↔ ((runOps ops).data k).SameShape ((runOps ops).data l)) ∧
    ((∃ n, Returns ops (.subtractDark i j) n) ↔ ((runOps ops).data k).SameShape ((runOps ops).data l)) := by
  have hv := run_sound ops k (List.mem_of_getElem? hk)
  have hA : EvenImg ((runOps ops).data k) := even_named hk
  have hB : EvenImg ((runOps ops).data l) := even_named hl
  refine ⟨fun op junk => ⟨fun ⟨n, hn⟩ => (C39_session_images ops op i j k l n junk hk hl hn).1, fun hs => ?_⟩,
    fun ⟨n, hn⟩ => (C77_dark ops i j k l n hk hl hn).2.1, fun hs => ?_⟩
  · refine returns_new rfl rfl hk ?_
    obtain ⟨d, hd⟩ : ∃ d, arithData op junk ((runOps ops).data k) (.image ((runOps ops).data l)) = .ok d := by
      obtain ⟨a, b, c, ha, hb, hc, -⟩ := C39_images _ _ hs
      obtain ⟨q, -, hq, -⟩ := C39_div_partial junk _ _ hs 0
      cases op
      · exact ⟨_, ha⟩
      · exact ⟨_, hb⟩
      · exact ⟨_, hc⟩
      · exact ⟨_, hq⟩
    have := stored_ok hv hd (even_of_shape hA (arithImage_shape hA hB hd))
    unfold Op.value secondV
    dsimp only
    rw [hl]
    exact this
  · obtain ⟨d, hd, hsh, -⟩ := C35_dark _ _ hs
    refine ⟨k, returns_place rfl rfl rfl hk ?_⟩
    have := marked_ok (m := fun v => { v with darkSubtracted := true }) hv hd (even_of_shape hA hsh)
    unfold Op.value secondV
    dsimp only
    rw [hl]
    exact this

/-- C77: after any history, flat correction with a non-empty flat of the same shape and mean not 0, and hot pixel cleaning with
flags of the same shape return. -/
theorem C77_corrections_return (ops : List Op) (i j k l : Nat)
    (hk : (runOps ops).images[i]? = some k) (hl : (runOps ops).images[j]? = some l)
    (hs : ((runOps ops).data k).SameShape ((runOps ops).data l)) :
    (((runOps ops).data k).h ≠ 0 → ((runOps ops).data k).w ≠ 0 → ((runOps ops).data l).mean ≠ 0 →
      ∀ junk, ∃ n, Returns ops (.correctFlat i j junk) n) ∧
    ∀ median : Img ℝ → Img ℝ, (∀ A, (median A).SameShape A) → ∃ n, Returns ops (.cleanHotPixels i j median) n := by
  have hv := run_sound ops k (List.mem_of_getElem? hk)
  have hA : EvenImg ((runOps ops).data k) := even_named hk
  refine ⟨fun h1 h2 hm junk => ?_, fun median hf => ?_⟩
  · obtain ⟨d, hd, hsh, -⟩ := C36_flat_partial junk _ _ hs h1 h2 hm
    refine ⟨k, returns_place rfl rfl rfl hk ?_⟩
    have := marked_ok (m := fun v => { v with flatSubtracted := true }) hv hd (even_of_shape hA hsh)
    unfold Op.value secondV
    dsimp only
    rw [hl]
    exact this
  · refine returns_new rfl rfl hk ?_
    obtain ⟨d, hd, hsh, -⟩ := C38_clean median hf _ _ _ (split_ok hA.1 hA.2) hs
    have := stored_ok hv hd (even_of_shape hA hsh)
    unfold Op.value secondV
    dsimp only
    rw [hl]
    exact this

theorem theo_half {v : ImgView} (hv : TheoV v) (q : Fin 3) : (v.stokes.planes q).HasShape (v.data.h / 2) (v.data.w / 2) :=
  dataStokes_half hv.2 q

/-- C77: after any history, `demodulate` returns with a demodulator of the right size (if it has flags, for Stokes maps of half
the size of the data), `congrid` from and to at least 4 pixels a side returns (for Stokes maps of at least 2 pixels a side),
and so does `rotate` with a rotation of planes that keeps their size. -/
theorem C77_transformations_return (ops : List Op) (i k : Nat) (hk : (runOps ops).images[i]? = some k) :
    (∀ D : Demodulator ℝ, D.Fits ((runOps ops).data k) →
      (D.fitFoundFlags = none ∨
        ∀ q, ((runOps ops).stokes k q).HasShape (((runOps ops).data k).h / 2) (((runOps ops).data k).w / 2)) →
      ∃ n, Returns ops (.demodulate i D false) n) ∧
    (∀ newY newX, 4 ≤ ((runOps ops).data k).h → 4 ≤ ((runOps ops).data k).w →
      (∀ q, 2 ≤ ((runOps ops).stokes k q).h ∧ 2 ≤ ((runOps ops).stokes k q).w) → 4 ≤ newY → 4 ≤ newX →
      ∃ n, Returns ops (.congrid i newY newX) n) ∧
    (∀ rot : Img ℝ → Py (Img ℝ), (∀ A, ∃ B, rot A = .ok B ∧ B.SameShape A) → ∃ n, Returns ops (.rotate i rot) n) := by
  have hA : EvenImg ((runOps ops).data k) := even_named hk
  refine ⟨fun D hD hfl => returns_new rfl rfl hk ?_, fun newY newX h1 h2 hq hY hX => returns_new rfl rfl hk ?_,
    fun rot hrot => returns_new rfl rfl hk ?_⟩
  · have : ∃ S, demodulatePlain ((runOps ops).data k) ((runOps ops).stokes k) D = .ok S := by
      cases hf : D.fitFoundFlags with
      | none =>
        obtain ⟨S, hS, -⟩ := C24_no_flags _ _ (split_ok hA.1 hA.2) ((runOps ops).stokes k) D (fun a b => hD.1 a b) hf
        exact ⟨S, hS⟩
      | some f =>
        have hst := hfl.resolve_left (by rw [hf]; exact fun h => by cases h)
        obtain ⟨S, hS, -⟩ := C24_flags _ _ (split_ok hA.1 hA.2) ((runOps ops).stokes k) hst D
          (fun a b => hD.1 a b) f hf (hD.2 f hf)
        exact ⟨S, hS⟩
    obtain ⟨S, hS⟩ := this
    show (withVal (demodulatePlain ((runOps ops).data k) ((runOps ops).stokes k) D) ((runOps ops).heap.view k) fun S =>
        (.ok (), { (runOps ops).heap.view k with stokes := ⟨S, false⟩, isDemodulated := true })).1 = .ok ()
    rw [hS]
    rfl
  · obtain ⟨d, hd, -⟩ := C70_families ((runOps ops).data k) hA.1 hA.2 ⟨h1, h2⟩ newY newX hY hX
    have hst : ∀ q, ∃ B, congrid (((runOps ops).heap.view k).stokes.planes q) (if newY % 2 = 1 then newY - 1 else newY)
        (if newX % 2 = 1 then newX - 1 else newX) = .ok B := by
      intro q
      obtain ⟨B, hB, -⟩ := C70_resampled (((runOps ops).heap.view k).stokes.planes q)
        (if newY % 2 = 1 then newY - 1 else newY) (if newX % 2 = 1 then newX - 1 else newX)
        ⟨(hq q).1, (hq q).2⟩ (by split <;> omega) (by split <;> omega)
      exact ⟨B, hB⟩
    obtain ⟨s0, h0⟩ := hst 0
    obtain ⟨s1, h1⟩ := hst 1
    obtain ⟨s2, h2⟩ := hst 2
    show (congridV newY newX ((runOps ops).heap.view k)).1 = .ok ()
    unfold congridV
    rw [show congridData ((runOps ops).heap.view k).data newY newX = .ok d from hd, h0, h1, h2]
    rfl
  · have h1 : ∃ r, rotateData rot ((runOps ops).data k) = .ok r := by
      unfold rotateData mapFour
      rw [split_ok hA.1 hA.2, Py.ok_bind]
      have hs : ∀ A : Img ℝ, ∃ B, (rot A >>= fun B => assignPlane A.h A.w B) = .ok B ∧ B.h = A.h ∧ B.w = A.w := by
        intro A
        obtain ⟨B, hB, hsh⟩ := hrot A
        rw [hB, Py.ok_bind]
        exact ⟨B, assignPlane_same hsh, hsh⟩
      choose g hg hg1 hg2 using hs
      simp only [hg, Py.ok_bind, Py.pure_eq]
      refine ⟨_, merge_ok (h := ((runOps ops).data k).h / 2) (w := ((runOps ops).data k).w / 2) ?_ ?_⟩
      · intro q; fin_cases q <;> exact hg1 _
      · intro q; fin_cases q <;> exact hg2 _
    obtain ⟨r, hr⟩ := h1
    choose g hg hgs using hrot
    have h2 : (rewriteV rot ((runOps ops).heap.view k).stokes).1 = .ok () := by
      rw [rewriteV_ok (P := fun q => g (((runOps ops).heap.view k).stokes.planes q)) (fun q => hg _) (fun q => (hgs _).1)
        (fun q => (hgs _).2)]
    show (withVal (rotateData rot ((runOps ops).data k)) ((runOps ops).heap.view k) fun d =>
        andThen (rewriteStokesV rot ((runOps ops).heap.view k)) fun v => (.ok (), { v with data := d })).1 = .ok ()
    rw [hr]
    show (andThen (rewriteStokesV rot ((runOps ops).heap.view k)) fun v => (.ok (), { v with data := r })).1 = .ok ()
    unfold rewriteStokesV
    rw [h2]
    rfl

/-- C77: images of construction, copying, rebinning, shifting, cleaning, arithmetic and correction meet the conditions on the
Stokes maps. -/
theorem C77_theoretical_return (ops : List Op) (hops : ∀ o ∈ ops, o.theoretical = true) (i k : Nat)
    (hk : (runOps ops).images[i]? = some k) :
    (∀ D : Demodulator ℝ, D.Fits ((runOps ops).data k) → ∃ n, Returns ops (.demodulate i D false) n) ∧
    (∀ newY newX, 4 ≤ ((runOps ops).data k).h → 4 ≤ ((runOps ops).data k).w → 4 ≤ newY → 4 ≤ newX →
      ∃ n, Returns ops (.congrid i newY newX) n) := by
  have hv := run_theo ops hops k (List.mem_of_getElem? hk)
  obtain ⟨h1, h2, -⟩ := C77_transformations_return ops i k hk
  refine ⟨fun D hD => h1 D hD (.inr fun q => theo_half hv q), fun newY newX a b c d => h2 newY newX a b (fun q => ?_) c d⟩
  have e1 : ((runOps ops).stokes k q).h = ((runOps ops).data k).h / 2 := (theo_half hv q).1
  have e2 : ((runOps ops).stokes k q).w = ((runOps ops).data k).w / 2 := (theo_half hv q).2
  omega

/-- C77: after any history, `demosaic` returns exactly for the modes "mean" and "adjacent", and demodulation with demosaicing
returns for a demodulator of the right size with flags. -/
theorem C77_demosaic_return (ops : List Op) (i k : Nat) (hk : (runOps ops).images[i]? = some k) :
    (∀ mode, (∃ n, Returns ops (.demosaic i mode) n) ↔ mode = "mean" ∨ mode = "adjacent") ∧
    ∀ (D : Demodulator ℝ) (L : Layout), L.Describes ((runOps ops).dic k) → D.Fits ((runOps ops).data k) →
      D.fitFoundFlags ≠ none → ∃ n, Returns ops (.demodulate i D true) n := by
  have hv := run_sound ops k (List.mem_of_getElem? hk)
  have hA : EvenImg ((runOps ops).data k) := even_named hk
  have hdem : ∀ {mode r}, demosaic ((runOps ops).data k) mode = .ok r →
      (demosaicV mode ((runOps ops).heap.view k)).1 = .ok () := by
    intro mode r hr
    unfold demosaicV
    rw [show demosaic ((runOps ops).heap.view k).data mode = .ok r from hr]
    exact updateStokesV_ok (v := { (runOps ops).heap.view k with demosaicedImages := some r, isDemosaiced := true })
      ⟨hv.1, hv.2.1, fun _ => ⟨r, rfl, demosaic_four hA hr⟩⟩
  refine ⟨fun mode => ⟨fun ⟨n, hn⟩ => ?_, fun h => ?_⟩, fun D L hL hD hf => ?_⟩
  · by_contra hc
    push Not at hc
    have hval : ((Op.demosaic i mode).value (runOps ops) ((runOps ops).heap.view k)).1 = .ok () :=
      (returned_data hn rfl hk).1
    change (demosaicV mode ((runOps ops).heap.view k)).1 = .ok () at hval
    unfold demosaicV at hval
    obtain ⟨s, hs, -⟩ := withVal_ok hval
    unfold demosaic at hs
    rw [if_neg hc.1, if_neg hc.2] at hs
    split at hs <;> cases hs
  · refine ⟨k, returns_place rfl rfl rfl hk ?_⟩
    rcases h with rfl | rfl
    · obtain ⟨r, hr, -⟩ := C13_mean ((runOps ops).data k) _ (split_ok hA.1 hA.2)
      exact hdem hr
    · obtain ⟨r, hr, -⟩ := demosaic_adjacent_ok ((runOps ops).data k) hA.1 hA.2
      exact hdem hr
  · refine returns_new rfl rfl hk ?_
    cases hfl : D.fitFoundFlags with
    | none => exact absurd hfl hf
    | some f =>
      obtain ⟨demo, T, S, h1, -, h3, -⟩ := C26_demosaicing ((runOps ops).data k) hA.1 hA.2 _ L hL D (fun a b => hD.1 a b) f hfl
        (hD.2 f hfl)
      have hd := hdem h1
      have hfields : (demosaicV "adjacent" ((runOps ops).heap.view k)).2.data = (runOps ops).data k ∧
          (demosaicV "adjacent" ((runOps ops).heap.view k)).2.dic = (runOps ops).dic k := by
        unfold demosaicV at hd ⊢
        obtain ⟨s, -, e⟩ := withVal_ok hd
        rw [e] at hd ⊢
        unfold updateStokesV at hd ⊢
        obtain ⟨S', -, e⟩ := withVal_ok hd
        rw [e]
        exact ⟨rfl, rfl⟩
      show (demodulateV D true ((runOps ops).heap.view k)).1 = .ok ()
      unfold demodulateV
      rw [if_pos rfl]
      generalize demosaicV "adjacent" ((runOps ops).heap.view k) = r at hd hfields
      obtain ⟨a, w⟩ := r
      dsimp only at hd hfields
      subst hd
      show (withVal (demodulateDemosaicing w.data w.dic D) w _).1 = .ok ()
      rw [hfields.1, hfields.2, h3]
      rfl

/-! ## Examples -/

/-- A session in which a 2 × 4 image, dark on the left and bright on the right, has been constructed. -/
def oneImage : List Op := [.fromArray darkBright none none none fun _ _ => 0]

theorem oneImage_facts : (runOps oneImage).images[0]? = some 0 ∧ (runOps oneImage).data 0 = darkBright ∧
    ∀ o ∈ oneImage, o.theoretical = true := by
  obtain ⟨S, -, -, -, -, hrun⟩ := darkBright_run
  refine ⟨by unfold oneImage; rw [hrun]; rfl, ?_, ?_⟩
  · unfold oneImage
    rw [hrun]
    exact congrArg ImgView.data (arrayHeap_view darkBright S none initState.heap)
  · intro o ho
    rw [List.mem_singleton.1 ho]
    rfl

/-- Subtracting 5 and adding the image to itself. -/
example : (∃ n, Returns oneImage (.arithNumber .sub 0 5 fun _ _ => 0) n ∧
      ((runOps (oneImage ++ [.arithNumber .sub 0 5 fun _ _ => 0])).data n).px 1 3 = -4) ∧
    ∃ n, Returns oneImage (.arithImage .add 0 0 fun _ _ => 0) n ∧
      ((runOps (oneImage ++ [.arithImage .add 0 0 fun _ _ => 0])).data n).px 1 3 = 2 := by
  obtain ⟨h1, h2, h3⟩ := oneImage_facts
  refine ⟨?_, ?_⟩
  · obtain ⟨n, hn⟩ := (C77_always_return oneImage 0 0 h1).2.2.2 .sub 5 (fun _ _ => 0)
    refine ⟨n, hn, ?_⟩
    have h := (C39_session_numbers oneImage .sub 0 0 n 5 _ h1 hn).2 1 3
    rw [h2] at h
    rw [h (by decide) (by decide) trivial]
    norm_num [Arith.apply, darkBright, Img.ofFn_px']
  · obtain ⟨n, hn⟩ := ((C77_same_shape_return oneImage 0 0 0 0 h1 h1).1 .add (fun _ _ => 0)).2 ⟨rfl, rfl⟩
    refine ⟨n, hn, ?_⟩
    have h := (C39_session_images oneImage .add 0 0 0 0 n _ h1 h1 hn).2.2 1 3
    rw [h2] at h
    rw [h (by decide) (by decide) trivial]
    norm_num [Arith.apply, darkBright, Img.ofFn_px']

/-- Shifting by one superpixel to the left moves the bright half to the dark one. -/
example : ∃ n, Returns oneImage (.shift 0 0 (-1) 7) n ∧
    ((runOps (oneImage ++ [.shift 0 0 (-1) 7])).data n).px 1 0 = 1 ∧
    ((runOps (oneImage ++ [.shift 0 0 (-1) 7])).data n).px 1 2 = 7 := by
  obtain ⟨h1, h2, h3⟩ := oneImage_facts
  obtain ⟨n, hn⟩ := (C77_always_return oneImage 0 0 h1).2.1 0 (-1) 7
  refine ⟨n, hn, ?_⟩
  obtain ⟨-, -, ha, hb⟩ := C77_shift oneImage 0 0 n 0 (-1) 7 h1 hn
  rw [h2] at ha hb
  constructor
  · rw [ha 1 0 1 2 (by decide) (by decide) (by decide) (by decide) (by norm_num) (by norm_num)]
    norm_num [darkBright, Img.ofFn_px']
  · refine hb 1 2 (by decide) (by decide) ?_
    rintro ⟨j, i, -, hi, -, e⟩
    have : i < 4 := hi
    omega

/-- Binning by 1, dark subtraction of the image from itself, IFOV correction, a copy, a half turn. -/
example : (∃ n, Returns oneImage (.rebin 0 1) n) ∧ (∃ n, Returns oneImage (.subtractDark 0 0) n ∧
      ((runOps (oneImage ++ [.subtractDark 0 0])).data 0).px 1 3 = 0) ∧
    (∃ n, Returns oneImage (.correctIfov 0) n) := by
  obtain ⟨h1, h2, h3⟩ := oneImage_facts
  obtain ⟨n, hn⟩ := (C77_same_shape_return oneImage 0 0 0 0 h1 h1).2.2 ⟨rfl, rfl⟩
  refine ⟨(C77_always_return oneImage 0 0 h1).1 1 (by norm_num), ⟨n, hn, ?_⟩, (C77_always_return oneImage 0 0 h1).2.2.1⟩
  have h := (C77_dark oneImage 0 0 0 0 n h1 h1 hn).2.2.2 1 3
  rw [h2] at h
  rw [h (by decide) (by decide)]
  norm_num

/-- Turning the example by 180 degrees: the calls of `rotate`, flat correction by itself, hot pixel cleaning with itself as flags,
and demodulation with a demodulator of one superpixel row return. -/
example : (∃ n, Returns oneImage (.rotate 0 halfTurn) n ∧
      ((runOps (oneImage ++ [.rotate 0 halfTurn])).data n).px 0 0 = 1) ∧
    (∃ n, Returns oneImage (.correctFlat 0 0 fun _ _ => 0) n) ∧
    (∃ n, Returns oneImage (.cleanHotPixels 0 0 id) n) ∧
    (∃ n, Returns oneImage (.demodulate 0 ⟨fun _ _ => Img.const 1 2 1, some (Img.const 1 2 1)⟩ false) n) := by
  obtain ⟨h1, h2, h3⟩ := oneImage_facts
  obtain ⟨t1, -⟩ := C77_theoretical_return oneImage h3 0 0 h1
  obtain ⟨-, -, t3⟩ := C77_transformations_return oneImage 0 0 h1
  obtain ⟨c1, c2⟩ := C77_corrections_return oneImage 0 0 0 0 h1 h1 ⟨rfl, rfl⟩
  refine ⟨?_, c1 ?_ ?_ ?_ _, c2 id (fun _ => ⟨rfl, rfl⟩), t1 _ ?_⟩
  · obtain ⟨n, hn⟩ := t3 halfTurn fun A => ⟨_, rfl, rfl, rfl⟩
    refine ⟨n, hn, ?_⟩
    obtain ⟨hs, hr⟩ := C77_rotate oneImage 0 0 n halfTurn h1 hn
      (fun A B h => by rw [← Except.ok.inj h]; exact ⟨rfl, rfl⟩)
    have h := congrArg (fun A => Img.px A 0 0) (Except.ok.inj (hr 0 0 (by decide) (by decide)))
    rw [h2] at h
    rw [h2] at hs
    have e1 : ((runOps (oneImage ++ [.rotate 0 halfTurn])).data n).h = 2 := hs.1
    have e2 : ((runOps (oneImage ++ [.rotate 0 halfTurn])).data n).w = 4 := hs.2
    simp only [Img.family] at h
    rw [Img.ofFn_px (by decide) (by decide), Img.ofFn_px (by decide) (by decide), Img.ofFn_px (by rw [e1]; decide) (by rw [e2]; decide)] at h
    rw [← h]
    norm_num [darkBright, Img.ofFn_px']
  · rw [h2]; decide
  · rw [h2]; decide
  · rw [h2]
    unfold Img.mean Img.total Img.totalOn
    norm_num [darkBright, Finset.sum_range_succ, Img.ofFn_px']
  · rw [h2]
    refine ⟨fun _ _ => ⟨rfl, rfl⟩, ?_⟩
    rintro f hf
    cases hf
    exact ⟨rfl, rfl⟩

/-- After demosaicing and an occulter mask calls still return. -/
example : ∃ n, Returns (oneImage ++ [.demosaic 0 "mean", .maskOcculter 0 1 1 1 0 0]) (.rebin 0 1) n := by
  obtain ⟨h1, -, -⟩ := oneImage_facts
  obtain ⟨m, hm⟩ := ((C77_demosaic_return oneImage 0 0 h1).1 "mean").2 (.inl rfl)
  refine (C77_always_return _ 0 0 ?_).1 1 le_rfl
  rw [show oneImage ++ [Op.demosaic 0 "mean", .maskOcculter 0 1 1 1 0 0] = (oneImage ++ [Op.demosaic 0 "mean"]) ++
    [.maskOcculter 0 1 1 1 0 0] from rfl, runOps_snoc]
  have h2 : (runOps (oneImage ++ [Op.demosaic 0 "mean"])).images[0]? = some 0 := by
    rw [show (runOps (oneImage ++ [Op.demosaic 0 "mean"])).images = _ from hm, List.getElem?_append_left]
    · exact h1
    · exact (List.getElem?_eq_some_iff.1 h1).1
  unfold step
  split
  · rw [List.getElem?_append_left]
    · exact h2
    · exact (List.getElem?_eq_some_iff.1 h2).1
  · exact h2
  · exact h2

end

end Micropol
