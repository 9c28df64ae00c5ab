import Verif.Spec.Again
import Verif.Lemmas.Failed
import Verif.Lemmas.NearSession
import Verif.Props.Measurement

/-! # Calls made twice: lemmas -/

set_option autoImplicit false

namespace Micropol

noncomputable section

open Classical

/-! ## Looks and views -/

def ImgView.look (v : ImgView) : Look :=
  ⟨v.data, v.stokes.planes, v.stokes.isList, v.dic, v.isDemosaiced, v.demosaicedImages, v.isDemodulated, v.darkSubtracted,
    v.flatSubtracted⟩

theorem look_view (s : State) (k : Nat) : s.look k = (s.heap.view k).look := rfl

theorem ImgView.look_inj {v w : ImgView} (h : v.look = w.look) : v = w := by
  cases v with
  | mk a b c d e f g i =>
    cases w with
    | mk a' b' c' d' e' f' g' i' =>
      cases b; cases b'
      simp only [ImgView.look, Look.mk.injEq] at h
      obtain ⟨h1, h2, h3, h4, h5, h6, h7, h8, h9⟩ := h
      subst h1 h2 h3 h4 h5 h6 h7 h8 h9
      rfl

/-- An operand, in two sessions. -/
theorem lookAt_cases {s t : State} {i : Nat} (h : s.lookAt i = t.lookAt i) :
    (s.images[i]? = none ∧ t.images[i]? = none) ∨
      ∃ k k', s.images[i]? = some k ∧ t.images[i]? = some k' ∧ s.heap.view k = t.heap.view k' := by
  unfold State.lookAt at h
  cases hs : s.images[i]? with
  | none =>
    cases ht : t.images[i]? with
    | none => exact Or.inl ⟨rfl, rfl⟩
    | some k' => rw [hs, ht] at h; cases h
  | some k =>
    cases ht : t.images[i]? with
    | none => rw [hs, ht] at h; cases h
    | some k' =>
      rw [hs, ht] at h
      refine Or.inr ⟨k, k', rfl, rfl, ImgView.look_inj ?_⟩
      rw [← look_view, ← look_view]
      exact Option.some.inj h

theorem secondV_look {s t : State} {j : Nat} (h : s.lookAt j = t.lookAt j) (v : ImgView) (f : Img ℝ → Py Unit × ImgView) :
    secondV s j v f = secondV t j v f := by
  unfold secondV
  rcases lookAt_cases h with ⟨h1, h2⟩ | ⟨k, k', h1, h2, h3⟩
  · rw [h1, h2]
  · rw [h1, h2]
    dsimp only
    rw [dataOf_view, dataOf_view, h3]

theorem optV_look {s t : State} {j : Option Nat} (h : ∀ i ∈ j.toList, s.lookAt i = t.lookAt i) (v : ImgView)
    {f g : Option (Img ℝ) → Py Unit × ImgView} (hfg : ∀ d, f d = g d) : optV s j v f = optV t j v g := by
  have : f = g := funext hfg
  subst this
  unfold optV
  cases j with
  | none => rfl
  | some j => exact secondV_look (h j (by simp)) v _

theorem value_look {s t : State} {o : Op} (h : ∀ i ∈ o.operands, s.lookAt i = t.lookAt i) (v : ImgView) :
    o.value s v = o.value t v := by
  cases o with
  | fromImage i dic dark flat junk =>
    unfold Op.value
    refine optV_look (fun i hi => h i ?_) v fun d => optV_look (fun i hi => h i ?_) v fun f => rfl
    · simp only [Op.operands, List.mem_cons, List.mem_append]; exact Or.inr (Or.inl hi)
    · simp only [Op.operands, List.mem_cons, List.mem_append]; exact Or.inr (Or.inr hi)
  | cleanHotPixels i f median => unfold Op.value; exact secondV_look (h f (by simp [Op.operands])) v _
  | arithImage op i j junk => unfold Op.value; exact secondV_look (h j (by simp [Op.operands])) v _
  | subtractDark i d => unfold Op.value; exact secondV_look (h d (by simp [Op.operands])) v _
  | correctFlat i f junk => unfold Op.value; exact secondV_look (h f (by simp [Op.operands])) v _
  | _ => rfl

theorem fromArrayV_look {s t : State} {d : Img ℝ} {dic : Option AngleDic} {dark flat : Option Nat} {junk : Nat → Nat → ℝ}
    (h : ∀ i ∈ (Op.fromArray d dic dark flat junk).operands, s.lookAt i = t.lookAt i)
    (hd : dicVal dic s.heap = dicVal dic t.heap) (v : ImgView) :
    fromArrayV s d dic dark flat junk v = fromArrayV t d dic dark flat junk v := by
  unfold fromArrayV
  rw [hd]
  refine optV_look (fun i hi => h i ?_) v fun d => optV_look (fun i hi => h i ?_) v fun f => rfl
  · simp only [Op.operands, List.mem_append]; exact Or.inl hi
  · simp only [Op.operands, List.mem_append]; exact Or.inr hi

theorem dicVal_next (h : Heap) : dicVal none h = h.nextDic := by
  unfold dicVal Heap.nextDic
  cases h.defaultDic <;> rfl

/-! ## The same call in two sessions -/

/-- The same outcome: the same exception, or images that look the same. -/
def Twin (s t : State) (o : Op) : Prop :=
  (∀ e, (exec s.images o s.heap).1 = .error e ↔ (exec t.images o t.heap).1 = .error e) ∧
  (∀ n, (exec s.images o s.heap).1 = .ok (some n) → ∃ n', (exec t.images o t.heap).1 = .ok (some n') ∧
    (step s o).heap.view n = (step t o).heap.view n') ∧
  (o.inPlace = true → ∀ i k k', o.source = some i → s.images[i]? = some k → t.images[i]? = some k' →
    (step s o).heap.view k = (step t o).heap.view k')

theorem map_error_iff {α β : Type} {x : Py Unit} {f : Unit → α} {g : Unit → β} (e : PyErr) :
    x.map f = .error e ↔ x.map g = .error e := by
  cases x with
  | ok u => constructor <;> intro h <;> cases h
  | error e' => constructor <;> intro h <;> (cases h; rfl)

theorem twin_new {s t : State} {o : Op} {r : Py Unit × ImgView} (hin : o.inPlace = false) (h : NewCall o s r)
    (h' : NewCall o t r) : Twin s t o := by
  refine ⟨fun e => ?_, fun n hn => ?_, fun hp => by rw [hin] at hp; cases hp⟩
  · rw [h.1, h'.1]
    exact map_error_iff e
  · rw [h.1] at hn
    cases hr : r.1 with
    | error e => rw [hr] at hn; cases hn
    | ok u =>
      rw [hr] at hn
      injection hn with hn
      injection hn with hn
      subst hn
      refine ⟨t.heap.objs.size, ?_, ?_⟩
      · rw [h'.1, hr]; rfl
      · rw [step_heap, step_heap, h.2 (by rw [hr]), h'.2 (by rw [hr])]

theorem twin_place {s t : State} {o : Op} {i k k' : Nat} {r : Py Unit × ImgView} (hin : o.inPlace = true)
    (hsrc : o.source = some i) (hk : s.images[i]? = some k) (hk' : t.images[i]? = some k') (h : PlaceCall o s k r)
    (h' : PlaceCall o t k' r) : Twin s t o := by
  have hpl : (step s o).heap.view k = (step t o).heap.view k' := by rw [step_heap, step_heap, h.2, h'.2]
  refine ⟨fun e => ?_, fun n hn => ?_, fun _ j l l' hj hl hl' => ?_⟩
  · rw [h.1, h'.1]
    exact map_error_iff e
  · rw [h.1] at hn
    cases hr : r.1 with
    | error e => rw [hr] at hn; cases hn
    | ok u =>
      rw [hr] at hn
      injection hn with hn
      have hret : n = k ∧ o.returns t k' = some k' := by
        cases o with
        | demosaic i m => injection hn with hn; exact ⟨hn.symm, rfl⟩
        | subtractDark i d => injection hn with hn; exact ⟨hn.symm, rfl⟩
        | correctFlat i f j => injection hn with hn; exact ⟨hn.symm, rfl⟩
        | correctIfov i => injection hn with hn; exact ⟨hn.symm, rfl⟩
        | maskOcculter i y x r ov f => cases hn
        | _ => cases hin
      obtain ⟨rfl, hret⟩ := hret
      refine ⟨k', ?_, hpl⟩
      rw [h'.1, hr, ← hret]
      rfl
  · rw [hsrc] at hj
    cases hj
    rw [hk] at hl
    rw [hk'] at hl'
    cases hl
    cases hl'
    exact hpl

theorem twin_of_looks {s t : State} (hs : Valid s) (ht : Valid t) {o : Op}
    (h : ∀ i ∈ o.operands, s.lookAt i = t.lookAt i) (hd : o.usesDefault = true → s.heap.nextDic = t.heap.nextDic) :
    Twin s t o := by
  cases hsrc : o.source with
  | none =>
    cases o with
    | setDefault d =>
      refine ⟨fun e => ?_, fun n hn => ?_, fun hin => by cases hin⟩
      · constructor <;> intro h <;> cases h
      · cases hn
    | fromArray d dic dark flat junk =>
      have e : dicVal dic s.heap = dicVal dic t.heap := by
        cases dic with
        | some a => rfl
        | none => rw [dicVal_next, dicVal_next]; exact hd rfl
      let v : ImgView := ⟨d, ⟨fun _ => d, false⟩, polarCamAngles, false, false, false, false, none⟩
      have h1 := exec_fromArray hs d dic dark flat junk v
      have h2 := exec_fromArray ht d dic dark flat junk v
      rw [← fromArrayV_look h e v] at h2
      exact twin_new rfl h1 h2
    | _ => cases hsrc
  | some i =>
    have hmem : i ∈ o.operands := by
      cases o <;> first | (cases hsrc; done) | (cases hsrc; simp [Op.operands])
    rcases lookAt_cases (h i hmem) with ⟨h1, h2⟩ | ⟨k, k', h1, h2, h3⟩
    · have a := exec_no_name hsrc h1
      have b := exec_no_name hsrc h2
      refine ⟨fun e => by rw [a, b], fun n hn => (by rw [a] at hn; cases hn), fun _ j l l' hj hl => ?_⟩
      rw [hsrc] at hj
      cases hj
      rw [h1] at hl
      cases hl
    · cases hin : o.inPlace with
      | true =>
        have a := exec_place_value hsrc h1 hin
        have b := exec_place_value hsrc h2 hin
        rw [← h3, ← value_look h] at b
        exact twin_place hin hsrc h1 h2 a b
      | false =>
        have a := exec_new_value hs hsrc h1 hin
        have b := exec_new_value ht hsrc h2 hin
        rw [← h3, ← value_look h] at b
        exact twin_new hin a b

/-! ## In place, twice -/

theorem updateStokesV_twice (v : ImgView) (S : StokesVec) :
    updateStokesV { v with stokes := S } = (match theoV v with
      | .ok T => (.ok (), { v with stokes := ⟨T, false⟩ })
      | .error e => (.error e, { v with stokes := S })) := by
  have e : theoV { v with stokes := S } = theoV v := rfl
  unfold updateStokesV withVal
  rw [e]
  cases theoV v <;> rfl

theorem demosaicV_twice (mode : String) (v : ImgView) : demosaicV mode (demosaicV mode v).2 = demosaicV mode v := by
  unfold demosaicV
  cases hd : demosaic v.data mode with
  | error e => dsimp only [withVal]; rw [hd]
  | ok s =>
    dsimp only [withVal]
    have key : ∀ S : StokesVec, updateStokesV { v with demosaicedImages := some s, isDemosaiced := true, stokes := S } =
        (match theoV { v with demosaicedImages := some s, isDemosaiced := true } with
          | .ok T => (.ok (), { v with demosaicedImages := some s, isDemosaiced := true, stokes := ⟨T, false⟩ })
          | .error e => (.error e, { v with demosaicedImages := some s, isDemosaiced := true, stokes := S })) :=
      fun S => updateStokesV_twice { v with demosaicedImages := some s, isDemosaiced := true } S
    have k0 := key v.stokes
    have e0 : ({ v with demosaicedImages := some s, isDemosaiced := true, stokes := v.stokes } : ImgView) =
        { v with demosaicedImages := some s, isDemosaiced := true } := rfl
    rw [e0] at k0
    rw [k0]
    cases ht : theoV { v with demosaicedImages := some s, isDemosaiced := true } with
    | error e =>
      dsimp only
      rw [hd]
      dsimp only
      rw [ht] at k0
      exact k0
    | ok T =>
      dsimp only
      rw [hd]
      dsimp only
      have k1 := key ⟨T, false⟩
      rw [ht] at k1
      exact k1

theorem rewriteStokesV_twice {f : Img ℝ → Py (Img ℝ)} (hf : ∀ A, ∃ B, f A = .ok B ∧ B.h = A.h ∧ B.w = A.w ∧ f B = .ok B)
    (v : ImgView) : ∃ S, rewriteStokesV f v = (.ok (), { v with stokes := S }) ∧
      rewriteStokesV f { v with stokes := S } = (.ok (), { v with stokes := S }) := by
  choose g h1 h2 h3 h4 using hf
  refine ⟨⟨fun q => g (v.stokes.planes q), v.stokes.isList⟩, ?_, ?_⟩
  · unfold rewriteStokesV
    rw [rewriteV_ok (P := fun q => g (v.stokes.planes q)) (fun q => h1 _) (fun q => h2 _) (fun q => h3 _)]
  · unfold rewriteStokesV
    rw [rewriteV_ok (P := fun q => g (v.stokes.planes q)) (fun q => h4 _) (fun q => rfl) (fun q => rfl)]

theorem occulterRoi_twice (a b c fill : ℝ) (A : Img ℝ) : ∃ B, occulterRoi A a b c fill false = .ok B ∧ B.h = A.h ∧ B.w = A.w ∧
    occulterRoi B a b c fill false = .ok B := by
  obtain ⟨B, hB, hs⟩ := C46_pixels A (a, b) (c, 2 * ((max A.h A.w : Nat) : ℝ)) (0, 360) fill
  refine ⟨B, hB, hs.1, hs.2.1, ?_⟩
  unfold occulterRoi
  rw [hs.1, hs.2.1]
  exact C47_idempotent A B _ _ _ _ _ (fun h => by cases h) hB

theorem maskOcculterV_twice {v : ImgView} (hv : SoundV v) (y x r over fill : ℝ) :
    maskOcculterV y x r over fill (maskOcculterV y x r over fill v).2 = maskOcculterV y x r over fill v := by
  obtain ⟨d, hd, hsel⟩ := occulterRoi_data hv.1.1 hv.1.2 y x (r + over) fill
  have hd2 : occulterRoi d y x (r + over) fill true = .ok d := by
    unfold occulterRoi
    rw [hsel.1, hsel.2.1]
    exact C47_idempotent v.data d _ _ _ _ _ (fun _ => hv.1) hd
  -- the demosaiced images
  have hdem : ∃ D : Option (Fin 4 → Img ℝ), ∀ S : StokesVec,
      maskDemosaicedV y x (r + over) fill { v with data := d, stokes := S } =
        (.ok (), { v with data := d, stokes := S, demosaicedImages := D }) ∧
      maskDemosaicedV y x (r + over) fill { v with data := d, stokes := S, demosaicedImages := D } =
        (.ok (), { v with data := d, stokes := S, demosaicedImages := D }) := by
    unfold maskDemosaicedV
    cases hb : v.isDemosaiced with
    | false => exact ⟨v.demosaicedImages, fun S => ⟨rfl, rfl⟩⟩
    | true =>
      obtain ⟨s, hs, hev, hsh⟩ := hv.2.2 hb
      rw [hs]
      have hR : ∀ q, ∃ B, roiFromPolar (s q) (some (y, x)) (some (r + over, 2 * ((max d.h d.w : Nat) : ℝ))) (0, 360) fill true =
          .ok B := by
        intro q
        obtain ⟨B, hB, -⟩ := C46_superpixels (s q) (by rw [(hsh q).1]; exact hev.1) (by rw [(hsh q).2]; exact hev.2) (y, x)
          (r + over, 2 * ((max d.h d.w : Nat) : ℝ)) (0, 360) fill _ _ _ _ (pyInt_trunc _) (pyInt_trunc _) (pyInt_trunc _)
          (pyInt_trunc _)
        exact ⟨B, hB⟩
      choose B hB using hR
      have hB2 : ∀ q, roiFromPolar (B q) (some (y, x)) (some (r + over, 2 * ((max d.h d.w : Nat) : ℝ))) (0, 360) fill true =
          .ok (B q) := fun q => C47_idempotent (s q) (B q) _ _ _ _ _
            (fun _ => ⟨by rw [(hsh q).1]; exact hev.1, by rw [(hsh q).2]; exact hev.2⟩) (hB q)
      refine ⟨some ![B 0, B 1, B 2, B 3], fun S => ?_⟩
      dsimp only
      unfold mapFour
      dsimp only
      rw [hB 0, hB 1, hB 2, hB 3]
      refine ⟨rfl, ?_⟩
      show withVal (roiFromPolar (B 0) _ _ _ _ _ >>= fun a => roiFromPolar (B 1) _ _ _ _ _ >>= fun b =>
        roiFromPolar (B 2) _ _ _ _ _ >>= fun c => roiFromPolar (B 3) _ _ _ _ _ >>= fun d => pure ![a, b, c, d]) _ _ = _
      rw [hB2 0, hB2 1, hB2 2, hB2 3]
      rfl
  obtain ⟨D, hD⟩ := hdem
  have hD0 : maskDemosaicedV y x (r + over) fill { v with data := d } = (.ok (), { v with data := d, demosaicedImages := D }) :=
    (hD v.stokes).1
  unfold maskOcculterV
  rw [hd]
  dsimp only [withVal]
  rw [hD0]
  dsimp only [andThen]
  by_cases hb : v.isDemosaiced = true
  · rw [if_pos hb]
    obtain ⟨S, e1, e2⟩ := rewriteStokesV_twice (occulterRoi_twice y x (r + over) fill) { v with data := d, demosaicedImages := D }
    dsimp only at e1 e2 ⊢
    rw [e1]
    dsimp only
    rw [hd2]
    dsimp only
    have := (hD S).2
    rw [this]
    dsimp only
    rw [if_pos hb]
    rw [e2]
  · rw [if_neg hb]
    obtain ⟨S, e1, e2⟩ := rewriteStokesV_twice (occulterRoi_twice ((pyInt (y / 2) : ℤ) : ℝ) ((pyInt (x / 2) : ℤ) : ℝ)
        ((pyInt ((r + over) / 2) : ℤ) : ℝ) fill) { v with data := d, demosaicedImages := D }
    dsimp only at e1 e2 ⊢
    rw [e1]
    dsimp only
    rw [hd2]
    dsimp only
    have := (hD S).2
    rw [this]
    dsimp only
    rw [if_neg hb]
    rw [e2]

/-! ## Demodulation of the demodulated image -/

theorem bdim_ok {a b c : Nat} (h : bdim a b = .ok c) : c = a ∧ b = a ∨ c = b ∧ a = 1 ∨ c = a ∧ b = 1 := by
  unfold bdim at h
  split_ifs at h with h1 h2 h3
  · injection h with h; exact Or.inl ⟨h.symm, h1.symm⟩
  · injection h with h; exact Or.inr (Or.inl ⟨h.symm, h2⟩)
  · injection h with h; exact Or.inr (Or.inr ⟨h.symm, h3⟩)

theorem bdim_onto {a c : Nat} (h : a = c ∨ a = 1) : bdim a c = .ok c := by
  unfold bdim
  rcases h with rfl | rfl
  · rw [if_pos rfl]
  · by_cases h1 : 1 = c
    · rw [if_pos h1, h1]
    · rw [if_neg h1, if_pos rfl]

theorem bdim_again {a b c m d : Nat} (h : bdim a b = .ok c) (h' : bdim m c = .ok d) : bdim a d = .ok d ∧ bdim m d = .ok d := by
  have h1 := bdim_ok h
  have h2 := bdim_ok h'
  constructor <;> apply bdim_onto <;> omega

theorem npWhere_again {M : Img Bool} {A B R : Img ℝ} (h : npWhere M A B = .ok R) : npWhere M A R = .ok R := by
  unfold npWhere at h
  cases h1 : bdim A.h B.h with
  | error e => rw [h1] at h; cases h
  | ok h0 =>
    rw [h1, Py.ok_bind] at h
    cases h2 : bdim A.w B.w with
    | error e => rw [h2] at h; cases h
    | ok w0 =>
      rw [h2, Py.ok_bind] at h
      cases h3 : bdim M.h h0 with
      | error e => rw [h3] at h; cases h
      | ok hh =>
        rw [h3, Py.ok_bind] at h
        cases h4 : bdim M.w w0 with
        | error e => rw [h4] at h; cases h
        | ok ww =>
          rw [h4, Py.ok_bind] at h
          injection h with h
          have rh : R.h = hh := by rw [← h]; rfl
          have rw' : R.w = ww := by rw [← h]; rfl
          unfold npWhere
          rw [rh, rw', (bdim_again h1 h3).1, Py.ok_bind, (bdim_again h2 h4).1, Py.ok_bind, (bdim_again h1 h3).2, Py.ok_bind,
            (bdim_again h2 h4).2, Py.ok_bind]
          show Except.ok _ = _
          congr 1
          refine Img.ext_px rh.symm rw'.symm ?_
          intro y x (hy : y < hh) (hx : x < ww)
          rw [Img.ofFn_px hy hx]
          have ey : bidx hh y = y := by unfold bidx; split <;> omega
          have ex : bidx ww x = x := by unfold bidx; split <;> omega
          rw [ey, ex, ← h, Img.ofFn_px hy hx]
          split <;> rfl

theorem whereFlags_again {F : Img ℝ} {S T R : Fin 3 → Img ℝ} (h : whereFlags F S T = .ok R) : whereFlags F S R = .ok R := by
  unfold whereFlags at h ⊢
  dsimp only at h ⊢
  cases h0 : npWhere (F.map fun v => decide (v = 1)) (S 0) (T 0) with
  | error e => rw [h0] at h; cases h
  | ok a =>
    rw [h0, Py.ok_bind] at h
    cases h1 : npWhere (F.map fun v => decide (v = 1)) (S 1) (T 1) with
    | error e => rw [h1] at h; cases h
    | ok b =>
      rw [h1, Py.ok_bind] at h
      cases h2 : npWhere (F.map fun v => decide (v = 1)) (S 2) (T 2) with
      | error e => rw [h2] at h; cases h
      | ok c =>
        rw [h2, Py.ok_bind] at h
        injection h with h
        subst h
        show (npWhere _ (S 0) a >>= fun s0 => npWhere _ (S 1) b >>= fun s1 => npWhere _ (S 2) c >>= fun s2 => pure ![s0, s1, s2]) = _
        rw [npWhere_again h0, npWhere_again h1, npWhere_again h2]
        rfl

theorem demodulatePlain_again {d : Img ℝ} {S T : Fin 3 → Img ℝ} {D : Demodulator ℝ} (h : demodulatePlain d S D = .ok T) :
    demodulatePlain d T D = .ok T := by
  unfold demodulatePlain at h ⊢
  cases hp : splitPolarizations d with
  | error e => rw [hp] at h; cases h
  | ok p =>
    rw [hp, Py.ok_bind] at h
    rw [Py.ok_bind]
    cases hm : matmulPols D.mij p with
    | error e => rw [hm] at h; cases h
    | ok M =>
      rw [hm, Py.ok_bind] at h
      rw [Py.ok_bind]
      cases hf : D.fitFoundFlags with
      | none => rw [hf] at h; exact h
      | some F => rw [hf] at h; exact whereFlags_again h

theorem demodulateV_again {D : Demodulator ℝ} {dem : Bool} {v : ImgView} (h : (demodulateV D dem v).1 = .ok ()) :
    demodulateV D dem (demodulateV D dem v).2 = demodulateV D dem v := by
  unfold demodulateV at h ⊢
  cases dem with
  | false =>
    rw [if_neg (by decide)] at h
    rw [if_neg (by decide), if_neg (by decide)]
    cases hx : demodulatePlain v.data v.stokes.planes D with
    | error e => rw [hx] at h; cases h
    | ok T =>
      dsimp only [withVal]
      rw [demodulatePlain_again hx]
  | true =>
    rw [if_pos rfl] at h
    rw [if_pos rfl, if_pos rfl]
    have tw := demosaicV_twice "adjacent" v
    cases hx : demosaicV "adjacent" v with
    | mk a w =>
      cases a with
      | error e => rw [hx] at h; cases h
      | ok u =>
        rw [hx] at h tw
        dsimp only [andThen] at h tw ⊢
        cases hy : demodulateDemosaicing w.data w.dic D with
        | error e => rw [hy] at h; cases h
        | ok S =>
          dsimp only [withVal]
          -- demosaicing the result
          have key : demosaicV "adjacent" { w with stokes := ⟨S, false⟩, isDemodulated := true } =
              (.ok (), { w with isDemodulated := true }) := by
            unfold demosaicV at tw ⊢
            dsimp only
            cases hd : demosaic w.data "adjacent" with
            | error e => rw [hd] at tw; cases tw
            | ok s =>
              rw [hd] at tw
              dsimp only [withVal] at tw ⊢
              unfold updateStokesV at tw ⊢
              have e : theoV { w with stokes := ⟨S, false⟩, isDemodulated := true, demosaicedImages := some s, isDemosaiced := true } =
                  theoV { w with demosaicedImages := some s, isDemosaiced := true } := rfl
              rw [e]
              cases ht : theoV { w with demosaicedImages := some s, isDemosaiced := true } with
              | error e => rw [ht] at tw; cases tw
              | ok T =>
                rw [ht] at tw
                dsimp only [withVal] at tw ⊢
                have tw2 := congrArg Prod.snd tw
                dsimp only at tw2
                have : ({ w with isDemodulated := true } : ImgView) =
                    { ({ w with demosaicedImages := some s, isDemosaiced := true, stokes := ⟨T, false⟩ } : ImgView) with
                      isDemodulated := true } := by rw [tw2]
                rw [this]
          rw [key]
          dsimp only
          rw [hy]

end

end Micropol
