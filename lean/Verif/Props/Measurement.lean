import Verif.Spec.Measurement
import Verif.Props.Observation
import Verif.Props.ObjectPixels
import Verif.Props.Folder
import Verif.Props.Disk

/-!
# C104: images constructed with dark and flat, and a measurement from files and a calibration folder
-/

set_option autoImplicit false
set_option linter.unusedSectionVars false

namespace Micropol

noncomputable section

open Real

/-! ## The constructor with dark and flat -/

theorem newCall_returns {s : State} {o : Op} {r : Py Unit × ImgView} (h : NewCall o s r) (hr : r.1 = .ok ()) :
    (step s o).images = s.images ++ [s.heap.objs.size] ∧ (step s o).heap.view s.heap.objs.size = r.2 := by
  obtain ⟨h1, h2⟩ := h
  refine ⟨?_, ?_⟩
  · rw [hr] at h1
    unfold step
    generalize exec s.images o s.heap = q at h1
    obtain ⟨a, g⟩ := q
    dsimp only at h1
    subst h1
    rfl
  · rw [step_heap]
    exact h2 hr

theorem newCall_ok {s : State} {o : Op} {r : Py Unit × ImgView} {n : Nat} (h : NewCall o s r) (hn : (step s o).images = s.images ++ [n]) :
    r.1 = .ok () ∧ n = s.heap.objs.size := by
  have h1 := h.1
  rw [exec_of_images hn] at h1
  cases hr : r.1 with
  | error e => rw [hr] at h1; cases h1
  | ok u =>
    rw [hr] at h1
    injection h1 with h1
    injection h1 with h1
    exact ⟨rfl, h1⟩

section
variable {ops : List Op} {d : Img ℝ} {dic : Option AngleDic} {i j k l n : Nat} {junk : Nat → Nat → ℝ}

/-- What the constructor with dark and flat does. -/
def constructV (s : State) (d : Img ℝ) (dic : Option AngleDic) (k l : Nat) (junk : Nat → Nat → ℝ) (v : ImgView) : Py Unit × ImgView :=
  withVal (dataStokes d (dicVal dic s.heap)) v fun S =>
    andThen (subtractDarkV (s.data k) (freshView d S (dicVal dic s.heap))) (correctFlatV junk (s.data l))

theorem construct_call (hk : (runOps ops).images[i]? = some k) (hl : (runOps ops).images[j]? = some l) (v : ImgView) :
    NewCall (.fromArray d dic (some i) (some j) junk) (runOps ops) (constructV (runOps ops) d dic k l junk v) := by
  have := exec_fromArray (runOps_valid ops) d dic (some i) (some j) junk v
  unfold fromArrayV optV secondV at this
  dsimp only at this
  rw [hk, hl] at this
  exact this

theorem andThen_ok_eq {r : Py Unit × ImgView} {f : ImgView → Py Unit × ImgView} (h : r.1 = .ok ()) : andThen r f = f r.2 := by
  obtain ⟨a, v⟩ := r
  dsimp only at h
  subst h
  rfl

theorem dark_value {v : ImgView} {B a : Img ℝ} (hv : TheoV v) (hB : EvenImg B) (ha : subtractDarkData v.data B = .ok a) :
    (subtractDarkV B v).1 = .ok () ∧ (subtractDarkV B v).2.data = a ∧ TheoV (subtractDarkV B v).2 ∧ (subtractDarkV B v).2.dic = v.dic := by
  have he := even_of_shape hv.even (subtractDarkData_shape hv.even hB ha)
  have h1 : (subtractDarkV B v).1 = .ok () := marked_ok hv.sound ha he
  have h2 := marked_data (m := fun v => { v with darkSubtracted := true }) (fun _ => rfl) h1
  refine ⟨h1, Except.ok.inj (h2.symm.trans ha), subtractDarkV_theo hv hB, ?_⟩
  unfold subtractDarkV
  rw [ha]
  show (andThen (updateDataAndStokesV a v) _).2.dic = _
  rw [andThen_ok_eq (updateData_theo hv he)]
  unfold updateDataAndStokesV updateStokesV
  dsimp only
  cases theoV { v with data := a } <;> rfl

theorem flat_value {v : ImgView} {B a : Img ℝ} (hv : TheoV v) (hB : EvenImg B) (ha : correctFlatData junk v.data B = .ok a) :
    (correctFlatV junk B v).1 = .ok () ∧ (correctFlatV junk B v).2.data = a ∧ TheoV (correctFlatV junk B v).2 ∧
      (correctFlatV junk B v).2.dic = v.dic := by
  have he := even_of_shape hv.even (correctFlatData_shape hv.even hB ha)
  have h1 : (correctFlatV junk B v).1 = .ok () := marked_ok hv.sound ha he
  have h2 := marked_data (m := fun v => { v with flatSubtracted := true }) (fun _ => rfl) h1
  refine ⟨h1, Except.ok.inj (h2.symm.trans ha), correctFlatV_theo hv hB, ?_⟩
  unfold correctFlatV
  rw [ha]
  show (andThen (updateDataAndStokesV a v) _).2.dic = _
  rw [andThen_ok_eq (updateData_theo hv he)]
  unfold updateDataAndStokesV updateStokesV
  dsimp only
  cases theoV { v with data := a } <;> rfl

/-- The constructor succeeds if dark subtraction and flat correction do. -/
theorem construct_ok (hk : (runOps ops).images[i]? = some k) (hl : (runOps ops).images[j]? = some l) {S : Fin 3 → Img ℝ}
    (hS : dataStokes d (dicVal dic (runOps ops).heap) = .ok S) {a b : Img ℝ} (ha : subtractDarkData d ((runOps ops).data k) = .ok a)
    (hb : correctFlatData junk a ((runOps ops).data l) = .ok b) :
    ∃ n, Returns ops (.fromArray d dic (some i) (some j) junk) n ∧
      (runOps (ops ++ [.fromArray d dic (some i) (some j) junk])).data n = b ∧
      (runOps (ops ++ [.fromArray d dic (some i) (some j) junk])).dic n = dicVal dic (runOps ops).heap ∧
      TheoV ((runOps (ops ++ [.fromArray d dic (some i) (some j) junk])).heap.view n) := by
  have hc := construct_call (d := d) (dic := dic) (junk := junk) hk hl ((runOps ops).heap.view 0)
  have hv : TheoV (freshView d S (dicVal dic (runOps ops).heap)) := ⟨rfl, hS⟩
  obtain ⟨a1, a2, a3, a4⟩ := dark_value hv (even_named hk) ha
  obtain ⟨b1, b2, b3, b4⟩ := flat_value (junk := junk) a3 (even_named hl) (by rw [a2]; exact hb)
  have e : constructV (runOps ops) d dic k l junk ((runOps ops).heap.view 0) =
      correctFlatV junk ((runOps ops).data l) (subtractDarkV ((runOps ops).data k) (freshView d S (dicVal dic (runOps ops).heap))).2 := by
    unfold constructV
    rw [hS]
    exact andThen_ok_eq a1
  rw [e] at hc
  obtain ⟨h1, h2⟩ := newCall_returns hc b1
  refine ⟨(runOps ops).heap.objs.size, ?_, ?_, ?_, ?_⟩
  · unfold Returns
    rw [runOps_snoc]
    exact h1
  · rw [runOps_snoc]
    exact (congrArg ImgView.data h2).trans b2
  · rw [runOps_snoc]
    exact (congrArg ImgView.dic h2).trans (b4.trans a4)
  · rw [runOps_snoc]
    exact (congrArg TheoV h2).mpr b3

/-- C104: `MicropolImage(array, dark=…, flat=…)`, at any moment of any session: every pixel of the new image is that of the array minus the
dark, but not below 0, divided by the flat normalised to mean 1. -/
theorem C104_construct {L : Layout} (hL : L.Describes (dicVal dic (runOps ops).heap)) (hd : d.h % 2 = 0 ∧ d.w % 2 = 0)
    (hne : d.h ≠ 0 ∧ d.w ≠ 0) (hk : (runOps ops).images[i]? = some k) (hl : (runOps ops).images[j]? = some l)
    (hsk : d.SameShape ((runOps ops).data k)) (hsl : d.SameShape ((runOps ops).data l)) (hm : ((runOps ops).data l).mean ≠ 0) :
    ∃ n, Returns ops (.fromArray d dic (some i) (some j) junk) n ∧
      let C := (runOps (ops ++ [.fromArray d dic (some i) (some j) junk])).data n
      C.SameShape d ∧ ∀ y x, y < d.h → x < d.w → ((runOps ops).data l).px y x ≠ 0 →
        C.px y x = max (d.px y x - ((runOps ops).data k).px y x) 0 * ((runOps ops).data l).mean / ((runOps ops).data l).px y x := by
  obtain ⟨_, S, -, hS, -⟩ := dataStokes_ok hd.1 hd.2 hL
  obtain ⟨a, ha, as, ap⟩ := C35_dark d _ hsk
  obtain ⟨b, hb, bs, bp⟩ := C36_flat_partial junk a ((runOps ops).data l) ⟨as.1.trans hsl.1, as.2.trans hsl.2⟩
    (by rw [as.1]; exact hne.1) (by rw [as.2]; exact hne.2) hm
  obtain ⟨n, hn, hdat, -⟩ := construct_ok hk hl hS ha hb
  refine ⟨n, hn, ?_⟩
  dsimp only
  rw [hdat]
  refine ⟨⟨bs.1.trans as.1, bs.2.trans as.2⟩, fun y x hy hx hp => ?_⟩
  rw [bp y x (by rw [as.1]; exact hy) (by rw [as.2]; exact hx) hp, ap y x hy hx]

/-- C104: and the new image has the same pixels, Stokes maps and dictionary as one that is constructed from the array alone and then
dark subtracted and flat corrected by the two methods. -/
theorem C104_stepwise (hk : (runOps ops).images[i]? = some k) (hl : (runOps ops).images[j]? = some l)
    (hn : Returns ops (.fromArray d dic (some i) (some j) junk) n) (junk' : Nat → Nat → ℝ) :
    let m := (runOps ops).images.length
    let s₁ := runOps (ops ++ [.fromArray d dic (some i) (some j) junk])
    let s₂ := runOps (ops ++ [.fromArray d dic none none junk'] ++ [.subtractDark m i] ++ [.correctFlat m j junk])
    s₂.images[m]? = some n ∧ s₂.data n = s₁.data n ∧ s₂.stokes n = s₁.stokes n ∧ s₂.dic n = s₁.dic n := by
  intro m s₁ s₂
  have hv := runOps_valid ops
  have hc := construct_call (d := d) (dic := dic) (junk := junk) hk hl ((runOps ops).heap.view 0)
  have hn' := hn
  unfold Returns at hn'
  rw [runOps_snoc] at hn'
  obtain ⟨hok, rfl⟩ := newCall_ok hc hn'
  obtain ⟨-, hview⟩ := newCall_returns hc hok
  have hkn := hv.2 k (List.mem_of_getElem? hk)
  have hln := hv.2 l (List.mem_of_getElem? hl)
  obtain ⟨N, hN⟩ : ∃ N, N = (runOps ops).heap.objs.size := ⟨_, rfl⟩
  rw [← hN] at hview hkn hln ⊢
  unfold constructV at hok hview
  obtain ⟨S, hS, e⟩ := withVal_ok hok
  rw [e] at hok hview
  obtain ⟨w, hw, e'⟩ := andThen_ok hok
  rw [e'] at hok hview
  -- construction
  have h1 := step_fromArray (s := runOps ops) d dic junk' hS
  rw [← runOps_snoc] at h1
  obtain ⟨ops1, hops1⟩ : ∃ ops1, ops1 = ops ++ [.fromArray d dic none none junk'] := ⟨_, rfl⟩
  have hs2 : s₂ = runOps (ops1 ++ [.subtractDark m i] ++ [.correctFlat m j junk]) := by rw [hops1]
  rw [← hops1] at h1
  have im1 : (runOps ops1).images = (runOps ops).images ++ [N] := by rw [h1, hN]
  have v1 : (runOps ops1).heap.view N = freshView d S (dicVal dic (runOps ops).heap) := by
    rw [h1, hN]; exact arrayHeap_view d S dic _
  have old1 : ∀ q, q < N → (runOps ops1).data q = (runOps ops).data q := by
    intro q hq
    rw [h1]
    exact congrArg ImgView.data (arrayHeap_view_old d S dic hv.1 (by rw [← hN]; exact hq))
  have gm1 : (runOps ops1).images[m]? = some N := by rw [im1]; simp [m]
  have gk1 : (runOps ops1).images[i]? = some k := by
    rw [im1, List.getElem?_append_left (List.getElem?_eq_some_iff.1 hk).1]; exact hk
  have gl1 : (runOps ops1).images[j]? = some l := by
    rw [im1, List.getElem?_append_left (List.getElem?_eq_some_iff.1 hl).1]; exact hl
  -- dark
  have p2 := exec_place_value (s := runOps ops1) (o := .subtractDark m i) rfl gm1 rfl
  have ev2 : (Op.subtractDark m i).value (runOps ops1) ((runOps ops1).heap.view N) = (.ok (), w) := by
    rw [v1, ← hw]
    unfold Op.value secondV
    dsimp only
    rw [gk1]
    dsimp only
    rw [show (runOps ops1).heap.dataOf k = (runOps ops).data k from old1 k hkn]
  obtain ⟨ops2, hops2⟩ : ∃ ops2, ops2 = ops1 ++ [.subtractDark m i] := ⟨_, rfl⟩
  have r2 : Returns ops1 (.subtractDark m i) N := returns_place rfl rfl rfl gm1 (by rw [ev2])
  unfold Returns at r2
  rw [← hops2] at r2
  have v2 : (runOps ops2).heap.view N = w := by
    rw [hops2, runOps_snoc, step_heap]
    rw [show w = ((Op.subtractDark m i).value (runOps ops1) ((runOps ops1).heap.view N)).2 by rw [ev2]]
    exact p2.2
  have old2 : (runOps ops2).data l = (runOps ops).data l := by
    rw [← old1 l hln, hops2, runOps_snoc]
    refine C40_data_kept ops1 _ l (List.mem_of_getElem? gl1) ?_
    rintro ⟨-, i', hi', hl'⟩
    cases hi'
    rw [gm1] at hl'
    injection hl' with hl'
    omega
  have gm2 : (runOps ops2).images[m]? = some N := by
    rw [r2, List.getElem?_append_left (List.getElem?_eq_some_iff.1 gm1).1]; exact gm1
  have gl2 : (runOps ops2).images[j]? = some l := by
    rw [r2, List.getElem?_append_left (List.getElem?_eq_some_iff.1 gl1).1]; exact gl1
  -- flat
  have p3 := exec_place_value (s := runOps ops2) (o := .correctFlat m j junk) rfl gm2 rfl
  have ev3 : (Op.correctFlat m j junk).value (runOps ops2) ((runOps ops2).heap.view N) = correctFlatV junk ((runOps ops).data l) w := by
    rw [v2]
    unfold Op.value secondV
    dsimp only
    rw [gl2]
    dsimp only
    rw [show (runOps ops2).heap.dataOf l = (runOps ops).data l from old2]
  have r3 : Returns ops2 (.correctFlat m j junk) N := returns_place rfl rfl rfl gm2 (by rw [ev3]; exact hok)
  unfold Returns at r3
  rw [hs2, ← hops2]
  have v3 : (runOps (ops2 ++ [.correctFlat m j junk])).heap.view N = s₁.heap.view N := by
    have : s₁.heap.view N = (correctFlatV junk ((runOps ops).data l) w).2 := by
      show (runOps (ops ++ [Op.fromArray d dic (some i) (some j) junk])).heap.view N = _
      rw [runOps_snoc]
      exact hview
    rw [this, ← ev3, runOps_snoc, step_heap]
    exact p3.2
  refine ⟨?_, congrArg ImgView.data v3, congrArg (fun v => v.stokes.planes) v3, congrArg ImgView.dic v3⟩
  rw [r3, List.getElem?_append_left (List.getElem?_eq_some_iff.1 gm2).1]
  exact gm2

end

/-! ## Measurements -/

theorem demodulate_returns {ops : List Op} {i k : Nat} {D : Demodulator ℝ} {T : Fin 3 → Img ℝ} (hk : (runOps ops).images[i]? = some k)
    (hT : demodulatePlain ((runOps ops).data k) ((runOps ops).stokes k) D = .ok T) :
    ∃ n, Returns ops (.demodulate i D false) n ∧ (runOps (ops ++ [.demodulate i D false])).stokes n = T ∧
      (runOps (ops ++ [.demodulate i D false])).data n = (runOps ops).data k := by
  have e : (Op.demodulate i D false).value (runOps ops) ((runOps ops).heap.view k) =
      (.ok (), { (runOps ops).heap.view k with stokes := ⟨T, false⟩, isDemodulated := true }) := by
    show withVal (demodulatePlain ((runOps ops).data k) ((runOps ops).stokes k) D) ((runOps ops).heap.view k) (fun S =>
        (.ok (), { (runOps ops).heap.view k with stokes := ⟨S, false⟩, isDemodulated := true })) = _
    rw [hT]
    rfl
  obtain ⟨n, hn⟩ := returns_new (o := .demodulate i D false) rfl rfl hk (by rw [e])
  refine ⟨n, hn, ?_⟩
  obtain ⟨-, h2⟩ := returned_data hn rfl hk
  rw [e] at h2
  exact ⟨congrArg (fun v => v.stokes.planes) h2, congrArg ImgView.data h2⟩

theorem array_returns {ops : List Op} {d : Img ℝ} {dic : Option AngleDic} {S : Fin 3 → Img ℝ} (junk : Nat → Nat → ℝ)
    (hS : dataStokes d (dicVal dic (runOps ops).heap) = .ok S) :
    ∃ n, Returns ops (.fromArray d dic none none junk) n ∧ (runOps (ops ++ [.fromArray d dic none none junk])).data n = d ∧
      ∀ k ∈ (runOps ops).images, (runOps (ops ++ [.fromArray d dic none none junk])).data k = (runOps ops).data k := by
  refine ⟨(runOps ops).heap.objs.size, ?_, ?_, ?_⟩
  · unfold Returns
    rw [runOps_snoc, step_fromArray d dic junk hS]
  · rw [runOps_snoc, step_fromArray d dic junk hS]
    exact congrArg ImgView.data (arrayHeap_view d S dic _)
  · intro k hk
    rw [runOps_snoc]
    refine C40_data_kept ops _ k hk ?_
    rintro ⟨h, -⟩
    cases h

/-- Dark, flat and exposure become images, the exposure is corrected by the other two. -/
theorem corrected_session {ops : List Op} {dark flat raw a b : Img ℝ} {dic : AngleDic} {L : Layout}
    (hL : L.Describes dic) (he : EvenImg raw) (hed : EvenImg dark) (hef : EvenImg flat) {j1 j2 junk : Nat → Nat → ℝ}
    (ha : subtractDarkData raw dark = .ok a) (hb : correctFlatData junk a flat = .ok b) :
    let m := (runOps ops).images.length
    let s := ops ++ [.fromArray dark (some dic) none none j1] ++ [.fromArray flat (some dic) none none j2] ++
      [.fromArray raw (some dic) (some m) (some (m + 1)) junk]
    (runOps s).images.length = m + 3 ∧ ∃ k, (runOps s).images[m + 2]? = some k ∧ (runOps s).data k = b ∧
      TheoV ((runOps s).heap.view k) := by
  intro m s
  obtain ⟨_, Sd, -, hSd, -⟩ := dataStokes_ok hed.1 hed.2 hL
  obtain ⟨_, Sf, -, hSf, -⟩ := dataStokes_ok hef.1 hef.2 hL
  obtain ⟨_, Sr, -, hSr, -⟩ := dataStokes_ok he.1 he.2 hL
  obtain ⟨o1, ho1⟩ : ∃ o1, o1 = ops ++ [.fromArray dark (some dic) none none j1] := ⟨_, rfl⟩
  obtain ⟨o2, ho2⟩ : ∃ o2, o2 = o1 ++ [.fromArray flat (some dic) none none j2] := ⟨_, rfl⟩
  have hs : s = o2 ++ [.fromArray raw (some dic) (some m) (some (m + 1)) junk] := by rw [ho2, ho1]
  obtain ⟨k1, r1, d1, -⟩ := array_returns (ops := ops) (dic := some dic) j1 hSd
  unfold Returns at r1
  rw [← ho1] at r1 d1
  obtain ⟨k2, r2, d2, old2⟩ := array_returns (ops := o1) (dic := some dic) j2 hSf
  unfold Returns at r2
  rw [← ho2] at r2 d2 old2
  have g1 : (runOps o2).images[m]? = some k1 := by rw [r2, r1]; simp [m]
  have g2 : (runOps o2).images[m + 1]? = some k2 := by rw [r2, r1]; simp [m]
  have dk1 : (runOps o2).data k1 = dark := by rw [old2 k1 (by rw [r1]; simp), d1]
  obtain ⟨n, hn, hdat, -, hth⟩ := construct_ok (d := raw) (dic := some dic) (junk := junk) g1 g2 hSr (by rw [dk1]; exact ha) (by rw [d2]; exact hb)
  unfold Returns at hn
  rw [← hs] at hn hdat hth
  exact ⟨by rw [hn, r2, r1]; simp [m], n, by rw [hn, r2, r1]; simp [m], hdat, hth⟩

/-- The mean of exposures is an exposure of the mean light. -/
theorem exposure_mean {m : Nat} {raw dark : Img ℝ} {raws : Fin (m + 1) → Img ℝ} {gain : Nat → Nat → ℝ}
    {R : Nat → Nat → Fin 4 → Fin 3 → ℝ} {light : Fin (m + 1) → Nat → Nat → Fin 3 → ℝ}
    (hmix : raw.IsMixOf (fun _ => 1 / ((m + 1 : Nat) : ℝ)) raws) (hE : ∀ j, Exposure (raws j) dark gain R (light j)) :
    Exposure raw dark gain R (meanLight light) := by
  have hne : ((m + 1 : Nat) : ℝ) ≠ 0 := by positivity
  have hsum : ∀ Y X (k : Fin 4), ∑ i, R Y X k i * meanLight light Y X i = (∑ j, ∑ i, R Y X k i * light j Y X i) / ((m + 1 : Nat) : ℝ) := by
    intro Y X k
    unfold meanLight
    rw [Finset.sum_comm, Finset.sum_div]
    refine Finset.sum_congr rfl fun i _ => ?_
    rw [← Finset.mul_sum, mul_div_assoc]
  obtain ⟨h1, h2, h3, h4, -⟩ := hE 0
  obtain ⟨s1, s2⟩ := hmix.1 0
  refine ⟨by rw [← s1]; exact h1, by rw [← s2]; exact h2, by rw [← s1]; exact h3, by rw [← s2]; exact h4, ?_⟩
  intro Y X k hY hX
  have hk := k.isLt
  have hj : ∀ j, Y < (raws j).h / 2 ∧ X < (raws j).w / 2 := fun j => ⟨by rw [(hmix.1 j).1]; exact hY, by rw [(hmix.1 j).2]; exact hX⟩
  rw [hsum]
  refine ⟨div_nonneg (Finset.sum_nonneg fun j _ => ((hE j).2.2.2.2 Y X k (hj j).1 (hj j).2).1) (by positivity), ?_⟩
  rw [hmix.2 _ _ (by omega) (by omega)]
  rw [Finset.sum_congr rfl fun j _ => by rw [((hE j).2.2.2.2 Y X k (hj j).1 (hj j).2).2]]
  rw [← Finset.mul_sum, Finset.sum_add_distrib, Finset.sum_const, Finset.card_univ, Fintype.card_fin, nsmul_eq_mul, ← Finset.mul_sum]
  field_simp

section
variable {cwd : List Name} {c : Clock} {fs : FileSystem}

theorem load_step {ops : List DiskOp} {arg : LoadArg} {dic : Option AngleDic} {dk fl : Option Nat} {average : Bool} {dates : FoundDates}
    {junk : Nat → Nat → ℝ} {r : LoadedImage}
    (hr : loadImage (fitsOpen cwd (diskRun cwd c fs ops).files dates) c arg average = .ok r) :
    (diskRun cwd c fs (ops ++ [.load arg dic dk fl average dates junk])).mem =
        step (diskRun cwd c fs ops).mem (.fromArray r.data dic dk fl junk) ∧
      (diskRun cwd c fs (ops ++ [.load arg dic dk fl average dates junk])).files = (diskRun cwd c fs ops).files := by
  rw [diskRun_snoc]
  refine ⟨?_, rfl⟩
  unfold diskStep loadObj
  dsimp only
  rw [hr]

variable {ops : List DiskOp} {M h w : Nat} {names : Fin (M + 1) → Name} {raws : Fin (M + 1) → Img ℝ} {dark flat : Img ℝ}
  {darkName flatName : Name} {dates : FoundDates} {gain : Nat → Nat → ℝ} {R : Nat → Nat → Fin 4 → Fin 3 → ℝ}
  {light : Fin (M + 1) → Nat → Nat → Fin 3 → ℝ} {dic : AngleDic} {L : Layout}

/-- From the corrected pixels to the Stokes vectors that the program shows. -/
theorem measured_files (hfiles : MeasurementFiles cwd c (diskRun cwd c fs ops).files dates names raws
      darkName dark flatName flat h w) (hE : ∀ j, Exposure (raws j) dark gain R (light j)) (hF : FlatOf flat h w gain)
    (hg : ∀ y x, y < h → x < w → 0 < gain y x) (hh : h ≠ 0) (hw : w ≠ 0) (hL : L.Describes dic) (junk : Nat → Nat → ℝ) (D : Demodulator ℝ)
    (P : (Fin 3 → Img ℝ) → Prop)
    (hdem : ∀ raw, raw.HasShape h w → Exposure raw dark gain R (meanLight light) → ∀ prev : Fin 3 → Img ℝ,
      (∀ i, (prev i).HasShape (h / 2) (w / 2)) →
      ∃ a b T, subtractDarkData raw dark = .ok a ∧ correctFlatData junk a flat = .ok b ∧ demodulatePlain b prev D = .ok T ∧ P T) :
    ∃ n, (diskRun cwd c fs (ops ++ measurement (diskRun cwd c fs ops).mem.images.length darkName flatName (List.ofFn names) dic dates junk
        D)).mem.images[(diskRun cwd c fs ops).mem.images.length + 3]? = some n ∧
      P ((diskRun cwd c fs (ops ++ measurement (diskRun cwd c fs ops).mem.images.length darkName flatName (List.ofFn names) dic dates junk
        D)).mem.stokes n) := by
  obtain ⟨f1, f2, f3, f4, f5⟩ := hfiles
  obtain ⟨ops', hmem, -⟩ := mem_run (cwd := cwd) (c := c) (fs := fs) ops
  obtain ⟨m, hm⟩ : ∃ m, m = (diskRun cwd c fs ops).mem.images.length := ⟨_, rfl⟩
  rw [← hm]
  -- the loads
  obtain ⟨o1, ho1⟩ : ∃ o1, o1 = ops ++ [.load (.single darkName) (some dic) none none true dates junk] := ⟨_, rfl⟩
  obtain ⟨o2, ho2⟩ : ∃ o2, o2 = o1 ++ [.load (.single flatName) (some dic) none none true dates junk] := ⟨_, rfl⟩
  obtain ⟨o3, ho3⟩ : ∃ o3, o3 = o2 ++ [.load (.list (List.ofFn names)) (some dic) (some m) (some (m + 1)) true dates junk] := ⟨_, rfl⟩
  have hall : ops ++ measurement m darkName flatName (List.ofFn names) dic dates junk D = o3 ++ [.call (.demodulate (m + 2) D false)] := by
    rw [ho3, ho2, ho1]
    unfold measurement
    simp
  obtain ⟨rd, hrd, ed⟩ := load_one (arg := .single darkName) rfl f3.1 (f5 _) f3.2 true
  obtain ⟨m1, q1⟩ := load_step (dic := some dic) (dk := none) (fl := none) (junk := junk) hrd
  rw [← ho1] at m1 q1
  obtain ⟨rf, hrf, ef⟩ := load_one (arg := .single flatName) (fs := (diskRun cwd c fs o1).files) rfl f4.1 (f5 _) (by rw [q1]; exact f4.2) true
  obtain ⟨m2, q2⟩ := load_step (dic := some dic) (dk := none) (fl := none) (junk := junk) hrf
  rw [← ho2] at m2 q2
  obtain ⟨rr, hrr, hsh, hmix⟩ := load_mean (diskRun cwd c fs o2).files names raws (fun j => (f1 j).1) f2
    (fun j => by rw [q2, q1]; exact (f1 j).2) (fun j => f5 _)
  obtain ⟨m3, -⟩ := load_step (dic := some dic) (dk := some m) (fl := some (m + 1)) (junk := junk) hrr
  rw [← ho3] at m3
  rw [m2, m1, hmem, ← runOps_snoc, ← runOps_snoc, ← runOps_snoc, ed, ef] at m3
  -- the exposure
  have hexp := exposure_mean hmix hE
  have eraw : EvenImg rr.data := ⟨hexp.1, hexp.2.1⟩
  have edark : EvenImg dark := ⟨by rw [hexp.2.2.1]; exact hexp.1, by rw [hexp.2.2.2.1]; exact hexp.2.1⟩
  have eflat : EvenImg flat := ⟨by rw [hF.1, ← hsh.1]; exact hexp.1, by rw [hF.2.1, ← hsh.2]; exact hexp.2.1⟩
  obtain ⟨a, b, ha, hb, hbs, -⟩ := C94_corrected (flat := flat) hexp (by rw [hsh.1, hsh.2]; exact hF) (by rw [hsh.1, hsh.2]; exact hg)
    (by rw [hsh.1]; exact hh) (by rw [hsh.2]; exact hw) junk
  have hm' : m = (runOps ops').images.length := by rw [hm, hmem]
  have hses := corrected_session (ops := ops') hL eraw edark eflat (j1 := junk) (j2 := junk) ha hb
  rw [← hm'] at hses
  obtain ⟨s2, k, hk, hdat, hth⟩ := hses
  obtain ⟨s, hs⟩ : ∃ s : List Op, s = ops' ++ [.fromArray dark (some dic) none none junk] ++ [.fromArray flat (some dic) none none junk] ++
    [.fromArray rr.data (some dic) (some m) (some (m + 1)) junk] := ⟨_, rfl⟩
  rw [← hs] at m3 s2 hk hdat hth
  have hst := theo_half hth
  obtain ⟨a', b', T, ha', hb', hT, hP⟩ := hdem rr.data hsh hexp ((runOps s).stokes k) (by
    intro i
    have := hst i
    rw [show ((runOps s).heap.view k).data = b from hdat, hbs.1, hbs.2, hsh.1, hsh.2] at this
    exact this)
  rw [ha] at ha'
  injection ha' with ha'
  subst ha'
  rw [hb] at hb'
  injection hb' with hb'
  subst hb'
  obtain ⟨n, hn, hn1, -⟩ := demodulate_returns (i := m + 2) (D := D) hk (by rw [hdat]; exact hT)
  have hlast : (diskRun cwd c fs (o3 ++ [.call (.demodulate (m + 2) D false)])).mem = runOps (s ++ [.demodulate (m + 2) D false]) := by
    rw [diskRun_snoc, runOps_snoc]
    show step (diskRun cwd c fs o3).mem _ = _
    rw [m3]
  rw [hall, hlast]
  refine ⟨n, ?_, by rw [hn1]; exact hP⟩
  unfold Returns at hn
  rw [hn, ← s2]
  simp

/-- C104: a program, started at any moment, whatever programs ran before, loads a dark, a flat and any number of exposures from files,
corrects the mean exposure with dark and flat, and demodulates it.  Wherever the tensor was found and inverts the micropolarizers, the
Stokes vector that it shows is that of the light, averaged over the exposures, times the mean gain. -/
theorem C104_files (hfiles : MeasurementFiles cwd c (diskRun cwd c fs ops).files dates names raws
      darkName dark flatName flat h w) (hE : ∀ j, Exposure (raws j) dark gain R (light j)) (hF : FlatOf flat h w gain)
    (hg : ∀ y x, y < h → x < w → 0 < gain y x) (hh : h ≠ 0) (hw : w ≠ 0) (hL : L.Describes dic) (junk : Nat → Nat → ℝ) (D : Demodulator ℝ)
    (hD : D.HasShape (h / 2) (w / 2)) {flags : Img ℝ} (hf : D.fitFoundFlags = some flags) (hfs : flags.HasShape (h / 2) (w / 2)) :
    let m := (diskRun cwd c fs ops).mem.images.length
    let p := diskRun cwd c fs (ops ++ measurement m darkName flatName (List.ofFn names) dic dates junk D)
    ∃ n, p.mem.images[m + 3]? = some n ∧ ∀ Y X, Y < h / 2 → X < w / 2 → flags.px Y X = 1 →
      (∀ i j, ∑ k, (D.mij i k).px Y X * R Y X k j = if i = j then 1 else 0) →
      ∀ i, (p.mem.stokes n i).px Y X = meanGain h w gain * meanLight light Y X i := by
  refine measured_files hfiles hE hF hg hh hw hL junk D (fun T => ∀ Y X, Y < h / 2 → X < w / 2 → flags.px Y X = 1 →
      (∀ i j, ∑ k, (D.mij i k).px Y X * R Y X k j = if i = j then 1 else 0) →
      ∀ i, (T i).px Y X = meanGain h w gain * meanLight light Y X i) ?_
  rintro raw ⟨rfl, rfl⟩ hexp prev hprev
  obtain ⟨a, b, T, ha, hb, hT, -, hP⟩ := C94_measurement hexp hF hg hh hw junk hprev hD hf hfs
  exact ⟨a, b, T, ha, hb, hT, hP⟩

/-- C104: so the degree and the angle of polarization of the light are the ones that the program shows. -/
theorem C104_polarization (hfiles : MeasurementFiles cwd c (diskRun cwd c fs ops).files dates
      names raws darkName dark flatName flat h w) (hE : ∀ j, Exposure (raws j) dark gain R (light j)) (hF : FlatOf flat h w gain)
    (hg : ∀ y x, y < h → x < w → 0 < gain y x) (hh : h ≠ 0) (hw : w ≠ 0) (hL : L.Describes dic) (junk : Nat → Nat → ℝ) (D : Demodulator ℝ)
    (hD : D.HasShape (h / 2) (w / 2)) {flags : Img ℝ} (hf : D.fitFoundFlags = some flags) (hfs : flags.HasShape (h / 2) (w / 2)) :
    let m := (diskRun cwd c fs ops).mem.images.length
    let p := diskRun cwd c fs (ops ++ measurement m darkName flatName (List.ofFn names) dic dates junk D)
    ∃ n P, p.mem.images[m + 3]? = some n ∧ DoLP (p.mem.stokes n) = .ok P ∧
      ∀ Y X, Y < h / 2 → X < w / 2 → flags.px Y X = 1 →
      (∀ i j, ∑ k, (D.mij i k).px Y X * R Y X k j = if i = j then 1 else 0) →
      ∀ i q θ : ℝ, 0 < i → 0 < q → meanLight light Y X = stokesOfLight i q θ →
        (pB (p.mem.stokes n)).px Y X = meanGain h w gain * (i * q) ∧ P.px Y X = q ∧ ∃ z : ℤ, (AoLP (p.mem.stokes n)).px Y X = θ + z * π := by
  intro m p
  obtain ⟨n, hn, P, hP⟩ := measured_files hfiles hE hF hg hh hw hL junk D (fun T => ∃ P, DoLP T = .ok P ∧
      ∀ Y X, Y < h / 2 → X < w / 2 → flags.px Y X = 1 →
      (∀ i j, ∑ k, (D.mij i k).px Y X * R Y X k j = if i = j then 1 else 0) →
      ∀ i q θ : ℝ, 0 < i → 0 < q → meanLight light Y X = stokesOfLight i q θ →
        (pB T).px Y X = meanGain h w gain * (i * q) ∧ P.px Y X = q ∧ ∃ z : ℤ, (AoLP T).px Y X = θ + z * π) (by
    rintro raw ⟨rfl, rfl⟩ hexp prev hprev
    obtain ⟨a, b, T, P, ha, hb, hT, hD', hP⟩ := C94_polarization hexp hF hg hh hw junk hprev hD hf hfs
    exact ⟨a, b, T, ha, hb, hT, P, hD', hP⟩)
  exact ⟨n, P, hn, hP⟩

end

section
variable {cfs : Name → Option (Img ℝ)} {fit : GaussFit} {a : CalibArgs} {b H W : Nat} {F : Name → Img ℝ}
  {Dk : Option (Img ℝ)} {S : Nat → Nat → Nat → ℝ} {env : CalibEnv} {ny nx : Nat} {schedule : List Nat}

/-- C104: calibration, its folder, and the measurement.  The sensor of C75 is calibrated, the calibration is written over whatever
calibration the folder held; later, in any program, the folder is loaded in whatever order it is listed, and any exposures of any scene by
this sensor are loaded, corrected and demodulated.  The files of the folder hold the sensor's parameters, and at the superpixel the program shows the Stokes vector of the light times the mean gain. -/
theorem C104_calibrated (hfind : env.FindsExact) (hpinv : env.PinvCorrect)
    (hR : Readable cfs a b H W F Dk) (hS : Prescribes a a.filenames.length b H W S) (hgain : 0 < a.gain)
    (hpos : ∀ n ∈ a.filenames, ∀ y x, y < 2 * (H / (2 * b)) → x < 2 * (W / (2 * b)) → 0 ≤ lit (F n) Dk b y x)
    (hny : 0 < ny) (hnx : 0 < nx) (hh : 2 * (H / (2 * b)) % (2 * ny) = 0) (hw : 2 * (W / (2 * b)) % (2 * nx) = 0)
    (hord : schedule.Perm (List.range (ny * nx)))
    {Y X : Nat} (hY : Y < H / (2 * b)) (hX : X < W / (2 * b)) (hocc : a.occulter = none)
    (hbt : SaneBounds (boundsOr a.tkBoundary)) (hbe : SaneBounds (boundsOr a.effBoundary))
    {t e φ : Fin 4 → ℝ}
    (ht : ∀ k, boundsOr a.tkBoundary 1 < t k ∧ t k < boundsOr a.tkBoundary 2)
    (he : ∀ k, boundsOr a.effBoundary 1 < e k ∧ e k < boundsOr a.effBoundary 2)
    (hφ : ∀ k, |φ k - a.previsions k * Real.pi / 180| < Real.pi / 12)
    {o : Fin 3 → ℝ} (ho : ThreeDirections o) (hoa : ∀ i, o i ∈ a.orientations)
    {Lo : List (ℝ × Name)} (hLo : SortedList a Lo)
    (hlaw : ∀ p (hp : p < Lo.length), ∀ k, lit (F Lo[p].2) Dk b (rowOf Y k) (colOf X k) =
      S p (rowOf Y k) (colOf X k) * transmitted (t k) (e k) (φ k) (Lo[p].1 * Real.pi / 180))
    (hrank : FullRank (Matrix.of (responseMatrix t e φ)))
    (hbig : ∀ i j, |env.pinv (responseMatrix t e φ) i j| ≤ 100) (folder : CalibFolder ℝ) (hclean : CleanFolder folder.top) :
    ∃ after, calibrateInto cfs fit env a ny nx schedule folder = .ok after ∧
      ∀ listing : Listing ℝ, listing.Perm after.top →
      (∃ tk eff phase, readFile listing "transmittancies.fits".toList = .ok tk ∧ readFile listing "efficiences.fits".toList = .ok eff ∧
        readFile listing "phases.fits".toList = .ok phase ∧ ∀ k, tk.px (rowOf Y k) (colOf X k) = t k ∧
        eff.px (rowOf Y k) (colOf X k) = e k ∧ phase.px (rowOf Y k) (colOf X k) = φ k * 180 / Real.pi) ∧
      ∃ D, loadDemodulator (some listing) = .ok D ∧
      ∀ (cwd : List Name) (c : Clock) (fs : FileSystem) (ops : List DiskOp) (M : Nat) (names : Fin (M + 1) → Name)
        (raws : Fin (M + 1) → Img ℝ) (dark flat : Img ℝ) (darkName flatName : Name) (dates : FoundDates) (gain : Nat → Nat → ℝ)
        (R : Nat → Nat → Fin 4 → Fin 3 → ℝ) (light : Fin (M + 1) → Nat → Nat → Fin 3 → ℝ) (dic : AngleDic) (L : Layout)
        (junk : Nat → Nat → ℝ),
        MeasurementFiles cwd c (diskRun cwd c fs ops).files dates names raws darkName dark flatName flat
          (2 * (H / (2 * b))) (2 * (W / (2 * b))) →
        (∀ j, Exposure (raws j) dark gain R (light j)) → FlatOf flat (2 * (H / (2 * b))) (2 * (W / (2 * b))) gain →
        (∀ y x, y < 2 * (H / (2 * b)) → x < 2 * (W / (2 * b)) → 0 < gain y x) → L.Describes dic → R Y X = responseMatrix t e φ →
        let m := (diskRun cwd c fs ops).mem.images.length
        let p := diskRun cwd c fs (ops ++ measurement m darkName flatName (List.ofFn names) dic dates junk D)
        ∃ n, p.mem.images[m + 3]? = some n ∧
          ∀ i, (p.mem.stokes n i).px Y X = meanGain (2 * (H / (2 * b))) (2 * (W / (2 * b))) gain * meanLight light Y X i := by
  obtain ⟨maps, hm, hobs⟩ := C94_calibrated (fit := fit) hfind hpinv hR hS hgain hpos hny hnx hh hw hord hY hX hocc hbt hbe ht he hφ ho hoa hLo
    hlaw hrank hbig
  have hshape : ∀ i j, (maps.mij i j).HasShape (H / (2 * b)) (W / (2 * b)) := by
    obtain ⟨inp, hp, e1, e2, e3, -⟩ := C73_frames_partial (fit := fit) hR hS hgain hpos hLo
    obtain ⟨hg, -⟩ := grid_divides (inp := inp) hny hnx (by rw [e2]; exact hh) (by rw [e3]; exact hw) hord
    unfold calculateDemodulationTensor at hm
    rw [hp, Py.ok_bind, calibrate_eq env inp hg.ny_pos hg.nx_pos hg.even_y hg.even_x hg.order] at hm
    injection hm with hm
    subst hm
    intro i j
    refine ⟨?_, ?_⟩
    · show inp.height / 2 = _
      omega
    · show inp.width / 2 = _
      omega
  refine ⟨saveCalibration maps.output folder, ?_, ?_⟩
  · unfold calibrateInto
    rw [hm]
    rfl
  intro listing hl
  refine ⟨?_, ⟨maps.mij, some maps.fitFound⟩, ?_⟩
  · obtain ⟨maps', hm', -, hpar, -⟩ := C75_recovers_sensor (fit := fit) hfind hpinv hR hS hgain hpos hny hnx hh hw hord hY hX hocc hbt hbe
      ht he hφ ho hoa hLo hlaw hrank hbig
    rw [hm] at hm'
    cases hm'
    obtain ⟨r1, r2, r3⟩ := C28_maps maps.output folder hclean.1 listing hl
    exact ⟨_, _, _, r1, r2, r3, hpar⟩
  refine ⟨C28_roundtrip maps.output _ _ hshape folder hclean listing hl, ?_⟩
  intro cwd c fs ops M names raws dark flat darkName flatName dates gain R light dic L junk hfiles hE hF hg hL hRR
  refine measured_files hfiles hE hF hg (by omega) (by omega) hL junk _ (fun T => ∀ i, (T i).px Y X =
    meanGain (2 * (H / (2 * b))) (2 * (W / (2 * b))) gain * meanLight light Y X i) ?_
  intro raw hraw hexp prev hprev
  obtain ⟨p, q, T, h1, h2, h3, h4⟩ := hobs raw dark flat gain R (meanLight light) junk hraw hexp (by rw [hraw.1, hraw.2]; exact hF)
    (by rw [hraw.1, hraw.2]; exact hg) hRR prev (by
      intro i
      have := hprev i
      rw [show 2 * (H / (2 * b)) / 2 = H / (2 * b) by omega, show 2 * (W / (2 * b)) / 2 = W / (2 * b) by omega] at this
      exact this)
  rw [hraw.1, hraw.2] at h4
  exact ⟨p, q, T, h1, h2, h3, h4⟩

end

/-! Non-vacuity: the exposure of C94 and its flat and dark on a disk, measured by the first program that runs, with the tensor that inverts
ideal polarizers. -/

/-- The file names `d.fits`, `f.fits` and `r.fits`. -/
def dFits : Name := ['d', '.', 'f', 'i', 't', 's']
def fFits : Name := ['f', '.', 'f', 'i', 't', 's']
def rFits : Name := ['r', '.', 'f', 'i', 't', 's']

/-- A disk with an exposure, its dark and its flat. -/
def exDisk : FileSystem :=
  ((emptyDisk.put (abspath [] dFits) (some (.fits (Img.const 2 2 7)))).put (abspath [] fFits)
    (some (.fits (Img.ofFn 2 2 (fun y x => 100 * exGain y x))))).put (abspath [] rFits) (some (.fits exRaw))

/-- The tensor for ideal polarizers at 0, 45, -45 and 90 degrees. -/
def exTensor : Fin 3 → Fin 4 → ℝ := ![![1/2, 1/2, 1/2, 1/2], ![1, 0, 0, -1], ![0, 1, -1, 0]]

theorem put_this (fs : FileSystem) (p : Name) (c : Option Content) : (fs.put p c).file p = c := if_pos rfl

theorem put_elsewhere (fs : FileSystem) {p q : Name} (c : Option Content) (h : q ≠ p) : (fs.put p c).file q = fs.file q := if_neg h

example : MeasurementFiles [] noClock (diskRun [] noClock exDisk []).files (fun _ => (none, none)) (fun _ : Fin 1 => rFits) (fun _ => exRaw)
    dFits (Img.const 2 2 7) fFits (Img.ofFn 2 2 (fun y x => 100 * exGain y x)) 2 2 ∧
    ∀ i j, ∑ k, exTensor i k * exResponse k j = if i = j then 1 else 0 := by
  refine ⟨⟨fun _ => ⟨show rFits ≠ rawExt by decide, ?_, ⟨rfl, rfl⟩⟩, fun a b _ => by omega, ⟨by decide, ?_⟩, ⟨by decide, ?_⟩, fun _ => ⟨none, rfl⟩⟩, ?_⟩
  · show exDisk.file (abspath [] rFits) = _
    unfold exDisk
    rw [put_this]
  · show exDisk.file (abspath [] dFits) = _
    unfold exDisk
    rw [put_elsewhere _ _ (by decide), put_elsewhere _ _ (by decide), put_this]
  · show exDisk.file (abspath [] fFits) = _
    unfold exDisk
    rw [put_elsewhere _ _ (by decide), put_this]
  · intro i j
    fin_cases i <;> fin_cases j <;>
      norm_num [exTensor, exResponse, Fin.sum_univ_four, Matrix.cons_val_two, Matrix.cons_val_three, Matrix.tail_cons, Matrix.head_cons]

/-- A session in which a dark and a flat exist: an image can be constructed with them. -/
example : ∃ ops : List Op, (runOps ops).images[0]? = some 0 ∧ ((runOps ops).data 0).HasShape 2 2 ∧ ((runOps ops).data 0).mean ≠ 0 ∧
    ∃ L : Layout, L.Describes (dicVal none (runOps ops).heap) := by
  obtain ⟨S, hS⟩ : ∃ S, dataStokes (Img.const 2 2 (7 : ℝ)) (dicVal (some polarCamAngles) (runOps []).heap) = .ok S := by
    obtain ⟨_, S, -, hS, -⟩ := dataStokes_ok (d := Img.const 2 2 (7 : ℝ)) rfl rfl C02_polarCam.1
    exact ⟨S, hS⟩
  have h1 := step_fromArray (s := runOps []) (Img.const 2 2 (7 : ℝ)) (some polarCamAngles) (fun _ _ => 0) hS
  rw [← runOps_snoc] at h1
  have hdat : (runOps ([] ++ [.fromArray (Img.const 2 2 (7 : ℝ)) (some polarCamAngles) none none fun _ _ => 0])).data 0 = Img.const 2 2 7 := by
    rw [h1]
    exact congrArg ImgView.data (arrayHeap_view (Img.const 2 2 (7 : ℝ)) S (some polarCamAngles) initState.heap)
  refine ⟨[] ++ [.fromArray (Img.const 2 2 (7 : ℝ)) (some polarCamAngles) none none fun _ _ => 0], ?_, ?_, ?_, ?_⟩
  · rw [h1]
    rfl
  · rw [hdat]
    exact ⟨rfl, rfl⟩
  · rw [hdat]
    have : ∀ y x, y < 2 → x < 2 → (Img.const 2 2 (7 : ℝ)).px y x = 7 := fun y x hy hx => Img.ofFn_px hy hx
    unfold Img.mean Img.total Img.totalOn
    show (∑ y ∈ Finset.range 2, ∑ x ∈ Finset.range 2, _) / _ ≠ 0
    simp only [Finset.sum_range_succ, Finset.sum_range_zero]
    rw [this 0 0 (by omega) (by omega), this 0 1 (by omega) (by omega), this 1 0 (by omega) (by omega), this 1 1 (by omega) (by omega)]
    show _ / ((2 * 2 : Nat) : ℝ) ≠ 0
    norm_num
  · rw [h1]
    exact ⟨_, C02_polarCam.1⟩

end

end Micropol
