import Verif.Lemmas.ObjectShape
import Verif.Props.Demosaic

/-!
# What holds of every image after any history

Even data, a dictionary that describes all four orientations, and, of demosaiced images, four images of one even size.
-/

set_option autoImplicit false

namespace Micropol

noncomputable section

/-- Four images of one size with even sides. -/
def FourEven (s : Fin 4 → Img ℝ) : Prop := EvenImg (s 0) ∧ ∀ q, (s q).SameShape (s 0)

/-- The dictionary names a family for each of the four orientations. -/
def WholeDic (dic : AngleDic) : Prop := ∃ L : Layout, ∀ s : Fin 4 → Img ℝ, theoStokes s dic = .ok (stokesClosed s L)

def SoundV (v : ImgView) : Prop :=
  EvenImg v.data ∧ WholeDic v.dic ∧ (v.isDemosaiced = true → ∃ s, v.demosaicedImages = some s ∧ FourEven s)

theorem SoundV.whole_dataStokes {dic : AngleDic} (h : WholeDic dic) {d : Img ℝ} (hd : EvenImg d) : ∃ S, dataStokes d dic = .ok S := by
  obtain ⟨L, hL⟩ := h
  unfold dataStokes
  rw [split_ok hd.1 hd.2, Py.ok_bind, hL]
  exact ⟨_, rfl⟩

theorem SoundV.theo {v : ImgView} (h : SoundV v) : ∃ S, theoV v = .ok S := by
  unfold theoV
  split
  · rename_i hd
    obtain ⟨s, hs, -⟩ := h.2.2 hd
    obtain ⟨L, hL⟩ := h.2.1
    rw [hs]
    exact ⟨_, hL s⟩
  · exact whole_dataStokes h.2.1 h.1

theorem TheoV.sound {v : ImgView} (h : TheoV v) : SoundV v :=
  ⟨h.even, dataStokes_layout h.2, fun hd => (by rw [h.1] at hd; cases hd)⟩

theorem SoundV.withData {v : ImgView} (h : SoundV v) {d : Img ℝ} (hd : EvenImg d) : SoundV { v with data := d } := ⟨hd, h.2⟩

theorem SoundV.withStokes {v : ImgView} (h : SoundV v) (sv : StokesVec) : SoundV { v with stokes := sv } := h

theorem updateStokesV_ok {v : ImgView} (h : SoundV v) : (updateStokesV v).1 = .ok () := by
  obtain ⟨S, hS⟩ := h.theo
  unfold updateStokesV
  rw [hS]
  rfl

theorem updateStokesV_sound {v : ImgView} (h : SoundV v) : SoundV (updateStokesV v).2 := withVal_inv h fun _ _ => h

theorem updateData_ok {v : ImgView} (h : SoundV v) {d : Img ℝ} (hd : EvenImg d) : (updateDataAndStokesV d v).1 = .ok () :=
  updateStokesV_ok (h.withData hd)

theorem updateData_sound {v : ImgView} (h : SoundV v) {d : Img ℝ} (hd : EvenImg d) : SoundV (updateDataAndStokesV d v).2 :=
  updateStokesV_sound (h.withData hd)

theorem subtractDarkV_sound {v : ImgView} {d : Img ℝ} (hv : SoundV v) (hd : EvenImg d) : SoundV (subtractDarkV d v).2 :=
  withVal_inv hv fun _ ha => andThen_inv (updateData_sound hv (even_of_shape hv.1 (subtractDarkData_shape hv.1 hd ha)))
    fun _ h => h

theorem correctFlatV_sound {junk : Nat → Nat → ℝ} {v : ImgView} {d : Img ℝ} (hv : SoundV v) (hd : EvenImg d) :
    SoundV (correctFlatV junk d v).2 :=
  withVal_inv hv fun _ ha => andThen_inv (updateData_sound hv (even_of_shape hv.1 (correctFlatData_shape hv.1 hd ha)))
    fun _ h => h

theorem applyCorrectionsV_sound {junk : Nat → Nat → ℝ} {d f : Option (Img ℝ)} {v : ImgView} (hv : SoundV v)
    (hd : ∀ e, d = some e → EvenImg e) (hf : ∀ e, f = some e → EvenImg e) :
    SoundV (applyCorrectionsV junk d f v).2 := by
  unfold applyCorrectionsV
  split
  · exact hv
  · exact subtractDarkV_sound hv (hd _ rfl)
  · exact correctFlatV_sound hv (hf _ rfl)
  · exact andThen_inv (subtractDarkV_sound hv (hd _ rfl)) fun _ h => correctFlatV_sound h (hf _ rfl)

/-- Demosaicing gives four images of the size of the data. -/
theorem demosaic_sizes {A : Img ℝ} (hA : EvenImg A) {mode : String} {r : Fin 4 → Img ℝ} (h : demosaic A mode = .ok r) (q : Fin 4) :
    (r q).SameShape A := by
  by_cases h1 : mode = "mean"
  · subst h1
    obtain ⟨r', hr, hs⟩ := C13_mean A _ (split_ok hA.1 hA.2)
    cases Except.ok.inj (hr.symm.trans h)
    exact ⟨(hs q).1, (hs q).2.1⟩
  · by_cases h2 : mode = "adjacent"
    · subst h2
      obtain ⟨r', hr, hs⟩ := demosaic_adjacent_ok A hA.1 hA.2
      cases Except.ok.inj (hr.symm.trans h)
      exact ⟨(hs q).1, (hs q).2.1⟩
    · unfold demosaic at h
      rw [if_neg h1, if_neg h2] at h
      split at h <;> cases h

theorem demosaic_four {A : Img ℝ} (hA : EvenImg A) {mode : String} {r : Fin 4 → Img ℝ} (h : demosaic A mode = .ok r) : FourEven r := by
  have hs := demosaic_sizes hA h
  refine ⟨even_of_shape hA (hs 0), fun q => ⟨?_, ?_⟩⟩
  · rw [(hs q).1, (hs 0).1]
  · rw [(hs q).2, (hs 0).2]

theorem demosaicV_sound {mode : String} {v : ImgView} (hv : SoundV v) : SoundV (demosaicV mode v).2 :=
  withVal_inv hv fun s hs => updateStokesV_sound (v := { v with demosaicedImages := some s, isDemosaiced := true })
    ⟨hv.1, hv.2.1, fun _ => ⟨s, rfl, demosaic_four hv.1 hs⟩⟩

theorem roi_sizes {A C : Img ℝ} (hA : EvenImg A) {y x r R fill : ℝ}
    (h : roiFromPolar A (some (y, x)) (some (r, R)) (0, 360) fill true = .ok C) : C.SameShape A := by
  obtain ⟨B, h1, h2⟩ := C46_superpixels A hA.1 hA.2 (y, x) (r, R) (0, 360) fill _ _ _ _ (pyInt_trunc _) (pyInt_trunc _)
    (pyInt_trunc _) (pyInt_trunc _)
  rw [h1] at h
  cases h
  exact ⟨h2.1, h2.2.1⟩

theorem mapFour_sizes {f : Img ℝ → Py (Img ℝ)} (hf : ∀ A C, EvenImg A → f A = .ok C → C.SameShape A) {s t : Fin 4 → Img ℝ}
    (hs : FourEven s) (h : mapFour f s = .ok t) : FourEven t := by
  have hev : ∀ q, EvenImg (s q) := fun q => even_of_shape hs.1 (hs.2 q)
  unfold mapFour at h
  obtain ⟨a, ha, h⟩ := Py.bind_eq_ok.1 h
  obtain ⟨b, hb, h⟩ := Py.bind_eq_ok.1 h
  obtain ⟨c, hc, h⟩ := Py.bind_eq_ok.1 h
  obtain ⟨d, hd, h⟩ := Py.bind_eq_ok.1 h
  cases h
  have sa := hf _ _ (hev 0) ha
  have sb := hf _ _ (hev 1) hb
  have sc := hf _ _ (hev 2) hc
  have sd := hf _ _ (hev 3) hd
  refine ⟨even_of_shape hs.1 sa, fun q => ?_⟩
  have e := hs.2
  have tr : ∀ {q : Fin 4} {X : Img ℝ}, X.SameShape (s q) → X.SameShape a := fun {q} {X} hX =>
    ⟨by rw [hX.1, (e q).1, sa.1], by rw [hX.2, (e q).2, sa.2]⟩
  fin_cases q
  · exact tr sa
  · exact tr sb
  · exact tr sc
  · exact tr sd

theorem rewriteStokesV_sound {f : Img ℝ → Py (Img ℝ)} {v : ImgView} (hv : SoundV v) : SoundV (rewriteStokesV f v).2 := hv

theorem maskOcculterV_sound {y x r over fill : ℝ} {v : ImgView} (hv : SoundV v) : SoundV (maskOcculterV y x r over fill v).2 := by
  unfold maskOcculterV
  refine withVal_inv hv fun d ha => ?_
  have hd : SoundV { v with data := d } := hv.withData (even_of_shape hv.1 (occulterRoi_shape hv.1 ha))
  refine andThen_inv (P := SoundV) ?_ fun w hw => ?_
  · unfold maskDemosaicedV
    split
    · exact hd
    · exact hd
    · rename_i s hflag hsome
      refine withVal_inv hd fun t ht => ⟨hd.1, hd.2.1, fun hf => ⟨t, rfl, ?_⟩⟩
      obtain ⟨s', hs', h4⟩ := hd.2.2 hflag
      rw [hs'] at hsome
      cases hsome
      exact mapFour_sizes (fun A C hA h => roi_sizes hA h) h4 ht
  · split
    · exact rewriteStokesV_sound hw
    · exact rewriteStokesV_sound hw

/-- Every operation keeps it. -/
theorem value_sound {s : State} (hs : ∀ k ∈ s.images, EvenImg (s.heap.dataOf k)) (o : Op) {v : ImgView} (hv : SoundV v) :
    SoundV (o.value s v).2 := by
  have himg : ∀ (j k : Nat), s.images[j]? = some k → EvenImg (s.heap.dataOf k) := fun j k hk =>
    hs k (List.mem_of_getElem? hk)
  have hopt : ∀ d : Option (Img ℝ), (∀ e, d = some e → ∃ k ∈ s.images, e = s.heap.dataOf k) →
      ∀ e, d = some e → EvenImg e := by
    intro d hd e he
    obtain ⟨k, hk, rfl⟩ := hd e he
    exact hs k hk
  unfold Op.value
  split
  · exact hv
  · exact hv
  · exact optV_inv hv fun _ hd => optV_inv hv fun _ hf => applyCorrectionsV_sound hv (hopt _ hd) (hopt _ hf)
  · split
    · exact hv
    · exact withVal_inv hv fun _ ha => updateData_sound hv (rebin_even hv.1 (by omega) ha)
  · refine withVal_inv hv fun _ ha => withVal_inv hv fun _ _ => withVal_inv hv fun _ _ => withVal_inv hv fun _ _ => ?_
    exact ⟨congridData_even ha, hv.2⟩
  · exact withVal_inv hv fun _ ha => andThen_inv (r := rewriteStokesV _ v) (rewriteStokesV_sound hv) fun _ hw =>
      hw.withData (even_of_shape hv.1 (rotateData_shape ha))
  · unfold demodulateV
    split
    · exact andThen_inv (demosaicV_sound hv) fun w hw => withVal_inv hw fun _ _ => hw
    · exact withVal_inv hv fun _ _ => hv
  · exact withVal_inv hv fun _ ha => updateData_sound hv (even_of_shape hv.1 (shift_shape hv.1 ha))
  · exact secondV_inv hv fun _ _ => withVal_inv hv fun _ ha => updateData_sound hv (cleanHot_even ha)
  · exact secondV_inv hv fun k hk => withVal_inv hv fun _ ha =>
      updateData_sound hv (even_of_shape hv.1 (arithImage_shape hv.1 (himg _ k hk) ha))
  · exact withVal_inv hv fun _ ha => withVal_inv hv fun _ _ =>
      ⟨even_of_shape hv.1 (arithNumber_shape ha), hv.2.1, fun h => (by cases h)⟩
  · exact demosaicV_sound hv
  · exact secondV_inv hv fun k hk => subtractDarkV_sound hv (himg _ k hk)
  · exact secondV_inv hv fun k hk => correctFlatV_sound hv (himg _ k hk)
  · exact withVal_inv hv fun _ ha => updateData_sound hv (even_of_shape hv.1 (correctIfovData_shape hv.1 ha))
  · exact maskOcculterV_sound hv

theorem fromArrayV_sound {s : State} (hs : ∀ k ∈ s.images, EvenImg (s.heap.dataOf k)) {d : Img ℝ} {dic : Option AngleDic}
    {dark flat : Option Nat} {junk : Nat → Nat → ℝ} {v : ImgView}
    (h : (fromArrayV s d dic dark flat junk v).1 = .ok ()) : SoundV (fromArrayV s d dic dark flat junk v).2 := by
  have hopt : ∀ d : Option (Img ℝ), (∀ e, d = some e → ∃ k ∈ s.images, e = s.heap.dataOf k) →
      ∀ e, d = some e → EvenImg e := by
    intro d hd e he
    obtain ⟨k, hk, rfl⟩ := hd e he
    exact hs k hk
  unfold fromArrayV at h ⊢
  obtain ⟨dk, hdk, e1⟩ := optV_ok h
  rw [e1] at h ⊢
  obtain ⟨fl, hfl, e2⟩ := optV_ok h
  rw [e2] at h ⊢
  obtain ⟨S, hS, e3⟩ := withVal_ok h
  rw [e3]
  exact applyCorrectionsV_sound (v := freshView d S (dicVal dic s.heap))
    ⟨dataStokes_even hS, dataStokes_layout hS, fun h => (by cases h)⟩ (hopt _ hdk) (hopt _ hfl)

/-- It holds of every image after every history. -/
theorem run_sound (ops : List Op) : ∀ k ∈ (runOps ops).images, SoundV ((runOps ops).heap.view k) := by
  induction ops using List.reverseRecOn with
  | nil => intro k hk; cases hk
  | append_singleton ops o ih =>
    rw [runOps_snoc]
    refine inv_step (P := SoundV) (runOps_valid ops) ih ?_ ?_ ?_
    · intro k hk hPk
      exact ⟨fun _ => value_sound (run_even ops) o hPk, fun _ _ => value_sound (run_even ops) o hPk⟩
    · intro d dic dark flat junk ho v h
      exact fromArrayV_sound (run_even ops) h
    · intro _ k r _ _ hPk _ _
      exact hPk

end

end Micropol
