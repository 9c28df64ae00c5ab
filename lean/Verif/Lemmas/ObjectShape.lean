import Verif.Lemmas.ObjectMask
import Verif.Lemmas.Corrections
import Verif.Lemmas.Rebin
import Verif.Lemmas.Shift
import Verif.Lemmas.Stokes

/-! # Invariants of views: shapes and theoretical Stokes maps -/

set_option autoImplicit false

namespace Micropol

open Classical

noncomputable section

/-! ## Value combinators -/

theorem withVal_ok {α : Type} {x : Py α} {v : ImgView} {f : α → Py Unit × ImgView} (h : (withVal x v f).1 = .ok ()) :
    ∃ a, x = .ok a ∧ withVal x v f = f a := by
  cases x with
  | ok a => exact ⟨a, rfl, rfl⟩
  | error e => cases h

theorem andThen_ok {r : Py Unit × ImgView} {f : ImgView → Py Unit × ImgView} (h : (andThen r f).1 = .ok ()) :
    ∃ v, r = (.ok (), v) ∧ andThen r f = f v := by
  obtain ⟨a, v⟩ := r
  cases a with
  | ok u => exact ⟨v, rfl, rfl⟩
  | error e => cases h

theorem withVal_inv {P : ImgView → Prop} {α : Type} {x : Py α} {v : ImgView} {f : α → Py Unit × ImgView} (hv : P v)
    (hf : ∀ a, x = .ok a → P (f a).2) : P (withVal x v f).2 := by
  cases x with
  | ok a => exact hf a rfl
  | error e => exact hv

theorem andThen_inv {P : ImgView → Prop} {r : Py Unit × ImgView} {f : ImgView → Py Unit × ImgView} (hv : P r.2)
    (hf : ∀ v, P v → P (f v).2) : P (andThen r f).2 := by
  obtain ⟨a, v⟩ := r
  cases a with
  | ok u => exact hf v hv
  | error e => exact hv

theorem secondV_inv {P : ImgView → Prop} {s : State} {j : Nat} {v : ImgView} {f : Img ℝ → Py Unit × ImgView} (hv : P v)
    (hf : ∀ k, s.images[j]? = some k → P (f (s.heap.dataOf k)).2) : P (secondV s j v f).2 := by
  unfold secondV
  split
  · exact hf _ (by assumption)
  · exact hv

theorem secondV_ok {s : State} {j : Nat} {v : ImgView} {f : Img ℝ → Py Unit × ImgView}
    (h : (secondV s j v f).1 = .ok ()) : ∃ k, s.images[j]? = some k ∧ secondV s j v f = f (s.heap.dataOf k) := by
  unfold secondV at h ⊢
  split at h
  · rename_i k hk
    exact ⟨k, hk, rfl⟩
  · cases h

theorem optV_inv {P : ImgView → Prop} {s : State} {j : Option Nat} {v : ImgView} {f : Option (Img ℝ) → Py Unit × ImgView}
    (hv : P v) (hf : ∀ d : Option (Img ℝ), (∀ e, d = some e → ∃ k ∈ s.images, e = s.heap.dataOf k) → P (f d).2) :
    P (optV s j v f).2 := by
  unfold optV
  split
  · exact hf none (fun e he => (by cases he))
  · refine secondV_inv hv fun k hk => hf _ fun e he => ?_
    cases he
    exact ⟨k, List.mem_of_getElem? hk, rfl⟩

theorem optV_ok {s : State} {j : Option Nat} {v : ImgView} {f : Option (Img ℝ) → Py Unit × ImgView}
    (h : (optV s j v f).1 = .ok ()) :
    ∃ d : Option (Img ℝ), (∀ e, d = some e → ∃ k ∈ s.images, e = s.heap.dataOf k) ∧ optV s j v f = f d := by
  unfold optV at h ⊢
  split at h
  · exact ⟨none, fun e he => (by cases he), rfl⟩
  · obtain ⟨k, hk, he⟩ := secondV_ok h
    refine ⟨some (s.heap.dataOf k), fun e he' => ?_, he⟩
    cases he'
    exact ⟨k, List.mem_of_getElem? hk, rfl⟩

/-! ## Shapes of data -/

/-- Both sides even. -/
def EvenImg (d : Img ℝ) : Prop := d.h % 2 = 0 ∧ d.w % 2 = 0

theorem npBinAt_even {f : Nat → Nat → ℝ → ℝ → ℝ} {A B C : Img ℝ} (hA : EvenImg A) (hB : EvenImg B)
    (h : npBinAt f A B = .ok C) : C.h = A.h ∧ C.w = A.w := by
  by_cases he : A.h = B.h ∧ A.w = B.w
  · rw [npBinAt_ok he.1 he.2] at h
    injection h with h
    rw [← h]
    exact ⟨rfl, rfl⟩
  · rw [npBinAt_error hA.1 hA.2 hB.1 hB.2 (by tauto)] at h
    cases h

theorem subtractDarkData_shape {A B C : Img ℝ} (hA : EvenImg A) (hB : EvenImg B) (h : subtractDarkData A B = .ok C) :
    C.h = A.h ∧ C.w = A.w := by
  unfold subtractDarkData at h
  obtain ⟨D, h1, h2⟩ := Py.bind_eq_ok.1 h
  have := npBinAt_even hA hB h1
  injection h2 with h2
  rw [← h2]
  exact this

theorem correctFlatData_shape {junk : Nat → Nat → ℝ} {A B C : Img ℝ} (hA : EvenImg A) (hB : EvenImg B)
    (h : correctFlatData junk A B = .ok C) : C.h = A.h ∧ C.w = A.w := by
  unfold correctFlatData at h
  obtain ⟨m, h1, h2⟩ := Py.bind_eq_ok.1 h
  split at h2
  · cases h2
  · exact npBinAt_even hA (B := B.map (fun v => v / m)) hB h2

theorem correctIfovData_shape {A C : Img ℝ} (hA : EvenImg A) (h : correctIfovData A = .ok C) :
    C.h = A.h ∧ C.w = A.w := by
  unfold correctIfovData at h
  rw [ifov_ok A hA.1 hA.2] at h
  injection h with h
  rw [← h]
  exact ⟨rfl, rfl⟩

theorem arithImage_shape {op : Arith} {junk : Nat → Nat → ℝ} {A B C : Img ℝ} (hA : EvenImg A) (hB : EvenImg B)
    (h : arithData op junk A (.image B) = .ok C) : C.h = A.h ∧ C.w = A.w := by
  cases op with
  | add => exact npBinAt_even hA hB h
  | sub => exact npBinAt_even hA hB h
  | mul => exact npBinAt_even hA hB h
  | div =>
    change npDivideNoOut junk A B = _ at h
    unfold npDivideNoOut at h
    exact npBinAt_even hA hB h

theorem arithNumber_shape {op : Arith} {junk : Nat → Nat → ℝ} {A C : Img ℝ} {c : ℝ}
    (h : arithData op junk A (.number c) = .ok C) : C.h = A.h ∧ C.w = A.w := by
  cases op <;> (injection h with h; rw [← h]; exact ⟨rfl, rfl⟩)

theorem shift_shape {A C : Img ℝ} (hA : EvenImg A) {y x : Int} {m : ℝ} (h : shiftMicropol A y x m = .ok C) :
    C.h = A.h ∧ C.w = A.w := by
  rw [shiftMicropol_ok A hA.1 hA.2] at h
  injection h with h
  rw [← h]
  exact ⟨rfl, rfl⟩

theorem assignStride2_shape {A C sub : Img ℝ} {j i : Nat} (h : A.assignStride2 j i sub = .ok C) :
    C.h = A.h ∧ C.w = A.w := by
  unfold Img.assignStride2 at h
  split at h
  · injection h with h
    rw [← h]
    exact ⟨rfl, rfl⟩
  · cases h

/-- Merged images have even sides. -/
theorem merge_shape {s : Fin 4 → Img ℝ} {r : Img ℝ} (h : mergePolarizations s = .ok r) :
    r.h = (s 0).h * 2 ∧ r.w = (s 0).w * 2 := by
  unfold mergePolarizations at h
  obtain ⟨a, ha, h⟩ := Py.bind_eq_ok.1 h
  obtain ⟨b, hb, h⟩ := Py.bind_eq_ok.1 h
  obtain ⟨c, hc, h⟩ := Py.bind_eq_ok.1 h
  have e1 := assignStride2_shape ha
  have e2 := assignStride2_shape hb
  have e3 := assignStride2_shape hc
  have e4 := assignStride2_shape h
  refine ⟨?_, ?_⟩
  · rw [e4.1, e3.1, e2.1, e1.1]; rfl
  · rw [e4.2, e3.2, e2.2, e1.2]; rfl

theorem merge_even {s : Fin 4 → Img ℝ} {r : Img ℝ} (h : mergePolarizations s = .ok r) : EvenImg r := by
  have := merge_shape h
  unfold EvenImg
  omega

theorem cleanHot_even {m : Img ℝ → Img ℝ} {A B C : Img ℝ} (h : cleanHotPixelsData m A B = .ok C) : EvenImg C := by
  unfold cleanHotPixelsData at h
  obtain ⟨_, -, h⟩ := Py.bind_eq_ok.1 h
  obtain ⟨_, -, h⟩ := Py.bind_eq_ok.1 h
  obtain ⟨_, -, h⟩ := Py.bind_eq_ok.1 h
  obtain ⟨_, -, h⟩ := Py.bind_eq_ok.1 h
  obtain ⟨_, -, h⟩ := Py.bind_eq_ok.1 h
  obtain ⟨_, -, h⟩ := Py.bind_eq_ok.1 h
  exact merge_even h

theorem congridData_even {A C : Img ℝ} {ny nx : Nat} (h : congridData A ny nx = .ok C) : EvenImg C := by
  unfold congridData at h
  obtain ⟨_, -, h⟩ := Py.bind_eq_ok.1 h
  obtain ⟨_, -, h⟩ := Py.bind_eq_ok.1 h
  obtain ⟨_, -, h⟩ := Py.bind_eq_ok.1 h
  obtain ⟨_, -, h⟩ := Py.bind_eq_ok.1 h
  obtain ⟨_, -, h⟩ := Py.bind_eq_ok.1 h
  exact merge_even h

theorem assignPlane_shape {h w : Nat} {A B : Img ℝ} (hB : assignPlane h w A = .ok B) : B.h = h ∧ B.w = w := by
  unfold assignPlane at hB
  split at hB
  · injection hB with hB
    rw [← hB]
    exact ⟨rfl, rfl⟩
  · cases hB

theorem rotateData_shape {rot : Img ℝ → Py (Img ℝ)} {A C : Img ℝ} (h : rotateData rot A = .ok C) :
    C.h = A.h ∧ C.w = A.w := by
  unfold rotateData at h
  obtain ⟨s, hs, h⟩ := Py.bind_eq_ok.1 h
  obtain ⟨t, ht, h⟩ := Py.bind_eq_ok.1 h
  obtain ⟨hh, hw⟩ := split_even hs
  rw [split_ok hh hw] at hs
  injection hs with hs
  unfold mapFour at ht
  obtain ⟨a, ha, ht⟩ := Py.bind_eq_ok.1 ht
  obtain ⟨b, hb, ht⟩ := Py.bind_eq_ok.1 ht
  obtain ⟨c, hc, ht⟩ := Py.bind_eq_ok.1 ht
  obtain ⟨d, hd, ht⟩ := Py.bind_eq_ok.1 ht
  injection ht with ht
  obtain ⟨a', -, ha⟩ := Py.bind_eq_ok.1 ha
  have e1 := assignPlane_shape ha
  have e2 := merge_shape h
  rw [← ht] at e2
  have e3 : (s 0).h = A.h / 2 ∧ (s 0).w = A.w / 2 := by rw [← hs]; exact ⟨rfl, rfl⟩
  have e4 : C.h = a.h * 2 ∧ C.w = a.w * 2 := e2
  omega

theorem rebin_even {A C : Img ℝ} (hA : EvenImg A) {b : Int} (hb : 0 < b) (h : micropolarrayRebin A b = .ok C) :
    EvenImg C := by
  obtain ⟨n, rfl⟩ : ∃ n : Nat, b = n := ⟨b.toNat, by omega⟩
  rw [micropolarrayRebin_ok A n (by omega) hA.1 hA.2] at h
  injection h with h
  rw [← h]
  unfold EvenImg
  simp

theorem occulterRoi_shape {A C : Img ℝ} (hA : EvenImg A) {y x r fill : ℝ} (h : occulterRoi A y x r fill true = .ok C) :
    C.h = A.h ∧ C.w = A.w := by
  obtain ⟨B, h1, h2⟩ := occulterRoi_data hA.1 hA.2 y x r fill
  rw [h1] at h
  injection h with h
  rw [← h]
  exact ⟨h2.1, h2.2.1⟩

/-! ## Even data in every view -/

theorem even_of_shape {A C : Img ℝ} (hA : EvenImg A) (h : C.h = A.h ∧ C.w = A.w) : EvenImg C := by
  unfold EvenImg at *
  omega

def EvenV (v : ImgView) : Prop := EvenImg v.data

theorem updateStokesV_even {v : ImgView} (hv : EvenV v) : EvenV (updateStokesV v).2 := withVal_inv hv fun _ _ => hv

theorem updateData_even {v : ImgView} {d : Img ℝ} (hd : EvenImg d) : EvenV (updateDataAndStokesV d v).2 :=
  updateStokesV_even (v := { v with data := d }) hd

theorem subtractDarkV_even {v : ImgView} {d : Img ℝ} (hv : EvenV v) (hd : EvenImg d) : EvenV (subtractDarkV d v).2 :=
  withVal_inv hv fun _ ha => andThen_inv (updateData_even (even_of_shape hv (subtractDarkData_shape hv hd ha)))
    fun _ h => h

theorem correctFlatV_even {junk : Nat → Nat → ℝ} {v : ImgView} {d : Img ℝ} (hv : EvenV v) (hd : EvenImg d) :
    EvenV (correctFlatV junk d v).2 :=
  withVal_inv hv fun _ ha => andThen_inv (updateData_even (even_of_shape hv (correctFlatData_shape hv hd ha)))
    fun _ h => h

theorem applyCorrectionsV_even {junk : Nat → Nat → ℝ} {d f : Option (Img ℝ)} {v : ImgView} (hv : EvenV v)
    (hd : ∀ e, d = some e → EvenImg e) (hf : ∀ e, f = some e → EvenImg e) :
    EvenV (applyCorrectionsV junk d f v).2 := by
  unfold applyCorrectionsV
  split
  · exact hv
  · exact subtractDarkV_even hv (hd _ rfl)
  · exact correctFlatV_even hv (hf _ rfl)
  · exact andThen_inv (subtractDarkV_even hv (hd _ rfl)) fun _ h => correctFlatV_even h (hf _ rfl)

/-- Every operation keeps data even. -/
theorem value_even {s : State} (hs : ∀ k ∈ s.images, EvenImg (s.heap.dataOf k)) (o : Op) {v : ImgView} (hv : EvenV v) :
    EvenV (o.value s v).2 := by
  have himg : ∀ (j k : Nat), s.images[j]? = some k → EvenImg (s.heap.dataOf k) := fun j k hk =>
    hs k (List.mem_of_getElem? hk)
  have hopt : ∀ d : Option (Img ℝ), (∀ e, d = some e → ∃ k ∈ s.images, e = s.heap.dataOf k) →
      ∀ e, d = some e → EvenImg e := by
    intro d hd e he
    obtain ⟨k, hk, rfl⟩ := hd e he
    exact hs k hk
  have hdem : ∀ mode, EvenV (demosaicV mode v).2 := fun mode =>
    withVal_inv hv fun a _ => updateStokesV_even (v := { v with demosaicedImages := some a, isDemosaiced := true }) hv
  unfold Op.value
  split
  · exact hv
  · exact hv
  · exact optV_inv hv fun _ hd => optV_inv hv fun _ hf => applyCorrectionsV_even hv (hopt _ hd) (hopt _ hf)
  · split
    · exact hv
    · exact withVal_inv hv fun _ ha => updateData_even (rebin_even hv (by omega) ha)
  · refine withVal_inv hv fun _ ha => withVal_inv hv fun _ _ => withVal_inv hv fun _ _ => withVal_inv hv fun _ _ => ?_
    exact congridData_even ha
  · exact withVal_inv hv fun _ ha => andThen_inv (r := rewriteStokesV _ v) hv fun _ _ =>
      even_of_shape hv (rotateData_shape ha)
  · unfold demodulateV
    split
    · exact andThen_inv (hdem _) fun w hw => withVal_inv hw fun _ _ => hw
    · exact withVal_inv hv fun _ _ => hv
  · exact withVal_inv hv fun _ ha => updateData_even (even_of_shape hv (shift_shape hv ha))
  · exact secondV_inv hv fun _ _ => withVal_inv hv fun _ ha => updateData_even (cleanHot_even ha)
  · exact secondV_inv hv fun k hk => withVal_inv hv fun _ ha =>
      updateData_even (even_of_shape hv (arithImage_shape hv (himg _ k hk) ha))
  · exact withVal_inv hv fun _ ha => withVal_inv hv fun _ _ => even_of_shape hv (arithNumber_shape ha)
  · exact hdem _
  · exact secondV_inv hv fun k hk => subtractDarkV_even hv (himg _ k hk)
  · exact secondV_inv hv fun k hk => correctFlatV_even hv (himg _ k hk)
  · exact withVal_inv hv fun _ ha => updateData_even (even_of_shape hv (correctIfovData_shape hv ha))
  · unfold maskOcculterV
    refine withVal_inv hv fun d ha => ?_
    have hd : EvenImg d := even_of_shape hv (occulterRoi_shape hv ha)
    refine andThen_inv (P := EvenV) ?_ fun w hw => ?_
    · unfold maskDemosaicedV
      split
      · exact hd
      · exact hd
      · exact withVal_inv (P := EvenV) (v := { v with data := d }) hd fun _ _ => hd
    · split
      · exact hw
      · exact hw

theorem fromArrayV_even {s : State} (hs : ∀ k ∈ s.images, EvenImg (s.heap.dataOf k)) {d : Img ℝ} {dic : Option AngleDic}
    {dark flat : Option Nat} {junk : Nat → Nat → ℝ} {v : ImgView}
    (h : (fromArrayV s d dic dark flat junk v).1 = .ok ()) : EvenV (fromArrayV s d dic dark flat junk v).2 := by
  have hopt : ∀ d : Option (Img ℝ), (∀ e, d = some e → ∃ k ∈ s.images, e = s.heap.dataOf k) →
      ∀ e, d = some e → EvenImg e := by
    intro d hd e he
    obtain ⟨k, hk, rfl⟩ := hd e he
    exact hs k hk
  unfold fromArrayV at h ⊢
  obtain ⟨dk, hdk, e1⟩ := optV_ok h
  rw [e1] at h ⊢
  obtain ⟨fl, hfl, e2⟩ := optV_ok h
  rw [e2] at h ⊢
  obtain ⟨S, hS, e3⟩ := withVal_ok h
  rw [e3]
  exact applyCorrectionsV_even (v := freshView d S (dicVal dic s.heap)) (dataStokes_even hS) (hopt _ hdk) (hopt _ hfl)

/-- In every history every image has even sides. -/
theorem run_even (ops : List Op) : ∀ k ∈ (runOps ops).images, EvenImg ((runOps ops).heap.dataOf k) := by
  induction ops using List.reverseRecOn with
  | nil => intro k hk; cases hk
  | append_singleton ops o ih =>
    rw [runOps_snoc]
    refine inv_step (P := EvenV) (runOps_valid ops) ih ?_ ?_ ?_
    · intro k hk hPk
      exact ⟨fun _ => value_even ih o hPk, fun _ _ => value_even ih o hPk⟩
    · intro d dic dark flat junk ho v h
      exact fromArrayV_even ih h
    · intro _ k r _ _ hPk _ _
      exact hPk

/-! ## Theoretical Stokes maps -/

/-- Whether a dictionary works does not depend on the images. -/
theorem theo_layout {s : Fin 4 → Img ℝ} {dic : AngleDic} {S : Fin 3 → Img ℝ} (h : theoStokes s dic = .ok S) :
    ∃ L : Layout, ∀ s' : Fin 4 → Img ℝ, theoStokes s' dic = .ok (stokesClosed s' L) := by
  have hsub : ∀ {p : Int} {A : Img ℝ}, sub4 s p = .ok A → ∃ q : Fin 4, ∀ s' : Fin 4 → Img ℝ, sub4 s' p = .ok (s' q) := by
    intro p A hA
    unfold sub4 at hA
    split at hA
    · rename_i k hk
      split at hA
      · rename_i hk4
        refine ⟨⟨k, hk4⟩, fun s' => ?_⟩
        unfold sub4
        rw [hk]
        simp [hk4]
      · cases hA
    · cases hA
  unfold theoStokes at h
  obtain ⟨p0, h0, h⟩ := Py.bind_eq_ok.1 h
  obtain ⟨s0, g0, h⟩ := Py.bind_eq_ok.1 h
  obtain ⟨p90, h90, h⟩ := Py.bind_eq_ok.1 h
  obtain ⟨s90, g90, h⟩ := Py.bind_eq_ok.1 h
  obtain ⟨p45, h45, h⟩ := Py.bind_eq_ok.1 h
  obtain ⟨s45, g45, h⟩ := Py.bind_eq_ok.1 h
  obtain ⟨pm45, hm45, h⟩ := Py.bind_eq_ok.1 h
  obtain ⟨sm45, gm45, h⟩ := Py.bind_eq_ok.1 h
  obtain ⟨q0, k0⟩ := hsub g0
  obtain ⟨q90, k90⟩ := hsub g90
  obtain ⟨q45, k45⟩ := hsub g45
  obtain ⟨qm45, km45⟩ := hsub gm45
  refine ⟨⟨q0, q45, qm45, q90⟩, fun s' => ?_⟩
  unfold theoStokes
  simp only [h0, h90, h45, hm45, Py.ok_bind, k0, k90, k45, km45]
  rfl

theorem dataStokes_layout {d : Img ℝ} {dic : AngleDic} {S : Fin 3 → Img ℝ} (h : dataStokes d dic = .ok S) :
    ∃ L : Layout, ∀ s' : Fin 4 → Img ℝ, theoStokes s' dic = .ok (stokesClosed s' L) := by
  unfold dataStokes at h
  obtain ⟨s, -, h⟩ := Py.bind_eq_ok.1 h
  exact theo_layout h

/-- A dictionary that worked once works on every even image. -/
theorem dataStokes_again {d d' : Img ℝ} {dic : AngleDic} {S : Fin 3 → Img ℝ} (h : dataStokes d dic = .ok S)
    (hd : EvenImg d') : ∃ S', dataStokes d' dic = .ok S' := by
  obtain ⟨L, hL⟩ := dataStokes_layout h
  unfold dataStokes
  rw [split_ok hd.1 hd.2, Py.ok_bind, hL]
  exact ⟨_, rfl⟩

theorem dataStokes_half {d : Img ℝ} {dic : AngleDic} {S : Fin 3 → Img ℝ} (h : dataStokes d dic = .ok S) :
    ∀ k, (S k).h = d.h / 2 ∧ (S k).w = d.w / 2 := by
  obtain ⟨L, hL⟩ := dataStokes_layout h
  obtain ⟨hh, hw⟩ := dataStokes_even h
  unfold dataStokes at h
  rw [split_ok hh hw, Py.ok_bind, hL] at h
  injection h with h
  subst h
  intro k
  fin_cases k <;> exact ⟨rfl, rfl⟩

/-- Stokes maps are the theoretical ones of the data. -/
def TheoV (v : ImgView) : Prop := v.isDemosaiced = false ∧ dataStokes v.data v.dic = .ok v.stokes.planes

theorem TheoV.even {v : ImgView} (h : TheoV v) : EvenImg v.data := dataStokes_even h.2

theorem updateData_theo_ok {v : ImgView} {d : Img ℝ} (hd : v.isDemosaiced = false)
    (hok : (updateDataAndStokesV d v).1 = .ok ()) : TheoV (updateDataAndStokesV d v).2 := by
  unfold updateDataAndStokesV updateStokesV at hok ⊢
  obtain ⟨S, hS, e⟩ := withVal_ok hok
  rw [e]
  refine ⟨hd, ?_⟩
  unfold theoV at hS
  rw [if_neg (by simp [hd])] at hS
  exact hS

theorem updateData_theo {v : ImgView} {d : Img ℝ} (hv : TheoV v) (hd : EvenImg d) :
    (updateDataAndStokesV d v).1 = .ok () := by
  obtain ⟨S, hS⟩ := dataStokes_again hv.2 hd
  unfold updateDataAndStokesV updateStokesV
  have : theoV { v with data := d } = .ok S := by
    unfold theoV
    rw [if_neg (by simp [hv.1])]
    exact hS
  rw [this]
  rfl

theorem subtractDarkV_theo {v : ImgView} {d : Img ℝ} (hv : TheoV v) (hd : EvenImg d) : TheoV (subtractDarkV d v).2 :=
  withVal_inv hv fun _ ha => andThen_inv
    (updateData_theo_ok hv.1 (updateData_theo hv (even_of_shape hv.even (subtractDarkData_shape hv.even hd ha))))
    fun _ h => h

theorem correctFlatV_theo {junk : Nat → Nat → ℝ} {v : ImgView} {d : Img ℝ} (hv : TheoV v) (hd : EvenImg d) :
    TheoV (correctFlatV junk d v).2 :=
  withVal_inv hv fun _ ha => andThen_inv
    (updateData_theo_ok hv.1 (updateData_theo hv (even_of_shape hv.even (correctFlatData_shape hv.even hd ha))))
    fun _ h => h

theorem applyCorrectionsV_theo {junk : Nat → Nat → ℝ} {d f : Option (Img ℝ)} {v : ImgView} (hv : TheoV v)
    (hd : ∀ e, d = some e → EvenImg e) (hf : ∀ e, f = some e → EvenImg e) :
    TheoV (applyCorrectionsV junk d f v).2 := by
  unfold applyCorrectionsV
  split
  · exact hv
  · exact subtractDarkV_theo hv (hd _ rfl)
  · exact correctFlatV_theo hv (hf _ rfl)
  · exact andThen_inv (subtractDarkV_theo hv (hd _ rfl)) fun _ h => correctFlatV_theo h (hf _ rfl)

/-- The operations that are meant to keep the Stokes maps theoretical do so. -/
theorem value_theo {s : State} (hs : ∀ k ∈ s.images, EvenImg (s.heap.dataOf k)) {o : Op} (ho : o.theoretical = true)
    {v : ImgView} (hv : TheoV v) :
    (o.inPlace = true → TheoV (o.value s v).2) ∧
    (o.inPlace = false → (o.value s v).1 = .ok () → TheoV (o.value s v).2) := by
  have himg : ∀ (j k : Nat), s.images[j]? = some k → EvenImg (s.heap.dataOf k) := fun j k hk =>
    hs k (List.mem_of_getElem? hk)
  have hopt : ∀ d : Option (Img ℝ), (∀ e, d = some e → ∃ k ∈ s.images, e = s.heap.dataOf k) →
      ∀ e, d = some e → EvenImg e := by
    intro d hd e he
    obtain ⟨k, hk, rfl⟩ := hd e he
    exact hs k hk
  cases o with
  | setDefault d => exact ⟨fun _ => hv, fun _ _ => hv⟩
  | fromArray d dic dark flat junk => exact ⟨fun _ => hv, fun _ _ => hv⟩
  | fromImage i dic dark flat junk =>
    have : TheoV (Op.value s (.fromImage i dic dark flat junk) v).2 :=
      optV_inv hv fun _ hd => optV_inv hv fun _ hf => applyCorrectionsV_theo hv (hopt _ hd) (hopt _ hf)
    exact ⟨fun _ => this, fun _ _ => this⟩
  | rebin i b =>
    refine ⟨fun h => (by cases h), fun _ hok => ?_⟩
    change (if b ≤ 0 then (Except.error PyErr.valueError, v) else _).1 = _ at hok
    change TheoV (if b ≤ 0 then (Except.error PyErr.valueError, v) else _).2
    split at hok
    · cases hok
    · rename_i hb
      rw [if_neg hb]
      obtain ⟨d, hd, e⟩ := withVal_ok hok
      rw [e] at hok ⊢
      exact updateData_theo_ok hv.1 hok
  | shift i y x m =>
    refine ⟨fun h => (by cases h), fun _ hok => ?_⟩
    obtain ⟨d, hd, e⟩ := withVal_ok hok
    change TheoV (withVal _ _ _).2
    rw [e]
    change (withVal _ _ _).1 = _ at hok
    rw [e] at hok
    exact updateData_theo_ok hv.1 hok
  | cleanHotPixels i f median =>
    refine ⟨fun h => (by cases h), fun _ hok => ?_⟩
    obtain ⟨k, hk, e⟩ := secondV_ok hok
    change TheoV (secondV _ _ _ _).2
    change (secondV _ _ _ _).1 = _ at hok
    rw [e] at hok ⊢
    obtain ⟨d, hd, e⟩ := withVal_ok hok
    rw [e] at hok ⊢
    exact updateData_theo_ok hv.1 hok
  | arithImage op i j junk =>
    refine ⟨fun h => (by cases h), fun _ hok => ?_⟩
    obtain ⟨k, hk, e⟩ := secondV_ok hok
    change TheoV (secondV _ _ _ _).2
    change (secondV _ _ _ _).1 = _ at hok
    rw [e] at hok ⊢
    obtain ⟨d, hd, e⟩ := withVal_ok hok
    rw [e] at hok ⊢
    exact updateData_theo_ok hv.1 hok
  | arithNumber op i c junk =>
    refine ⟨fun h => (by cases h), fun _ hok => ?_⟩
    change TheoV (withVal _ _ _).2
    change (withVal _ _ _).1 = _ at hok
    obtain ⟨d, hd, e⟩ := withVal_ok hok
    rw [e] at hok ⊢
    obtain ⟨S, hS, e⟩ := withVal_ok hok
    rw [e]
    exact ⟨rfl, hS⟩
  | subtractDark i j =>
    have : TheoV (Op.value s (.subtractDark i j) v).2 := secondV_inv hv fun k hk => subtractDarkV_theo hv (himg _ k hk)
    exact ⟨fun _ => this, fun _ _ => this⟩
  | correctFlat i j junk =>
    have : TheoV (Op.value s (.correctFlat i j junk) v).2 := secondV_inv hv fun k hk =>
      correctFlatV_theo hv (himg _ k hk)
    exact ⟨fun _ => this, fun _ _ => this⟩
  | correctIfov i =>
    have : TheoV (Op.value s (.correctIfov i) v).2 := withVal_inv hv fun _ ha =>
      updateData_theo_ok hv.1 (updateData_theo hv (even_of_shape hv.even (correctIfovData_shape hv.even ha)))
    exact ⟨fun _ => this, fun _ _ => this⟩
  | _ => cases ho

theorem fromArrayV_theo {s : State} (hs : ∀ k ∈ s.images, EvenImg (s.heap.dataOf k)) {d : Img ℝ} {dic : Option AngleDic}
    {dark flat : Option Nat} {junk : Nat → Nat → ℝ} {v : ImgView}
    (h : (fromArrayV s d dic dark flat junk v).1 = .ok ()) : TheoV (fromArrayV s d dic dark flat junk v).2 := by
  have hopt : ∀ d : Option (Img ℝ), (∀ e, d = some e → ∃ k ∈ s.images, e = s.heap.dataOf k) →
      ∀ e, d = some e → EvenImg e := by
    intro d hd e he
    obtain ⟨k, hk, rfl⟩ := hd e he
    exact hs k hk
  unfold fromArrayV at h ⊢
  obtain ⟨dk, hdk, e1⟩ := optV_ok h
  rw [e1] at h ⊢
  obtain ⟨fl, hfl, e2⟩ := optV_ok h
  rw [e2] at h ⊢
  obtain ⟨S, hS, e3⟩ := withVal_ok h
  rw [e3]
  exact applyCorrectionsV_theo (v := freshView d S (dicVal dic s.heap)) ⟨rfl, hS⟩ (hopt _ hdk) (hopt _ hfl)

/-- After a history of such operations every image's Stokes maps are theoretical. -/
theorem run_theo (ops : List Op) (hops : ∀ o ∈ ops, o.theoretical = true) :
    ∀ k ∈ (runOps ops).images, TheoV ((runOps ops).heap.view k) := by
  induction ops using List.reverseRecOn with
  | nil => intro k hk; cases hk
  | append_singleton ops o ih =>
    have ho := hops o (by simp)
    have ih' := ih fun o' h' => hops o' (by simp [h'])
    rw [runOps_snoc]
    refine inv_step (P := TheoV) (runOps_valid ops) ih' ?_ ?_ ?_
    · intro k hk hPk
      exact value_theo (run_even ops) ho hPk
    · intro d dic dark flat junk _ v h
      exact fromArrayV_theo (run_even ops) h
    · intro hw
      cases o <;> first | (cases ho; done) | cases hw

/-! ## Shapes of Stokes maps -/

/-- Stokes maps of an image that is not demosaiced have half the size of the data. -/
def SizedV (v : ImgView) : Prop :=
  EvenImg v.data ∧ v.stokes.isList = false ∧
    (v.isDemosaiced = false → ∀ k, (v.stokes.planes k).h = v.data.h / 2 ∧ (v.stokes.planes k).w = v.data.w / 2)

theorem rewritePlaneV_shape {f : Img ℝ → Py (Img ℝ)} {k : Fin 3} {sv sv' : StokesVec} (hl : sv.isList = false)
    (h : rewritePlaneV f k sv = .ok sv') : sv'.isList = false ∧
      ∀ j, (sv'.planes j).h = (sv.planes j).h ∧ (sv'.planes j).w = (sv.planes j).w := by
  unfold rewritePlaneV setPlaneV at h
  obtain ⟨a, -, h⟩ := Py.bind_eq_ok.1 h
  obtain ⟨p, hp, h⟩ := Py.bind_eq_ok.1 h
  rw [if_neg (by simp [hl])] at hp
  injection h with h
  subst h
  refine ⟨hl, fun j => ?_⟩
  dsimp only
  split
  · rename_i hj
    rw [hj]
    exact assignPlane_shape hp
  · exact ⟨rfl, rfl⟩

theorem rewriteV_shape {f : Img ℝ → Py (Img ℝ)} {sv : StokesVec} (hl : sv.isList = false) :
    (rewriteV f sv).2.isList = false ∧
      ∀ j, ((rewriteV f sv).2.planes j).h = (sv.planes j).h ∧ ((rewriteV f sv).2.planes j).w = (sv.planes j).w := by
  unfold rewriteV
  split
  · exact ⟨hl, fun j => ⟨rfl, rfl⟩⟩
  · rename_i s0 h0
    obtain ⟨l0, e0⟩ := rewritePlaneV_shape hl h0
    split
    · exact ⟨l0, e0⟩
    · rename_i s1 h1
      obtain ⟨l1, e1⟩ := rewritePlaneV_shape l0 h1
      have e1' := fun j => And.intro ((e1 j).1.trans (e0 j).1) ((e1 j).2.trans (e0 j).2)
      split
      · exact ⟨l1, e1'⟩
      · rename_i s2 h2
        obtain ⟨l2, e2⟩ := rewritePlaneV_shape l1 h2
        exact ⟨l2, fun j => And.intro ((e2 j).1.trans (e1' j).1) ((e2 j).2.trans (e1' j).2)⟩

/-- Stokes planes of the same shapes, still an array. -/
def SameStokesShape (sv sv' : StokesVec) : Prop :=
  sv'.isList = false ∧ ∀ j, (sv'.planes j).h = (sv.planes j).h ∧ (sv'.planes j).w = (sv.planes j).w

theorem SizedV.withStokes {v : ImgView} (hv : SizedV v) {sv : StokesVec} (h : SameStokesShape v.stokes sv) :
    SizedV { v with stokes := sv } := by
  refine ⟨hv.1, h.1, fun hd k => ?_⟩
  have := hv.2.2 hd k
  exact ⟨(h.2 k).1.trans this.1, (h.2 k).2.trans this.2⟩

theorem rotateV_stokes {rot : Img ℝ → Py (Img ℝ)} {v : ImgView} (hl : v.stokes.isList = false) :
    SameStokesShape v.stokes (rotateV rot v).2.stokes := by
  have h := rewriteV_shape (f := rot) hl
  unfold rotateV withVal andThen rewriteStokesV
  split
  · dsimp only
    split
    · rename_i he
      injection he with h1 h2
      rw [← h2]
      exact h
    · rename_i he
      injection he with h1 h2
      rw [← h2]
      exact h
  · exact ⟨hl, fun j => ⟨rfl, rfl⟩⟩

theorem maskDemosaicedV_fields {y x r fill : ℝ} {v : ImgView} :
    (maskDemosaicedV y x r fill v).2.stokes = v.stokes ∧ (maskDemosaicedV y x r fill v).2.data = v.data ∧
    (maskDemosaicedV y x r fill v).2.isDemosaiced = v.isDemosaiced := by
  unfold maskDemosaicedV withVal
  split
  · exact ⟨rfl, rfl, rfl⟩
  · exact ⟨rfl, rfl, rfl⟩
  · split
    · exact ⟨rfl, rfl, rfl⟩
    · exact ⟨rfl, rfl, rfl⟩

theorem maskOcculterV_fields {y x r over fill : ℝ} {v : ImgView} (hd0 : EvenImg v.data)
    (hl : v.stokes.isList = false) :
    SameStokesShape v.stokes (maskOcculterV y x r over fill v).2.stokes ∧
    (maskOcculterV y x r over fill v).2.isDemosaiced = v.isDemosaiced ∧
    (maskOcculterV y x r over fill v).2.data.h = v.data.h ∧ (maskOcculterV y x r over fill v).2.data.w = v.data.w := by
  have hself : SameStokesShape v.stokes v.stokes := ⟨hl, fun j => ⟨rfl, rfl⟩⟩
  unfold maskOcculterV
  cases hr : occulterRoi v.data y x (r + over) fill true with
  | error e => exact ⟨hself, rfl, rfl, rfl⟩
  | ok d =>
    have hd := occulterRoi_shape hd0 hr
    show SameStokesShape v.stokes (andThen _ _).2.stokes ∧ (andThen _ _).2.isDemosaiced = _ ∧ (andThen _ _).2.data.h = _ ∧
      (andThen _ _).2.data.w = _
    obtain ⟨f1, f2, f3⟩ := maskDemosaicedV_fields (y := y) (x := x) (r := r + over) (fill := fill) (v := { v with data := d })
    generalize maskDemosaicedV y x (r + over) fill { v with data := d } = q at f1 f2 f3
    obtain ⟨a, w⟩ := q
    dsimp only at f1 f2 f3
    have hwl : w.stokes.isList = false := by rw [f1]; exact hl
    cases a with
    | error e =>
      refine ⟨?_, f3, ?_, ?_⟩
      · show SameStokesShape v.stokes w.stokes
        rw [f1]; exact hself
      · show w.data.h = _
        rw [f2]; exact hd.1
      · show w.data.w = _
        rw [f2]; exact hd.2
    | ok u =>
      have fin : ∀ f, SameStokesShape v.stokes (rewriteStokesV f w).2.stokes ∧ (rewriteStokesV f w).2.isDemosaiced = v.isDemosaiced ∧
          (rewriteStokesV f w).2.data.h = v.data.h ∧ (rewriteStokesV f w).2.data.w = v.data.w := by
        intro f
        have h := rewriteV_shape (f := f) hwl
        refine ⟨⟨h.1, fun j => ?_⟩, f3, ?_, ?_⟩
        · have := h.2 j
          rw [f1] at this
          rw [← f1] at this
          exact ⟨this.1.trans (by rw [f1]), this.2.trans (by rw [f1])⟩
        · show w.data.h = _
          rw [f2]; exact hd.1
        · show w.data.w = _
          rw [f2]; exact hd.2
      unfold andThen
      dsimp only
      split
      · exact fin _
      · exact fin _

theorem updateStokesV_sized {v : ImgView} (hd : EvenImg v.data) (hok : (updateStokesV v).1 = .ok ()) :
    SizedV (updateStokesV v).2 := by
  unfold updateStokesV at hok ⊢
  obtain ⟨S, hS, e⟩ := withVal_ok hok
  rw [e]
  refine ⟨hd, rfl, fun hdem k => ?_⟩
  unfold theoV at hS
  have hdem' : v.isDemosaiced = false := hdem
  rw [if_neg (by simp [hdem'])] at hS
  exact dataStokes_half hS k

/-- A failed update still leaves the shapes right if the data keep their shape. -/
theorem updateData_sized {v : ImgView} {d : Img ℝ} (hv : SizedV v) (hd : d.h = v.data.h ∧ d.w = v.data.w) :
    SizedV (updateDataAndStokesV d v).2 := by
  have hd' : EvenImg d := even_of_shape hv.1 hd
  cases hx : (updateDataAndStokesV d v).1 with
  | ok u => exact updateStokesV_sized (v := { v with data := d }) hd' hx
  | error e =>
    have : (updateDataAndStokesV d v).2 = { v with data := d } := by
      unfold updateDataAndStokesV updateStokesV withVal at hx ⊢
      split
      · rename_i S hS
        rw [hS] at hx
        cases hx
      · rfl
    rw [this]
    refine ⟨hd', hv.2.1, fun hdem k => ?_⟩
    have := hv.2.2 hdem k
    exact ⟨this.1.trans (by rw [← hd.1]), this.2.trans (by rw [← hd.2])⟩

theorem subtractDarkV_sized {v : ImgView} {d : Img ℝ} (hv : SizedV v) (hd : EvenImg d) : SizedV (subtractDarkV d v).2 :=
  withVal_inv hv fun _ ha => andThen_inv (updateData_sized hv (subtractDarkData_shape hv.1 hd ha)) fun _ h => h

theorem correctFlatV_sized {junk : Nat → Nat → ℝ} {v : ImgView} {d : Img ℝ} (hv : SizedV v) (hd : EvenImg d) :
    SizedV (correctFlatV junk d v).2 :=
  withVal_inv hv fun _ ha => andThen_inv (updateData_sized hv (correctFlatData_shape hv.1 hd ha)) fun _ h => h

theorem applyCorrectionsV_sized {junk : Nat → Nat → ℝ} {d f : Option (Img ℝ)} {v : ImgView} (hv : SizedV v)
    (hd : ∀ e, d = some e → EvenImg e) (hf : ∀ e, f = some e → EvenImg e) :
    SizedV (applyCorrectionsV junk d f v).2 := by
  unfold applyCorrectionsV
  split
  · exact hv
  · exact subtractDarkV_sized hv (hd _ rfl)
  · exact correctFlatV_sized hv (hf _ rfl)
  · exact andThen_inv (subtractDarkV_sized hv (hd _ rfl)) fun _ h => correctFlatV_sized h (hf _ rfl)

theorem demosaicV_sized {mode : String} {v : ImgView} (hv : SizedV v) : SizedV (demosaicV mode v).2 := by
  refine withVal_inv hv fun s _ => ?_
  refine withVal_inv (P := SizedV) ?_ fun S _ => ?_
  · exact ⟨hv.1, hv.2.1, fun h => (by cases h)⟩
  · exact ⟨hv.1, rfl, fun h => by cases h⟩

theorem demosaicV_flag {mode : String} {v : ImgView} (hok : (demosaicV mode v).1 = .ok ()) :
    (demosaicV mode v).2.isDemosaiced = true := by
  unfold demosaicV at hok ⊢
  obtain ⟨s, -, e⟩ := withVal_ok hok
  rw [e] at hok ⊢
  unfold updateStokesV at hok ⊢
  obtain ⟨S, -, e⟩ := withVal_ok hok
  rw [e]

theorem demodulatePlain_half {d : Img ℝ} {st S : Fin 3 → Img ℝ} {D : Demodulator ℝ} (hd : EvenImg d) (hD : D.Fits d)
    (hst : ∀ k, (st k).h = d.h / 2 ∧ (st k).w = d.w / 2) (h : demodulatePlain d st D = .ok S) :
    ∀ k, (S k).h = d.h / 2 ∧ (S k).w = d.w / 2 := by
  unfold demodulatePlain at h
  rw [split_ok hd.1 hd.2, Py.ok_bind] at h
  obtain ⟨T, hT, h⟩ := Py.bind_eq_ok.1 h
  have hTs : ∀ k, (T k).h = d.h / 2 ∧ (T k).w = d.w / 2 := by
    unfold matmulPols at hT
    rw [(hD.1 0 0).1, (hD.1 0 0).2] at hT
    change (bdim (d.h / 2) (d.h / 2) >>= fun h => bdim (d.w / 2) (d.w / 2) >>= fun w => _) = _ at hT
    rw [bdim_self, bdim_self, Py.ok_bind, Py.ok_bind] at hT
    injection hT with hT
    rw [← hT]
    exact fun k => ⟨rfl, rfl⟩
  cases hf : D.fitFoundFlags with
  | none =>
    rw [hf] at h
    injection h with h
    rw [← h]
    exact hTs
  | some f =>
    rw [hf] at h
    have hfs := hD.2 f hf
    unfold whereFlags at h
    dsimp only at h
    have hw : ∀ k, ∃ B, npWhere (f.map (fun v => decide (v = 1))) (T k) (st k) = .ok B ∧ B.h = d.h / 2 ∧ B.w = d.w / 2 := by
      intro k
      refine ⟨_, npWhere_ok ((hTs k).1.trans (hst k).1.symm) ((hTs k).2.trans (hst k).2.symm) (hfs.1.trans (hst k).1.symm)
        (hfs.2.trans (hst k).2.symm), (hst k).1, (hst k).2⟩
    obtain ⟨B0, w0, s0⟩ := hw 0
    obtain ⟨B1, w1, s1⟩ := hw 1
    obtain ⟨B2, w2, s2⟩ := hw 2
    rw [w0, Py.ok_bind, w1, Py.ok_bind, w2, Py.ok_bind] at h
    injection h with h
    rw [← h]
    intro k
    fin_cases k
    · exact s0
    · exact s1
    · exact s2

theorem value_sized {s : State} (hs : ∀ k ∈ s.images, EvenImg (s.heap.dataOf k)) {o : Op} {v : ImgView}
    (hc : ∀ i ny nx, o ≠ .congrid i ny nx) (hD : ∀ i D, o = .demodulate i D false → D.Fits v.data) (hv : SizedV v) :
    (o.inPlace = true → SizedV (o.value s v).2) ∧
    (o.inPlace = false → (o.value s v).1 = .ok () → SizedV (o.value s v).2) := by
  have himg : ∀ (j k : Nat), s.images[j]? = some k → EvenImg (s.heap.dataOf k) := fun j k hk =>
    hs k (List.mem_of_getElem? hk)
  have hopt : ∀ d : Option (Img ℝ), (∀ e, d = some e → ∃ k ∈ s.images, e = s.heap.dataOf k) →
      ∀ e, d = some e → EvenImg e := by
    intro d hd e he
    obtain ⟨k, hk, rfl⟩ := hd e he
    exact hs k hk
  cases o with
  | setDefault d => exact ⟨fun _ => hv, fun _ _ => hv⟩
  | fromArray d dic dark flat junk => exact ⟨fun _ => hv, fun _ _ => hv⟩
  | fromImage i dic dark flat junk =>
    have : SizedV (Op.value s (.fromImage i dic dark flat junk) v).2 :=
      optV_inv hv fun _ hd => optV_inv hv fun _ hf => applyCorrectionsV_sized hv (hopt _ hd) (hopt _ hf)
    exact ⟨fun _ => this, fun _ _ => this⟩
  | rebin i b =>
    refine ⟨fun h => (by cases h), fun _ hok => ?_⟩
    change (if b ≤ 0 then (Except.error PyErr.valueError, v) else _).1 = _ at hok
    change SizedV (if b ≤ 0 then (Except.error PyErr.valueError, v) else _).2
    split at hok
    · cases hok
    · rename_i hb
      rw [if_neg hb]
      obtain ⟨d, hd, e⟩ := withVal_ok hok
      rw [e] at hok ⊢
      exact updateStokesV_sized (v := { v with data := d }) (rebin_even hv.1 (by omega) hd) hok
  | congrid i ny nx => exact absurd rfl (hc i ny nx)
  | rotate i rot =>
    refine ⟨fun h => (by cases h), fun _ hok => ?_⟩
    have hst := rotateV_stokes (rot := rot) hv.2.1
    change (rotateV rot v).1 = _ at hok
    change SizedV (rotateV rot v).2
    have hsame := hv.withStokes hst
    generalize hq : (rotateV rot v).2.stokes = q at hst hsame
    unfold rotateV at hok hq ⊢
    obtain ⟨d, hd, e⟩ := withVal_ok hok
    rw [e] at hok hq ⊢
    obtain ⟨w, hw, e⟩ := andThen_ok hok
    rw [e] at hq ⊢
    have hwv : w = { v with stokes := (rewriteV rot v.stokes).2 } := (congrArg Prod.snd hw).symm
    have hsh := rotateData_shape hd
    subst hwv
    dsimp only at hq ⊢
    rw [hq]
    refine ⟨even_of_shape hv.1 hsh, hsame.2.1, fun hdem k => ?_⟩
    have := hsame.2.2 hdem k
    dsimp only at this ⊢
    rw [hsh.1, hsh.2]
    exact this
  | demodulate i D dem =>
    refine ⟨fun h => (by cases h), fun _ hok => ?_⟩
    change (demodulateV D dem v).1 = _ at hok
    change SizedV (demodulateV D dem v).2
    unfold demodulateV at hok ⊢
    cases dem with
    | true =>
      rw [if_pos rfl] at hok ⊢
      obtain ⟨w, hw, e⟩ := andThen_ok hok
      rw [e]
      have hws : SizedV w := by
        have := demosaicV_sized (mode := "adjacent") hv
        rw [hw] at this
        exact this
      have hwd : w.isDemosaiced = true := by
        have := demosaicV_flag (mode := "adjacent") (v := v) (by rw [hw])
        rw [hw] at this
        exact this
      refine withVal_inv (P := SizedV) hws fun S _ => ?_
      exact ⟨hws.1, rfl, fun hdem => absurd (hwd.symm.trans hdem) (by decide)⟩
    | false =>
      rw [if_neg (by simp)] at hok ⊢
      obtain ⟨S, hS, e⟩ := withVal_ok hok
      rw [e]
      refine ⟨hv.1, rfl, fun hdem k => ?_⟩
      exact demodulatePlain_half hv.1 (hD i D rfl) (hv.2.2 hdem) hS k
  | shift i y x m =>
    refine ⟨fun h => (by cases h), fun _ hok => ?_⟩
    change (withVal _ _ _).1 = _ at hok
    change SizedV (withVal _ _ _).2
    obtain ⟨d, hd, e⟩ := withVal_ok hok
    rw [e]
    exact updateData_sized hv (shift_shape hv.1 hd)
  | cleanHotPixels i f median =>
    refine ⟨fun h => (by cases h), fun _ hok => ?_⟩
    change SizedV (secondV _ _ _ _).2
    change (secondV _ _ _ _).1 = _ at hok
    obtain ⟨k, hk, e⟩ := secondV_ok hok
    rw [e] at hok ⊢
    obtain ⟨d, hd, e⟩ := withVal_ok hok
    rw [e] at hok ⊢
    exact updateStokesV_sized (v := { v with data := d }) (cleanHot_even hd) hok
  | arithImage op i j junk =>
    refine ⟨fun h => (by cases h), fun _ hok => ?_⟩
    change SizedV (secondV _ _ _ _).2
    change (secondV _ _ _ _).1 = _ at hok
    obtain ⟨k, hk, e⟩ := secondV_ok hok
    rw [e] at hok ⊢
    obtain ⟨d, hd, e⟩ := withVal_ok hok
    rw [e]
    exact updateData_sized hv (arithImage_shape hv.1 (himg _ k hk) hd)
  | arithNumber op i c junk =>
    refine ⟨fun h => (by cases h), fun _ hok => ?_⟩
    change SizedV (withVal _ _ _).2
    change (withVal _ _ _).1 = _ at hok
    obtain ⟨d, hd, e⟩ := withVal_ok hok
    rw [e] at hok ⊢
    obtain ⟨S, hS, e⟩ := withVal_ok hok
    rw [e]
    exact ⟨even_of_shape hv.1 (arithNumber_shape hd), rfl, fun _ k => dataStokes_half hS k⟩
  | demosaic i mode =>
    exact ⟨fun _ => demosaicV_sized hv, fun _ _ => demosaicV_sized hv⟩
  | subtractDark i j =>
    have : SizedV (Op.value s (.subtractDark i j) v).2 := secondV_inv hv fun k hk => subtractDarkV_sized hv (himg _ k hk)
    exact ⟨fun _ => this, fun _ _ => this⟩
  | correctFlat i j junk =>
    have : SizedV (Op.value s (.correctFlat i j junk) v).2 := secondV_inv hv fun k hk =>
      correctFlatV_sized hv (himg _ k hk)
    exact ⟨fun _ => this, fun _ _ => this⟩
  | correctIfov i =>
    have : SizedV (Op.value s (.correctIfov i) v).2 := withVal_inv hv fun _ ha =>
      updateData_sized hv (correctIfovData_shape hv.1 ha)
    exact ⟨fun _ => this, fun _ _ => this⟩
  | maskOcculter i y x r over fill =>
    obtain ⟨f1, f2, f3, f4⟩ := maskOcculterV_fields (y := y) (x := x) (r := r) (over := over) (fill := fill) hv.1 hv.2.1
    have : SizedV (maskOcculterV y x r over fill v).2 := by
      refine ⟨even_of_shape hv.1 ⟨f3, f4⟩, f1.1, fun hdem k => ?_⟩
      have h := hv.2.2 (f2.symm.trans hdem) k
      rw [f3, f4]
      exact ⟨(f1.2 k).1.trans h.1, (f1.2 k).2.trans h.2⟩
    exact ⟨fun _ => this, fun _ _ => this⟩

theorem fromArrayV_sized {s : State} (hs : ∀ k ∈ s.images, EvenImg (s.heap.dataOf k)) {d : Img ℝ} {dic : Option AngleDic}
    {dark flat : Option Nat} {junk : Nat → Nat → ℝ} {v : ImgView}
    (h : (fromArrayV s d dic dark flat junk v).1 = .ok ()) : SizedV (fromArrayV s d dic dark flat junk v).2 := by
  have hopt : ∀ d : Option (Img ℝ), (∀ e, d = some e → ∃ k ∈ s.images, e = s.heap.dataOf k) →
      ∀ e, d = some e → EvenImg e := by
    intro d hd e he
    obtain ⟨k, hk, rfl⟩ := hd e he
    exact hs k hk
  unfold fromArrayV at h ⊢
  obtain ⟨dk, hdk, e1⟩ := optV_ok h
  rw [e1] at h ⊢
  obtain ⟨fl, hfl, e2⟩ := optV_ok h
  rw [e2] at h ⊢
  obtain ⟨S, hS, e3⟩ := withVal_ok h
  rw [e3]
  exact applyCorrectionsV_sized (v := freshView d S (dicVal dic s.heap))
    ⟨dataStokes_even hS, rfl, fun _ k => dataStokes_half hS k⟩ (hopt _ hdk) (hopt _ hfl)

theorem AllAlong.init {A : State → Op → Prop} {ops : List Op} {o : Op} (h : AllAlong A (ops ++ [o])) : AllAlong A ops :=
  fun pre o' post he => h pre o' (post ++ [o]) (by rw [he]; simp)

theorem AllAlong.last {A : State → Op → Prop} {ops : List Op} {o : Op} (h : AllAlong A (ops ++ [o])) : A (runOps ops) o :=
  h ops o [] rfl

/-- Images that do not come from `congrid` have Stokes maps of half the size until they are demosaiced. -/
theorem run_sized (ops : List Op) (hops : AllAlong Sized ops) :
    ∀ k ∈ (runOps ops).images, ¬ Congridded ops k → SizedV ((runOps ops).heap.view k) := by
  induction ops using List.reverseRecOn with
  | nil => intro k hk; cases hk
  | append_singleton ops o ih =>
    have ih' := ih hops.init
    have hcond := hops.last
    have hev := run_even ops
    rw [runOps_snoc]
    refine inv_step_on (P := fun k v => EvenImg v.data ∧ (¬ Congridded ops k → SizedV v))
      (Q := fun k v => ¬ Congridded (ops ++ [o]) k → SizedV v) (runOps_valid ops) (fun k hk => ⟨hev k hk, ih' k hk⟩) ?_ ?_ ?_ ?_
    · intro k _ v h hc
      exact h.2 fun h' => hc (.kept h')
    · intro k hk hPk
      have hD : ∀ i D, o = .demodulate i D false → D.Fits ((runOps ops).heap.view k).data := by
        intro i D ho
        subst ho
        obtain ⟨i', hsrc, hi⟩ := hk
        cases hsrc
        exact hcond i D k rfl hi
      refine ⟨fun hin hc => ?_, fun hin hok n hn hc => ?_⟩
      · refine (value_sized hev ?_ hD (hPk.2 fun h => hc (.kept h))).1 hin
        rintro i ny nx rfl
        cases hin
      · refine (value_sized hev ?_ hD (hPk.2 fun h => hc (.derived hk h hn))).2 hin hok
        rintro i ny nx rfl
        exact hc (.born hn)
    · intro d dic dark flat junk _ v h n _
      exact fromArrayV_sized hev h
    · intro hw k r hk hr hPk hPr hst hc
      have hPk' := hPk.2 fun h => hc (.kept h)
      refine hPk'.withStokes ?_
      rw [hst]
      have hl : ((runOps ops).heap.view r).stokes.isList = false := by rw [← hst]; exact hPk'.2.1
      cases o with
      | rotate i rot => exact rotateV_stokes hl
      | maskOcculter i y x rr over fill => exact (maskOcculterV_fields hPr.1 hl).1
      | _ => cases hw

end

end Micropol
