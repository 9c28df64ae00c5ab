import Verif.Spec.Counts
import Verif.Lemmas.LightData
import Verif.Lemmas.PilRotate
import Verif.Lemmas.RebinFold

/-! # A property of numbers through the functions on arrays -/

set_option autoImplicit false

namespace Micropol

open Classical

/-- Every number in the array has the property (zeros outside included). -/
def AllPx (p : ℝ → Prop) (A : Img ℝ) : Prop := ∀ y x, p (A.px y x)

section
variable {p : ℝ → Prop} (p0 : p 0)
include p0

theorem all_ofFn {h w : Nat} {f : Nat → Nat → ℝ} (hf : ∀ y x, p (f y x)) : AllPx p (Img.ofFn h w f) := by
  intro y x
  rw [Img.ofFn_px']
  split
  · exact hf y x
  · exact p0

theorem all_zeros {h w : Nat} : AllPx p (Img.zeros h w) := all_ofFn p0 fun _ _ => p0

theorem all_split {d : Img ℝ} (hd : AllPx p d) : OkP (fun s : Fin 4 → Img ℝ => ∀ q, AllPx p (s q)) (splitPolarizations d) := by
  unfold splitPolarizations
  split
  · exact OkP.error
  · exact OkP.ok fun q => all_ofFn p0 fun y x => hd _ _

theorem all_assignStride {A B : Img ℝ} (hA : AllPx p A) (hB : AllPx p B) (j i : Nat) : OkP (AllPx p) (A.assignStride2 j i B) := by
  unfold Img.assignStride2
  split
  · exact OkP.ok (all_ofFn p0 fun y x => by split <;> [exact hB _ _; exact hA _ _])
  · exact OkP.error

theorem all_merge {s : Fin 4 → Img ℝ} (hs : ∀ q, AllPx p (s q)) : OkP (AllPx p) (mergePolarizations s) :=
  OkP.bind (all_assignStride p0 (all_zeros p0) (hs 0) _ _) fun _ h => OkP.bind (all_assignStride p0 h (hs 1) _ _) fun _ h =>
    OkP.bind (all_assignStride p0 h (hs 2) _ _) fun _ h => all_assignStride p0 h (hs 3) _ _

omit p0 in
theorem all_vec {a b c d : Img ℝ} (ha : AllPx p a) (hb : AllPx p b) (hc : AllPx p c) (hd : AllPx p d) :
    ∀ q, AllPx p ((![a, b, c, d] : Fin 4 → Img ℝ) q) := by
  intro q
  fin_cases q
  · exact ha
  · exact hb
  · exact hc
  · exact hd

omit p0 in
theorem all_readE {A : Img ℝ} (hA : AllPx p A) (e : PyErr) (i j : Int) : OkP p (A.readE e i j) := by
  unfold Img.readE
  split
  · exact OkP.ok (hA _ _)
  · exact OkP.error

theorem all_write {A : Img ℝ} (hA : AllPx p A) (i j : Int) {v : ℝ} (hv : p v) : OkP (AllPx p) (A.write i j v) := by
  unfold Img.write
  split
  · exact OkP.ok (all_ofFn p0 fun y' x' => by split <;> [exact hv; exact hA _ _])
  · exact OkP.error

theorem all_shiftKernel {d : Img ℝ} (hd : AllPx p d) (y x : Int) {m : ℝ} (hm : p m) : OkP (AllPx p) (shiftKernel d y x m) :=
  OkP.forRange (P := AllPx p) (all_ofFn p0 fun _ _ => hm) fun _ _ hs => OkP.forRange hs fun _ _ hs =>
    OkP.bind (all_readE hd _ _ _) fun _ hv => all_write p0 hs _ _ hv

theorem all_shift {d : Img ℝ} (hd : AllPx p d) (y x : Int) {m : ℝ} (hm : p m) : OkP (AllPx p) (shiftMicropol d y x m) :=
  OkP.bind (all_split p0 hd) fun s hs => OkP.bind (all_shiftKernel p0 (hs 0) y x hm) fun _ h0 =>
    OkP.bind (all_shiftKernel p0 (hs 1) y x hm) fun _ h1 => OkP.bind (all_shiftKernel p0 (hs 2) y x hm) fun _ h2 =>
    OkP.bind (all_shiftKernel p0 (hs 3) y x hm) fun _ h3 => all_merge p0 (all_vec h0 h1 h2 h3)

theorem all_npBinAt {q r : ℝ → Prop} {f : Nat → Nat → ℝ → ℝ → ℝ} {A B : Img ℝ} (hA : AllPx q A) (hB : AllPx r B)
    (hf : ∀ y x a b, q a → r b → p (f y x a b)) : OkP (AllPx p) (npBinAt f A B) :=
  OkP.bind OkP.any fun _ _ => OkP.bind OkP.any fun _ _ => OkP.pure (all_ofFn p0 fun _ _ => hf _ _ _ _ (hA _ _) (hB _ _))

theorem all_where {m : Img Bool} {A B : Img ℝ} (hA : AllPx p A) (hB : AllPx p B) : OkP (AllPx p) (npWhere m A B) :=
  OkP.bind OkP.any fun _ _ => OkP.bind OkP.any fun _ _ => OkP.bind OkP.any fun _ _ => OkP.bind OkP.any fun _ _ =>
    OkP.pure (all_ofFn p0 fun _ _ => by split <;> [exact hA _ _; exact hB _ _])

theorem all_roi {A : Img ℝ} (hA : AllPx p A) (c r : Option (ℝ × ℝ)) (t : ℝ × ℝ) {fill : ℝ} (hf : p fill) (b : Bool) :
    OkP (AllPx p) (roiFromPolar A c r t fill b) :=
  OkP.bind OkP.any fun _ _ => all_where p0 hA (all_ofFn p0 fun _ _ => hf)

theorem all_assignPlane {h w : Nat} {A : Img ℝ} (hA : AllPx p A) : OkP (AllPx p) (assignPlane h w A) := by
  unfold assignPlane
  split
  · exact OkP.ok (all_ofFn p0 fun _ _ => hA _ _)
  · exact OkP.error

omit p0 in
theorem all_mapFour {f : Img ℝ → Py (Img ℝ)} {s : Fin 4 → Img ℝ} (hs : ∀ q, OkP (AllPx p) (f (s q))) :
    OkP (fun t : Fin 4 → Img ℝ => ∀ q, AllPx p (t q)) (mapFour f s) :=
  OkP.bind (hs 0) fun _ h0 => OkP.bind (hs 1) fun _ h1 => OkP.bind (hs 2) fun _ h2 => OkP.bind (hs 3) fun _ h3 =>
    OkP.pure (all_vec h0 h1 h2 h3)

theorem all_rotateData {rot : Img ℝ → Py (Img ℝ)} (hr : ∀ A, AllPx p A → OkP (AllPx p) (rot A)) {d : Img ℝ} (hd : AllPx p d) :
    OkP (AllPx p) (rotateData rot d) :=
  OkP.bind (all_split p0 hd) fun s hs => OkP.bind (all_mapFour fun q => OkP.bind (hr _ (hs q)) fun _ h => all_assignPlane p0 h)
    fun _ h => all_merge p0 h

theorem all_clean {q : ℝ → Prop} (q0 : q 0) (hqp : ∀ v, q v → p v) {median : Img ℝ → Img ℝ} (hm : ∀ A : Img ℝ, AllPx q A → AllPx p (median A))
    {d flags : Img ℝ} (hd : AllPx q d) : OkP (AllPx p) (cleanHotPixelsData median d flags) :=
  OkP.bind (all_split q0 hd) fun s hs => OkP.bind OkP.any fun _ _ =>
    have w : ∀ (k : Fin 4) (m : Img Bool), OkP (AllPx p) (npWhere m (median (s k)) (s k)) := fun k m =>
      all_where p0 (hm _ (hs k)) fun y x => hqp _ (hs k y x)
    OkP.bind (w 0 _) fun _ h0 => OkP.bind (w 1 _) fun _ h1 => OkP.bind (w 2 _) fun _ h2 => OkP.bind (w 3 _) fun _ h3 =>
      all_merge p0 (all_vec h0 h1 h2 h3)

end

/-! ## Counts -/

theorem IsCount.zero (M : ℕ) : IsCount M 0 := ⟨0, Nat.zero_le M, by simp⟩

theorem IsCount.mono {M M' : ℕ} (h : M ≤ M') {v : ℝ} (hv : IsCount M v) : IsCount M' v := let ⟨n, hn, e⟩ := hv; ⟨n, hn.trans h, e⟩

theorem IsCount.add {M N : ℕ} {v w : ℝ} (hv : IsCount M v) (hw : IsCount N w) : IsCount (M + N) (v + w) := by
  obtain ⟨n, hn, rfl⟩ := hv
  obtain ⟨m, hm, rfl⟩ := hw
  exact ⟨n + m, Nat.add_le_add hn hm, by push_cast; rfl⟩

theorem IsCount.mul {M N : ℕ} {v w : ℝ} (hv : IsCount M v) (hw : IsCount N w) : IsCount (M * N) (v * w) := by
  obtain ⟨n, hn, rfl⟩ := hv
  obtain ⟨m, hm, rfl⟩ := hw
  exact ⟨n * m, Nat.mul_le_mul hn hm, by push_cast; rfl⟩

theorem IsCount.dark {M N : ℕ} {v w : ℝ} (hv : IsCount M v) (hw : IsCount N w) : IsCount M (if v - w ≥ 0 then v - w else 0) := by
  obtain ⟨n, hn, rfl⟩ := hv
  obtain ⟨m, hm, rfl⟩ := hw
  split
  · rename_i h
    have h : m ≤ n := by exact_mod_cast sub_nonneg.1 h
    exact ⟨n - m, (Nat.sub_le _ _).trans hn, by rw [Nat.cast_sub h]⟩
  · exact IsCount.zero M

theorem counts_all {M : ℕ} {A : Img ℝ} (h : A.Counts M) : AllPx (IsCount M) A := by
  intro y x
  by_cases hc : y < A.h ∧ x < A.w
  · exact h y x hc.1 hc.2
  · rw [A.out y x hc]
    exact IsCount.zero M

theorem all_counts {M : ℕ} {A : Img ℝ} (h : AllPx (IsCount M) A) : A.Counts M := fun y x _ _ => h y x

theorem all_mono {M M' : ℕ} (h : M ≤ M') {A : Img ℝ} (hA : AllPx (IsCount M) A) : AllPx (IsCount M') A := fun y x => (hA y x).mono h

theorem foldl_count {M : ℕ} : ∀ (l : List ℝ) (z : ℝ) (N : ℕ), (∀ v ∈ l, IsCount M v) → IsCount N z →
    IsCount (N + l.length * M) (l.foldl (· + ·) z)
  | [], z, N, _, hz => by simpa using hz
  | a :: l, z, N, hl, hz => by
    have := foldl_count l (z + a) (N + M) (fun v hv => hl v (.tail _ hv)) (hz.add (hl a (.head _)))
    rw [List.foldl_cons]
    refine this.mono (le_of_eq ?_)
    rw [List.length_cons]
    ring

theorem count_rebin {d : Img ℝ} {M : ℕ} (hd : AllPx (IsCount M) d) (he : EvenImg d) {b : Int} (hb : 0 < b) :
    OkP (AllPx (IsCount (b.toNat * b.toNat * M))) (micropolarrayRebin d b) := by
  obtain ⟨n, rfl⟩ : ∃ n : Nat, b = n := ⟨b.toNat, by omega⟩
  rw [micropolarrayRebin_fold d n (by omega) he.1 he.2]
  refine OkP.ok (all_ofFn (IsCount.zero _) fun Y X => ?_)
  unfold blockFold
  rw [blockFold_list]
  have := foldl_count (M := M) (blockList d (2 * n * (Y / 2) + Y % 2) (2 * n * (X / 2) + X % 2) 2 n n) 0 0 (fun v hv => ?_) (IsCount.zero 0)
  · rw [blockList_length, Nat.zero_add] at this
    exact this
  · unfold blockList at hv
    obtain ⟨a, -, hv⟩ := List.mem_flatMap.1 hv
    obtain ⟨c, -, rfl⟩ := List.mem_map.1 hv
    exact hd _ _

theorem count_dark {d k : Img ℝ} {M N : ℕ} (hd : AllPx (IsCount M) d) (hk : AllPx (IsCount N) k) :
    OkP (AllPx (IsCount M)) (subtractDarkData d k) := by
  unfold subtractDarkData
  refine OkP.bind (P := AllPx fun v => IsCount M (if v ≥ 0 then v else 0)) ?_ fun A hA => OkP.pure (all_ofFn (IsCount.zero M) fun y x => hA y x)
  exact all_npBinAt (by simpa using IsCount.zero M) hd hk fun _ _ a b ha hb => ha.dark hb

theorem count_pil {M : ℕ} (hM : M ≤ 2 ^ 24) (angle : ℝ) (A : Img ℝ) (hA : AllPx (IsCount M) A) : OkP (AllPx (IsCount M)) (pilRotate angle A) := by
  refine OkP.ok (all_ofFn (IsCount.zero M) fun y x => ?_)
  split
  · obtain ⟨n, hn, e⟩ := hA _ _
    rw [e]
    have : |(n : ℤ)| ≤ 2 ^ 24 := by
      rw [abs_of_nonneg (Int.natCast_nonneg n)]
      exact_mod_cast hn.trans hM
    have := roundSingle_exact (n : ℤ) 0 this
    rw [zpow_zero, mul_one, Int.cast_natCast] at this
    rw [this]
    exact ⟨n, hn, rfl⟩
  · exact IsCount.zero M

/-! ## Views -/

/-- The data of the view are counts. -/
def CountV (M : ℕ) (v : ImgView) : Prop := AllPx (IsCount M) v.data

theorem updateStokesV_count {M : ℕ} {v : ImgView} (hv : CountV M v) : CountV M (updateStokesV v).2 := withVal_inv hv fun _ _ => hv

theorem updateData_count {M : ℕ} {v : ImgView} {d : Img ℝ} (hd : AllPx (IsCount M) d) : CountV M (updateDataAndStokesV d v).2 :=
  updateStokesV_count (v := { v with data := d }) hd

theorem subtractDarkV_count {M N : ℕ} {v : ImgView} {d : Img ℝ} (hv : CountV M v) (hd : AllPx (IsCount N) d) :
    CountV M (subtractDarkV d v).2 :=
  withVal_inv hv fun _ ha => andThen_inv (updateData_count (count_dark hv hd _ ha)) fun _ h => h

theorem applyCorrectionsV_count {M N : ℕ} {junk : Nat → Nat → ℝ} {d : Option (Img ℝ)} {v : ImgView} (hv : CountV M v)
    (hd : ∀ e, d = some e → AllPx (IsCount N) e) : CountV M (applyCorrectionsV junk d none v).2 := by
  cases d with
  | none => exact hv
  | some e => exact subtractDarkV_count hv (hd e rfl)

theorem arithImage_count {M M' : ℕ} {op : Arith} {i j : Nat} {junk : Nat → Nat → ℝ} (h : (Op.arithImage op i j junk).CountsTo M M') {d e : Img ℝ}
    (hd : AllPx (IsCount M) d) (he : AllPx (IsCount M) e) : OkP (AllPx (IsCount M')) (arithData op junk d (.image e)) := by
  cases op with
  | add => exact all_npBinAt (IsCount.zero M') hd he fun _ _ a b ha hb => (ha.add hb).mono h
  | sub => exact h.elim
  | mul => exact all_npBinAt (IsCount.zero M') hd he fun _ _ a b ha hb => (ha.mul hb).mono h
  | div => exact h.elim

theorem arithNumber_count {M M' : ℕ} {op : Arith} {i : Nat} {c : ℝ} {junk : Nat → Nat → ℝ} (h : (Op.arithNumber op i c junk).CountsTo M M')
    {d : Img ℝ} (hd : AllPx (IsCount M) d) : OkP (AllPx (IsCount M')) (arithData op junk d (.number c)) := by
  cases op with
  | add =>
    obtain ⟨n, rfl, h⟩ := h
    exact OkP.ok (all_ofFn (IsCount.zero M') fun y x => ((hd y x).add ⟨n, le_rfl, rfl⟩).mono h)
  | sub => exact h.elim
  | mul =>
    obtain ⟨n, rfl, h⟩ := h
    exact OkP.ok (all_ofFn (IsCount.zero M') fun y x => ((hd y x).mul ⟨n, le_rfl, rfl⟩).mono h)
  | div => exact h.elim

theorem value_count {M M' : ℕ} (hMM : M ≤ M') {s : State} (hs : ∀ k ∈ s.images, CountV M (s.heap.view k)) {o : Op} (ho : o.CountsTo M M')
    {v : ImgView} (hv : CountV M v) (he : EvenV v) : CountV M' (o.value s v).2 := by
  have hv' : CountV M' v := all_mono hMM hv
  have himg : ∀ (j k : Nat), s.images[j]? = some k → AllPx (IsCount M) (s.heap.dataOf k) := fun j k hk => hs k (List.mem_of_getElem? hk)
  have hdem : ∀ mode, CountV M' (demosaicV mode v).2 := fun mode =>
    withVal_inv hv' fun a _ => updateStokesV_count (v := { v with demosaicedImages := some a, isDemosaiced := true }) hv'
  cases o with
  | setDefault d => exact hv'
  | fromArray d dic dark flat junk => exact hv'
  | fromImage i dic dark flat junk =>
    have : flat = none := ho
    subst this
    exact optV_inv hv' fun _ hd => applyCorrectionsV_count (N := M) hv' fun e he => by
      obtain ⟨k, hk, rfl⟩ := hd e he
      exact hs k hk
  | rebin i b =>
    unfold Op.value
    dsimp only
    split
    · exact hv'
    · exact withVal_inv hv' fun _ ha => updateData_count (all_mono ho (count_rebin hv he (by omega) _ ha))
  | congrid i ny nx => exact ho.elim
  | rotate i rot =>
    obtain ⟨⟨angle, rfl⟩, hM⟩ := ho
    exact withVal_inv hv' fun _ ha => andThen_inv (r := rewriteStokesV _ v) (P := CountV M') hv' fun _ _ =>
      all_mono hMM (all_rotateData (IsCount.zero M) (count_pil hM angle) hv _ ha)
  | demodulate i D dem =>
    unfold Op.value demodulateV
    dsimp only
    split
    · exact andThen_inv (hdem _) fun w hw => withVal_inv hw fun _ _ => hw
    · exact withVal_inv hv' fun _ _ => hv'
  | shift i y x m => exact withVal_inv hv' fun _ ha => updateData_count (all_shift (IsCount.zero M') hv' y x ho _ ha)
  | cleanHotPixels i f median =>
    exact secondV_inv hv' fun _ _ => withVal_inv hv' fun _ ha => updateData_count
      (all_clean (IsCount.zero M') (IsCount.zero M) (fun _ h => h.mono hMM) (fun A hA => counts_all (ho A (all_counts hA))) hv _ ha)
  | arithImage op i j junk =>
    exact secondV_inv hv' fun k hk => withVal_inv hv' fun _ ha => updateData_count (arithImage_count ho hv (himg _ k hk) _ ha)
  | arithNumber op i c junk =>
    exact withVal_inv hv' fun _ ha => withVal_inv hv' fun _ _ => arithNumber_count ho hv _ ha
  | demosaic i mode => exact hdem _
  | subtractDark i j => exact secondV_inv hv' fun k hk => subtractDarkV_count hv' (himg _ k hk)
  | correctFlat i j junk => exact ho.elim
  | correctIfov i => exact ho.elim
  | maskOcculter i y x r over fill =>
    unfold Op.value maskOcculterV
    refine withVal_inv hv' fun d ha => ?_
    have hd : AllPx (IsCount M') d := all_roi (IsCount.zero M') hv' _ _ _ ho _ _ ha
    refine andThen_inv (P := CountV M') ?_ fun w hw => ?_
    · unfold maskDemosaicedV
      split
      · exact hd
      · exact hd
      · exact withVal_inv (P := CountV M') (v := { v with data := d }) hd fun _ _ => hd
    · split
      · exact hw
      · exact hw

theorem fromArrayV_count {M M' : ℕ} {s : State} (hs : ∀ k ∈ s.images, CountV M (s.heap.view k)) {d : Img ℝ} (hd : d.Counts M')
    {dic : Option AngleDic} {dark : Option Nat} {junk : Nat → Nat → ℝ} {v : ImgView} (h : (fromArrayV s d dic dark none junk v).1 = .ok ()) :
    CountV M' (fromArrayV s d dic dark none junk v).2 := by
  unfold fromArrayV at h ⊢
  obtain ⟨dk, hdk, e1⟩ := optV_ok h
  rw [e1] at h ⊢
  change (withVal (dataStokes d (dicVal dic s.heap)) v fun S => applyCorrectionsV junk dk none (freshView d S (dicVal dic s.heap))).1 = _ at h
  show CountV M' (withVal (dataStokes d (dicVal dic s.heap)) v fun S => applyCorrectionsV junk dk none (freshView d S (dicVal dic s.heap))).2
  obtain ⟨S, hS, e3⟩ := withVal_ok h
  rw [e3]
  exact applyCorrectionsV_count (N := M) (v := freshView d S (dicVal dic s.heap)) (counts_all hd) fun e he => by
    obtain ⟨k, hk, rfl⟩ := hdk e he
    exact hs k hk

end Micropol
