import Verif.Lemmas.ChenFolder
import Verif.Props.Corrections
import Verif.Props.ChenCalculate

/-!
# C132: the files of a Chen-Wang-Liang calibration

Full property: a calibration that was saved is applied to every image as it was calculated; an image that is calibrated while the
files are being written, or after the writing was stopped, is calibrated with one calibration (the old or the new one) or refused; the
files of a demodulation tensor in the same folder and those of the calibration do not disturb each other.

The first part and one half of the last hold.  Over an old calibration the second part is false (`C132_full_claim_false`); what holds
is `C132_live`, and `C132_fresh_partial` for a folder without an old calibration.
-/

set_option autoImplicit false

namespace Micropol

open Classical

/-- C132: a saved calibration is applied as it was calculated, whatever was in the folder before. -/
theorem C132_roundtrip (f : LiveFolder ℝ) (C : Fin 4 → Fin 4 → Img ℝ) (d data : Img ℝ) (hC : ∀ i j, (C i j).SameShape data)
    (k : Nat → Nat) (hk : ∀ m, Completed 16 (k m)) :
    applyChen (fun m => chenFolderAfter f C d (k m)) data = chenWanLiang C d data := by
  unfold Completed at hk
  refine applyChen_ok hC (fun i j => ?_) ?_
  · have := hk (4 * i.val + j.val)
    rw [readLive_matrix, if_neg (by omega), if_pos (by omega)]
  · have := hk 16
    rw [readLive_offset, if_neg (by omega), if_pos (by omega)]

/-- C132: no other file of the folder is touched, at any time. -/
theorem C132_others (f : LiveFolder ℝ) (C : Fin 4 → Fin 4 → Img ℝ) (d : Img ℝ) (k : Nat) (n : Name)
    (h1 : ∀ i j, n ≠ matrixFile i j) (h2 : n ≠ offsetFile) : chenFolderAfter f C d k n = f n := by
  refine (acts_state (chenWrites C d) (chenWrites_nodup C d) f k n).1 ?_
  rw [chenWrites_names]
  intro hn
  simp only [List.mem_cons, List.not_mem_nil, or_false] at hn
  rcases hn with h | h | h | h | h | h | h | h | h | h | h | h | h | h | h | h | h
  · exact h1 0 0 h
  · exact h1 0 1 h
  · exact h1 0 2 h
  · exact h1 0 3 h
  · exact h1 1 0 h
  · exact h1 1 1 h
  · exact h1 1 2 h
  · exact h1 1 3 h
  · exact h1 2 0 h
  · exact h1 2 1 h
  · exact h1 2 2 h
  · exact h1 2 3 h
  · exact h1 3 0 h
  · exact h1 3 1 h
  · exact h1 3 2 h
  · exact h1 3 3 h
  · exact h2 h

/-- C132: once saving has ended the seventeen files are complete. -/
theorem C132_written (f : LiveFolder ℝ) (C : Fin 4 → Fin 4 → Img ℝ) (d : Img ℝ) (k : Nat) (hk : Completed 16 k) :
    (chenFolderAfter f C d k).HoldsChen C d := by
  unfold Completed at hk
  refine ⟨fun i j => ?_, ?_⟩
  · exact readLive_ok.1 (by rw [matrixFile_eq, readLive_matrix, if_neg (by omega), if_pos (by omega)])
  · exact readLive_ok.1 (by rw [offsetFile_eq, readLive_offset, if_neg (by omega), if_pos (by omega)])

/-- C132, for a folder without an old calibration: an image that is calibrated while the files are being written (file number `m` is
opened when `k m` actions have been done) is refused, unless every file was complete when it was opened; then it is calibrated with the
new calibration.  Missing from the full property: folders with an old calibration, see `C132_full_claim_false`. -/
theorem C132_fresh_partial (f : LiveFolder ℝ) (hf : f.NoChen) (C : Fin 4 → Fin 4 → Img ℝ) (d data : Img ℝ)
    (hC : ∀ i j, (C i j).SameShape data) (k : Nat → Nat) :
    applyChen (fun m => chenFolderAfter f C d (k m)) data =
      if ∀ m ≤ 16, Completed m (k m) then chenWanLiang C d data else .error .fileNotFoundError := by
  have e1 : ∀ i j : Fin 4, readLive f (cName i j) = .error .fileNotFoundError := by
    intro i j
    unfold readLive
    rw [show f (cName i j) = none from hf.1 i j]
  have e2 : readLive f dijName = .error .fileNotFoundError := by
    unfold readLive
    rw [show f dijName = none from hf.2]
  have r1 : ∀ i j : Fin 4, readLive (chenFolderAfter f C d (k (4 * i.val + j.val))) (cName i j) =
      if Completed (4 * i.val + j.val) (k (4 * i.val + j.val)) then .ok (C i j) else .error .fileNotFoundError := by
    intro i j
    rw [readLive_matrix, e1]
    unfold Completed
    split_ifs <;> first | rfl | omega
  have r2 : readLive (chenFolderAfter f C d (k 16)) dijName =
      if Completed 16 (k 16) then .ok d else .error .fileNotFoundError := by
    rw [readLive_offset, e2]
    unfold Completed
    split_ifs <;> first | rfl | omega
  by_cases h : ∀ m ≤ 16, Completed m (k m)
  · rw [if_pos h]
    refine applyChen_ok hC (fun i j => ?_) ?_
    · rw [r1, if_pos (h _ (by omega))]
    · rw [r2, if_pos (h _ (le_refl _))]
  · rw [if_neg h]
    push Not at h
    obtain ⟨m, hm, hc⟩ := h
    refine applyChen_missing ?_ ?_ ?_
    · intro i j
      rw [r1]
      split_ifs
      · exact Or.inl ⟨_, hC i j, rfl⟩
      · exact Or.inr rfl
    · rw [r2]
      split_ifs
      · exact Or.inl ⟨_, rfl⟩
      · exact Or.inr rfl
    · by_cases h16 : m = 16
      · subst h16
        exact Or.inr (by rw [r2, if_neg hc])
      · refine Or.inl ⟨⟨m / 4, by omega⟩, ⟨m % 4, by omega⟩, ?_⟩
        rw [r1]
        dsimp only
        rw [show 4 * (m / 4) + m % 4 = m by omega, if_neg hc]

/-- C132: after a stop in a folder without an old calibration every image of the right size is refused. -/
theorem C132_interrupted (f : LiveFolder ℝ) (hf : f.NoChen) (C : Fin 4 → Fin 4 → Img ℝ) (d data : Img ℝ)
    (hC : ∀ i j, (C i j).SameShape data) (k : Nat) (hk : k < 51) :
    applyChen (fun _ => chenFolderAfter f C d k) data = .error .fileNotFoundError := by
  rw [C132_fresh_partial f hf C d data hC (fun _ => k), if_neg]
  intro h
  have := h 16 (le_refl _)
  unfold Completed at this
  omega

/-- C132: over an old calibration.  If every file is opened before its rewriting begins or after it has ended, the image is calibrated
with the new component in the second case and with the old one in the first; otherwise it is refused. -/
theorem C132_live (f : LiveFolder ℝ) (C₀ C : Fin 4 → Fin 4 → Img ℝ) (d₀ d data : Img ℝ) (hf : f.HoldsChen C₀ d₀)
    (hC₀ : ∀ i j, (C₀ i j).SameShape data) (hC : ∀ i j, (C i j).SameShape data) (k : Nat → Nat) :
    applyChen (fun m => chenFolderAfter f C d (k m)) data =
      if ∀ m ≤ 16, NotBegun m (k m) ∨ Completed m (k m) then
        chenWanLiang (fun i j => if Completed (4 * i.val + j.val) (k (4 * i.val + j.val)) then C i j else C₀ i j)
          (if Completed 16 (k 16) then d else d₀) data
      else .error .fileNotFoundError := by
  have e1 : ∀ i j : Fin 4, readLive f (cName i j) = .ok (C₀ i j) := fun i j => readLive_ok.2 (hf.1 i j)
  have e2 : readLive f dijName = .ok d₀ := readLive_ok.2 hf.2
  have r1 : ∀ i j : Fin 4, readLive (chenFolderAfter f C d (k (4 * i.val + j.val))) (cName i j) =
      if NotBegun (4 * i.val + j.val) (k (4 * i.val + j.val)) ∨ Completed (4 * i.val + j.val) (k (4 * i.val + j.val)) then
        .ok (if Completed (4 * i.val + j.val) (k (4 * i.val + j.val)) then C i j else C₀ i j)
      else .error .fileNotFoundError := by
    intro i j
    rw [readLive_matrix, e1]
    unfold Completed NotBegun
    split_ifs <;> first | rfl | omega
  have r2 : readLive (chenFolderAfter f C d (k 16)) dijName =
      if NotBegun 16 (k 16) ∨ Completed 16 (k 16) then .ok (if Completed 16 (k 16) then d else d₀)
      else .error .fileNotFoundError := by
    rw [readLive_offset, e2]
    unfold Completed NotBegun
    split_ifs <;> first | rfl | omega
  have hs : ∀ i j : Fin 4, (if Completed (4 * i.val + j.val) (k (4 * i.val + j.val)) then C i j else C₀ i j).SameShape data := by
    intro i j
    split_ifs
    · exact hC i j
    · exact hC₀ i j
  by_cases h : ∀ m ≤ 16, NotBegun m (k m) ∨ Completed m (k m)
  · rw [if_pos h]
    refine applyChen_ok hs (fun i j => ?_) ?_
    · rw [r1, if_pos (h _ (by omega))]
    · rw [r2, if_pos (h _ (le_refl _))]
  · rw [if_neg h]
    push Not at h
    obtain ⟨m, hm, hc⟩ := h
    have hc : ¬ (NotBegun m (k m) ∨ Completed m (k m)) := not_or.2 hc
    refine applyChen_missing ?_ ?_ ?_
    · intro i j
      rw [r1]
      split_ifs
      · exact Or.inl ⟨_, hC i j, rfl⟩
      · exact Or.inl ⟨_, hC₀ i j, rfl⟩
      · exact Or.inr rfl
    · rw [r2]
      split_ifs
      · exact Or.inl ⟨_, rfl⟩
      · exact Or.inl ⟨_, rfl⟩
      · exact Or.inr rfl
    · by_cases h16 : m = 16
      · subst h16
        exact Or.inr (by rw [r2, if_neg hc])
      · refine Or.inl ⟨⟨m / 4, by omega⟩, ⟨m % 4, by omega⟩, ?_⟩
        rw [r1]
        dsimp only
        rw [show 4 * (m / 4) + m % 4 = m by omega, if_neg hc]

/-- C132: components of another size.  A component with one row or one column is repeated; with any other wrong size the image is
refused. -/
theorem C132_sizes (f : LiveFolder ℝ) (C : Fin 4 → Fin 4 → Img ℝ) (d data : Img ℝ) (hf : f.HoldsChen C d) :
    applyChen (fun _ => f) data =
      if ∀ i j, ((C i j).h = data.h ∨ (C i j).h = 1) ∧ ((C i j).w = data.w ∨ (C i j).w = 1) then
        chenWanLiang (fun i j => Img.ofFn data.h data.w fun y x =>
          (C i j).px (if (C i j).h = 1 then 0 else y) (if (C i j).w = 1 then 0 else x)) d data
      else .error .valueError := by
  have e1 : ∀ i j : Fin 4, readLive f (cName i j) = .ok (C i j) := fun i j => readLive_ok.2 (hf.1 i j)
  have e2 : readLive f dijName = .ok d := readLive_ok.2 hf.2
  have hb : ∀ i j : Fin 4, (readLive f (cName i j) >>= fun A => assignPlane data.h data.w A) = assignPlane data.h data.w (C i j) :=
    fun i j => by rw [e1, Py.ok_bind]
  unfold applyChen readChen
  simp only [hb]
  split_ifs with h
  · rw [chenFour_vals (v := fun i j => Img.ofFn data.h data.w fun y x =>
        (C i j).px (if (C i j).h = 1 then 0 else y) (if (C i j).w = 1 then 0 else x)) (fun i => chenFour_vals (fun j => by
          unfold assignPlane
          rw [if_pos (h i j)]
          rfl)), Py.ok_bind, e2]
    rfl
  · push Not at h
    obtain ⟨i, j, hij⟩ := h
    have hj : assignPlane data.h data.w (C i j) = .error .valueError := by
      unfold assignPlane
      rw [if_neg (by tauto)]
    have hr : ∀ i j, (∃ v, assignPlane data.h data.w (C i j) = .ok v) ∨ assignPlane data.h data.w (C i j) = .error .valueError := by
      intro i j
      unfold assignPlane
      split_ifs
      · exact Or.inl ⟨_, rfl⟩
      · exact Or.inr rfl
    rw [chenFour_error (e := .valueError)]
    · rfl
    · intro i
      by_cases hi : ∃ j, assignPlane data.h data.w (C i j) = .error .valueError
      · exact Or.inr (chenFour_error (hr i) hi)
      · push Not at hi
        choose v hv using fun j => (hr i j).resolve_right (hi j)
        exact Or.inl ⟨v, chenFour_vals hv⟩
    · exact ⟨i, chenFour_error (hr i) ⟨j, hj⟩⟩

/-- C132, from the measurements to the calibrated image: the matrices are calculated, saved over anything, and applied to an image of
the same size. -/
theorem C132_calibrated {env : ChenEnv} {fs : Name → Option (Img ℝ)} {a : ChenArgs} {H W : Nat} {A : Name → Img ℝ}
    {D : Option (Img ℝ)} {F : Img ℝ} {M : ℝ} {pos : Fin 4 → Fin 4} (he : env.PinvCorrect) (h : ChenReadable fs a H W A D F M pos) :
    ∃ C d, calculateChen env fs a = .ok (C, d) ∧
      ∀ (f : LiveFolder ℝ) (k : Nat → Nat), (∀ m, Completed 16 (k m)) → ∀ data : Img ℝ, data.HasShape H W →
        ∃ m, m.SameShape data ∧ applyChen (fun q => chenFolderAfter f C d (k q)) data = correctIfovData m ∧
          ∀ Y X (i : Fin 4), Y < H / 2 → X < W / 2 → m.superpixel Y X i =
            ∑ j, (a.filenames.map fun n => frameMatrix a.previsions pos (cleanSuper (A n) D F M Y X) i j).sum / a.filenames.length *
              (data.superpixel Y X j -
                (a.filenames.map fun n => frameOffset pos (cleanSuper (A n) D F M Y X) j).sum / a.filenames.length) := by
  obtain ⟨C, d, hr, hd, hC, hv⟩ := C84_result he h
  refine ⟨C, d, hr, fun f k hk data hdata => ?_⟩
  have hCs : ∀ i j, (C i j).SameShape data := fun i j => ⟨(hC i j).1.trans hdata.1.symm, (hC i j).2.trans hdata.2.symm⟩
  obtain ⟨m, hm, e, hp⟩ := C69_apply C d data (by rw [hdata.1]; exact h.even.1) (by rw [hdata.2]; exact h.even.2) hCs
    ⟨hdata.1.trans hd.1.symm, hdata.2.trans hd.2.symm⟩
  refine ⟨m, hm, by rw [C132_roundtrip f C d data hCs k hk, e], fun Y X i hY hX => ?_⟩
  rw [hp Y X i (by rw [hdata.1]; exact hY) (by rw [hdata.2]; exact hX)]
  refine Finset.sum_congr rfl fun j _ => ?_
  have h0 := (hv Y X hY hX i j 0).1
  have e0 : (C i j).superpixel Y X 0 = (C i j).px (2 * Y) (2 * X) := by
    unfold Img.superpixel
    simp
  rw [← e0, h0, (hv Y X hY hX i j j).2]

/-! ## With a demodulation tensor in the same folder -/

/-- C132: a program that saves demodulation tensors to the folder does not change what is applied, at any time. -/
theorem C132_tensor_kept (f : LiveFolder ℝ) (C : Fin 4 → Fin 4 → Img ℝ) (d data : Img ℝ) (hf : f.HoldsChen C d)
    (hC : ∀ i j, (C i j).SameShape data) (os : List (CalibOutput ℝ)) (k : Nat → Nat) :
    applyChen (fun m => folderAfter f os (k m)) data = chenWanLiang C d data := by
  have hc : ∀ i j : Fin 4, cName i j ∉ [mName 0 0, mName 0 1, mName 0 2, mName 0 3, mName 1 0, mName 1 1, mName 1 2, mName 1 3,
      mName 2 0, mName 2 1, mName 2 2, mName 2 3, tkName, effName, phaseName, flagName] := by decide
  refine applyChen_ok hC (fun i j => readLive_ok.2 ?_) (readLive_ok.2 ?_)
  · rw [folderAfter_other os f _ _ (hc i j)]
    exact hf.1 i j
  · rw [folderAfter_other os f _ _ (by decide)]
    exact hf.2

theorem chenSave_top (C : Fin 4 → Fin 4 → Img ℝ) (d : Img ℝ) (k : Nat) (f : CalibFolder ℝ) (hf : UniqueNames f.top)
    (listing : Listing ℝ) (hl : listing.Perm (chenSaveUntil C d k f).top) :
    (listing.map Prod.fst).Nodup ∧ ∀ e, e ∈ listing ↔ e ∈ (chenWrites C d).take k ∨
      (e ∈ f.top ∧ e.1 ∉ ((chenWrites C d).take k).map Prod.fst) := by
  have hT : topWrites (((chenWrites C d).map fun e => FileOp.top e.1 e.2).take k) = (chenWrites C d).take k := by
    rw [← List.map_take]
    unfold topWrites
    rw [List.filterMap_map]
    exact List.filterMap_some
  obtain ⟨h1, h2⟩ := run_top (((chenWrites C d).map fun e => FileOp.top e.1 e.2).take k) f hf
    (by rw [hT]; exact (chenWrites_nodup C d).sublist ((List.take_sublist k _).map _))
  rw [hT] at h2
  refine ⟨(hl.map _).nodup_iff.2 h1, fun e => ?_⟩
  rw [hl.mem_iff]
  exact h2 e

theorem chenWrites_mem (C : Fin 4 → Fin 4 → Img ℝ) (d : Img ℝ) {k m : Nat} {e : Name × Img ℝ} (h : (chenWrites C d)[m]? = some e)
    (hm : m < k) : e ∈ (chenWrites C d).take k := by
  refine List.mem_of_getElem? (i := m) ?_
  rw [List.getElem?_take_of_lt hm, h]

/-- C132: the other way round it does.  From the thirteenth file (`C30.fits`) on no demodulation tensor can be loaded from the folder,
whatever else it holds and in whatever order its files are listed. -/
theorem C132_spoils_tensor (C : Fin 4 → Fin 4 → Img ℝ) (d : Img ℝ) (k : Nat) (hk : 13 ≤ k) (f : CalibFolder ℝ)
    (hf : UniqueNames f.top) (listing : Listing ℝ) (hl : listing.Perm (chenSaveUntil C d k f).top) :
    ∀ D, loadDemodulator (some listing) ≠ .ok D := by
  intro D hD
  obtain ⟨numbered, -, -, h3, h4⟩ := C27_count hD
  have hmem : (cName 3 0, C 3 0) ∈ listing :=
    ((chenSave_top C d k f hf listing hl).2 _).2 (Or.inl (chenWrites_mem C d (m := 12) rfl (by omega)))
  obtain ⟨i, j, hi, hj, hfd⟩ := h4 _ ((h3 _ hmem).2 ⟨isFits_iff.1 (by dsimp only; decide), twoDigits_isSome.1 (by dsimp only; decide)⟩)
  have := twoDigits_some.2 hfd
  rw [show twoDigits (cName 3 0) = some (3, 0) by decide] at this
  injection this with this
  injection this with this
  omega

/-- C132: in a folder with the twelve files of a demodulation tensor the first file is enough. -/
theorem C132_spoils_at_once (C : Fin 4 → Fin 4 → Img ℝ) (d : Img ℝ) (k : Nat) (hk : 1 ≤ k) (f : CalibFolder ℝ)
    (hf : UniqueNames f.top) (hM : ∀ n, IsComponentName n → n ∈ f.top.map Prod.fst) (listing : Listing ℝ)
    (hl : listing.Perm (chenSaveUntil C d k f).top) : ∀ D, loadDemodulator (some listing) ≠ .ok D := by
  intro D hD
  obtain ⟨numbered, -, h2, h3, -⟩ := C27_count hD
  obtain ⟨-, hlist⟩ := chenSave_top C d k f hf listing hl
  have hC : (cName 0 0, C 0 0) ∈ numbered :=
    (h3 _ ((hlist _).2 (Or.inl (chenWrites_mem C d (m := 0) rfl (by omega))))).2
      ⟨isFits_iff.1 (by dsimp only; decide), twoDigits_isSome.1 (by dsimp only; decide)⟩
  have hMC : ∀ (i : Fin 3) (j : Fin 4), mName i j ∉ [cName 0 0, cName 0 1, cName 0 2, cName 0 3, cName 1 0, cName 1 1, cName 1 2,
      cName 1 3, cName 2 0, cName 2 1, cName 2 2, cName 2 3, cName 3 0, cName 3 1, cName 3 2, cName 3 3, dijName] := by decide
  have hm : ∀ (i : Fin 3) (j : Fin 4), mName i j ∈ numbered.map Prod.fst := by
    intro i j
    obtain ⟨e, he, hen⟩ := List.mem_map.1 (hM _ ⟨i, j, rfl⟩)
    have hen : e.1 = mName i j := hen
    have hnot : mName i j ∉ ((chenWrites C d).take k).map Prod.fst := by
      intro h
      have : mName i j ∈ (chenWrites C d).map Prod.fst := ((List.take_sublist k _).map _).subset h
      rw [chenWrites_names] at this
      exact hMC i j this
    refine List.mem_map.2 ⟨e, (h3 e ((hlist e).2 (Or.inr ⟨he, by rw [hen]; exact hnot⟩))).2 ?_, hen⟩
    rw [hen]
    exact ⟨isFits_iff.1 (isFits_mName i j), twoDigits_isSome.1 (by rw [twoDigits_mName]; rfl)⟩
  have hsub : [cName 0 0, mName 0 0, mName 0 1, mName 0 2, mName 0 3, mName 1 0, mName 1 1, mName 1 2, mName 1 3, mName 2 0,
      mName 2 1, mName 2 2, mName 2 3] ⊆ numbered.map Prod.fst := by
    intro n hn
    simp only [List.mem_cons, List.not_mem_nil, or_false] at hn
    rcases hn with rfl | rfl | rfl | rfl | rfl | rfl | rfl | rfl | rfl | rfl | rfl | rfl | rfl
    · exact List.mem_map.2 ⟨_, hC, rfl⟩
    · exact hm 0 0
    · exact hm 0 1
    · exact hm 0 2
    · exact hm 0 3
    · exact hm 1 0
    · exact hm 1 1
    · exact hm 1 2
    · exact hm 1 3
    · exact hm 2 0
    · exact hm 2 1
    · exact hm 2 2
    · exact hm 2 3
  have := (List.subperm_of_subset (by decide) hsub).length_le
  rw [List.length_map, h2] at this
  simp at this

/-- C132: stopped after exactly twelve files, in a folder that had no numbered `.fits` file, the folder loads as a demodulation tensor:
the first three rows of the matrices are taken for its components. -/
theorem C132_taken_for_tensor (C : Fin 4 → Fin 4 → Img ℝ) (d : Img ℝ) (h w : Nat) (hC : ∀ i j, (C i j).HasShape h w)
    (f : CalibFolder ℝ) (hf : FreshFolder f.top) (listing : Listing ℝ) (hl : listing.Perm (chenSaveUntil C d 12 f).top) :
    ∃ flags, loadDemodulator (some listing) = .ok ⟨fun i j => C i.castSucc j, flags⟩ := by
  obtain ⟨hn, hlist⟩ := chenSave_top C d 12 f hf.1 listing hl
  have hT : (chenWrites C d).take 12 =
      [(cName 0 0, C 0 0), (cName 0 1, C 0 1), (cName 0 2, C 0 2), (cName 0 3, C 0 3),
       (cName 1 0, C 1 0), (cName 1 1, C 1 1), (cName 1 2, C 1 2), (cName 1 3, C 1 3),
       (cName 2 0, C 2 0), (cName 2 1, C 2 1), (cName 2 2, C 2 2), (cName 2 3, C 2 3)] := rfl
  have hnm : ∀ (i : Fin 3) (j : Fin 4), twoDigits (cName i j) = some (i.val, j.val) := by decide
  have hfits : ∀ (i : Fin 3) (j : Fin 4), isFits (cName i j) = true := by decide
  obtain ⟨flags, hload, -⟩ := load_named (nm := fun i j => cName i j) hnm hfits (listing := listing)
    (mij := fun i j => C i.castSucc j) (fun i j => hC _ _) hn
    (fun i j => (hlist _).2 (Or.inl (chenWrites_mem C d (m := 4 * i.val + j.val) (chenWrites_matrix C d i.castSucc j) (by omega)))) (by
      intro e he hfe hde
      rcases (hlist e).1 he with hw | ⟨hold, -⟩
      · rw [hT] at hw
        simp only [List.mem_cons, List.not_mem_nil, or_false] at hw
        rcases hw with rfl | rfl | rfl | rfl | rfl | rfl | rfl | rfl | rfl | rfl | rfl | rfl
        · exact ⟨0, 0, rfl⟩
        · exact ⟨0, 1, rfl⟩
        · exact ⟨0, 2, rfl⟩
        · exact ⟨0, 3, rfl⟩
        · exact ⟨1, 0, rfl⟩
        · exact ⟨1, 1, rfl⟩
        · exact ⟨1, 2, rfl⟩
        · exact ⟨1, 3, rfl⟩
        · exact ⟨2, 0, rfl⟩
        · exact ⟨2, 1, rfl⟩
        · exact ⟨2, 2, rfl⟩
        · exact ⟨2, 3, rfl⟩
      · exact absurd (twoDigits_isSome.1 hde) (hf.2 e hold (isFits_iff.1 hfe)))
  exact ⟨flags, hload⟩

/-! ## A mixture of two calibrations -/

/-- Matrices with the same diagonal everywhere. -/
noncomputable def diagPlanes (c : Fin 4 → ℝ) (i j : Fin 4) : Img ℝ := Img.const 4 4 (if i = j then c i else 0)

theorem diag_result (c : Fin 4 → ℝ) : ∃ r, chenWanLiang (diagPlanes c) (Img.zeros 4 4) (Img.const 4 4 1) = .ok r ∧
    r.px 2 2 = c 0 ∧ r.px 3 3 = c 3 := by
  obtain ⟨m, hs, e, hp⟩ := C69_apply (diagPlanes c) (Img.zeros 4 4) (Img.const 4 4 1) rfl rfl (fun _ _ => ⟨rfl, rfl⟩) ⟨rfl, rfl⟩
  have mh : m.h = 4 := hs.1
  have mw : m.w = 4 := hs.2
  obtain ⟨r, er, -, hr⟩ := C37_ifov m (by rw [mh]) (by rw [mw])
  have hv : ∀ Y X (i : Fin 4), Y < 2 → X < 2 → m.superpixel Y X i = c i := by
    intro Y X i hY hX
    rw [hp Y X i hY hX]
    have : ∀ j : Fin 4, (diagPlanes c i j).px (2 * Y) (2 * X) *
        ((Img.const 4 4 (1 : ℝ)).superpixel Y X j - (Img.zeros 4 4 : Img ℝ).superpixel Y X j) = if i = j then c i else 0 := by
      intro j
      have := j.isLt
      have e1 : (diagPlanes c i j).px (2 * Y) (2 * X) = if i = j then c i else 0 :=
        Img.ofFn_px (h := 4) (w := 4) (by omega) (by omega)
      have e2 : (Img.const 4 4 (1 : ℝ)).superpixel Y X j = 1 :=
        Img.ofFn_px (h := 4) (w := 4) (by omega) (by omega)
      have e3 : (Img.zeros 4 4 : Img ℝ).superpixel Y X j = 0 :=
        Img.ofFn_px (h := 4) (w := 4) (by omega) (by omega)
      rw [e1, e2, e3, sub_zero, mul_one]
    rw [Finset.sum_congr rfl fun j _ => this j, Finset.sum_ite_eq, if_pos (Finset.mem_univ _)]
  refine ⟨r, e.trans er, ?_, ?_⟩
  · rw [(hr 2 2 (by omega) (by omega)).2 (by omega) (by omega)]
    have a1 : m.px 2 2 = c 0 := hv 1 1 0 (by omega) (by omega)
    have a2 : m.px (2 - 2) 2 = c 0 := hv 0 1 0 (by omega) (by omega)
    have a3 : m.px 2 (2 - 2) = c 0 := hv 1 0 0 (by omega) (by omega)
    have a4 : m.px (2 - 2) (2 - 2) = c 0 := hv 0 0 0 (by omega) (by omega)
    rw [a1, a2, a3, a4]
    ring
  · rw [(hr 3 3 (by omega) (by omega)).2 (by omega) (by omega)]
    have a1 : m.px 3 3 = c 3 := hv 1 1 3 (by omega) (by omega)
    have a2 : m.px (3 - 2) 3 = c 3 := hv 0 1 3 (by omega) (by omega)
    have a3 : m.px 3 (3 - 2) = c 3 := hv 1 0 3 (by omega) (by omega)
    have a4 : m.px (3 - 2) (3 - 2) = c 3 := hv 0 0 3 (by omega) (by omega)
    rw [a1, a2, a3, a4]
    ring

/-- The folder with the old calibration. -/
noncomputable def oldChenFolder : LiveFolder ℝ := chenFolderAfter (fun _ => none) (diagPlanes fun _ => 1) (Img.zeros 4 4) 51

/-- C132: the full claim is false.  Stopped after the first of the seventeen files was rewritten, the folder gives an image that is
calibrated neither with the old nor with the new calibration. -/
theorem C132_full_claim_false :
    ¬ ∀ (f : LiveFolder ℝ) (C₀ C : Fin 4 → Fin 4 → Img ℝ) (d₀ d data : Img ℝ) (k : Nat), f.HoldsChen C₀ d₀ →
      (∀ i j, (C₀ i j).SameShape data) → (∀ i j, (C i j).SameShape data) →
      ∀ r, applyChen (fun _ => chenFolderAfter f C d k) data = .ok r →
        chenWanLiang C₀ d₀ data = .ok r ∨ chenWanLiang C d data = .ok r := by
  intro hc
  have hold : oldChenFolder.HoldsChen (diagPlanes fun _ => 1) (Img.zeros 4 4) :=
    C132_written _ _ _ 51 (by unfold Completed; omega)
  have hmix : (fun i j : Fin 4 => if Completed (4 * i.val + j.val) 3 then diagPlanes (fun _ => 2) i j else diagPlanes (fun _ => 1) i j) =
      diagPlanes ![2, 1, 1, 1] := by
    funext i j
    unfold Completed diagPlanes
    by_cases h0 : i = 0 ∧ j = 0
    · obtain ⟨rfl, rfl⟩ := h0
      simp
    · rw [if_neg (by
        intro hle
        apply h0
        constructor <;> apply Fin.ext
        · show i.val = 0
          omega
        · show j.val = 0
          omega)]
      congr 1
      split_ifs with hij
      · subst hij
        fin_cases i
        · exact absurd ⟨rfl, rfl⟩ h0
        · rfl
        · rfl
        · rfl
      · rfl
  have hlive := C132_live oldChenFolder (diagPlanes fun _ => 1) (diagPlanes fun _ => 2) (Img.zeros 4 4) (Img.zeros 4 4)
    (Img.const 4 4 1) hold (fun _ _ => ⟨rfl, rfl⟩) (fun _ _ => ⟨rfl, rfl⟩) (fun _ => 3)
  rw [if_pos (by
    intro m hm
    unfold NotBegun Completed
    omega), hmix, ite_self] at hlive
  obtain ⟨r, hr, r0, r3⟩ := diag_result ![2, 1, 1, 1]
  obtain ⟨s, hs, s0, s3⟩ := diag_result fun _ => 1
  obtain ⟨t, ht, t0, t3⟩ := diag_result fun _ => 2
  have r0 : r.px 2 2 = 2 := r0
  have r3 : r.px 3 3 = 1 := r3
  rcases hc _ _ (diagPlanes fun _ => 2) _ (Img.zeros 4 4) (Img.const 4 4 1) 3 hold (fun _ _ => ⟨rfl, rfl⟩) (fun _ _ => ⟨rfl, rfl⟩) r (hlive.trans hr) with h | h
  · rw [hs] at h
    injection h with h
    rw [h, r0] at s0
    norm_num at s0
  · rw [ht] at h
    injection h with h
    rw [h, r3] at t3
    norm_num at t3

/-! ## The hypotheses are met -/

/-- A complete old calibration, and an image of its size. -/
example : oldChenFolder.HoldsChen (diagPlanes fun _ => 1) (Img.zeros 4 4) ∧
    ∀ i j, (diagPlanes (fun _ => 1) i j).SameShape (Img.const 4 4 (1 : ℝ)) :=
  ⟨C132_written _ _ _ 51 (by unfold Completed; omega), fun _ _ => ⟨rfl, rfl⟩⟩

/-- An empty folder has no calibration. -/
example : LiveFolder.NoChen (fun _ => none) := ⟨fun _ _ => rfl, rfl⟩

/-- The calibration of the example in an empty folder gives the image of `diag_result`. -/
example : ∃ r, applyChen (fun _ => oldChenFolder) (Img.const 4 4 1) = .ok r ∧ r.px 2 2 = 1 := by
  obtain ⟨r, hr, h0, -⟩ := diag_result fun _ => 1
  exact ⟨r, (C132_roundtrip (fun _ => none) (diagPlanes fun _ => 1) (Img.zeros 4 4) (Img.const 4 4 1) (fun _ _ => ⟨rfl, rfl⟩) (fun _ => 51) (fun _ => by unfold Completed; omega)).trans hr, h0⟩

/-- A file that is rewritten while it is opened: refused. -/
example : applyChen (fun _ => chenFolderAfter oldChenFolder (diagPlanes fun _ => 2) (Img.zeros 4 4) 4) (Img.const 4 4 1) =
    .error .fileNotFoundError := by
  rw [C132_live oldChenFolder (diagPlanes fun _ => 1) (diagPlanes fun _ => 2) (Img.zeros 4 4) (Img.zeros 4 4) (Img.const 4 4 1)
    (C132_written _ _ _ 51 (by unfold Completed; omega)) (fun _ _ => ⟨rfl, rfl⟩) (fun _ _ => ⟨rfl, rfl⟩) (fun _ => 4), if_neg]
  intro h
  have := h 1 (by omega)
  unfold NotBegun Completed at this
  omega

/-- A folder with the twelve files of a tensor, as `C132_spoils_at_once` asks. -/
example (o : CalibOutput ℝ) : UniqueNames (saveCalibration o ⟨[], none⟩).top ∧
    ∀ n, IsComponentName n → n ∈ (saveCalibration o ⟨[], none⟩).top.map Prod.fst := by
  obtain ⟨h1, h2⟩ := saveUntil_top o 27 ⟨[], none⟩ (by unfold UniqueNames; simp) _ (List.Perm.refl _)
  refine ⟨h1, ?_⟩
  rintro n ⟨i, j, rfl⟩
  exact List.mem_map.2 ⟨_, (h2 _).2 (Or.inl (topWrites_component o 27 (by omega) i j)), rfl⟩

/-- The empty folder is fresh. -/
example : FreshFolder ([] : Listing ℝ) := ⟨by unfold UniqueNames; simp, by simp⟩

end Micropol
