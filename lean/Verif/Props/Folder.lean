import Verif.Lemmas.Folder
import Mathlib.Tactic.NormNum
import Mathlib.Tactic.FinCases

/-!
# Loading and saving calibration folders

* C27: what a successful load says about the folder.
* C28: saved calibrations load back exactly.
* C29: interruptions while saving.
-/

set_option autoImplicit false

namespace Micropol

variable {K : Type} [Field K]

/-! ## C27 -/

theorem load_inv {files : Listing K} {D : Demodulator K} (hok : loadDemodulator (some files) = .ok D) :
    ∃ h w st, forList (files.filter (fun e => isFits e.1)) (⟨fun _ _ => Img.zeros h w, none, 0⟩ : LoadState K 3 4)
      (loadBody 3 4 h w) = .ok st ∧ st.found = 12 ∧ D = ⟨st.tensor, st.flags⟩ := by
  unfold loadDemodulator at hok
  dsimp only at hok
  split at hok
  · cases hok
  · split at hok
    · cases hok
    · rw [Py.bind_eq_ok] at hok
      obtain ⟨st, h1, h2⟩ := hok
      split at h2
      · cases h2
      · rename_i hf
        injection h2 with h2
        exact ⟨_, _, st, h1, not_not.1 hf, h2.symm⟩

/-- C27 (part that holds without restriction): a folder that loads has exactly twelve `.fits` files with two
consecutive digits in their names, and these digits are valid component numbers. -/
theorem C27_count {files : Listing K} {D : Demodulator K} (hok : loadDemodulator (some files) = .ok D) :
    ∃ numbered : Listing K, numbered.Sublist files ∧ numbered.length = 12 ∧
      (∀ e ∈ files, e ∈ numbered ↔ ListedFits e.1 ∧ HasDigitPair e.1) ∧
      ∀ e ∈ numbered, ∃ i j, i < 3 ∧ j < 4 ∧ FirstDigits e.1 i j := by
  obtain ⟨h, w, st, hst, hf, rfl⟩ := load_inv hok
  obtain ⟨s1, s2, -, -⟩ := loop_spec _ _ _ hst
  refine ⟨(files.filter (fun e => isFits e.1)).filter (fun e => (twoDigits e.1).isSome), ?_, ?_, ?_, ?_⟩
  · exact List.filter_sublist.trans List.filter_sublist
  · have : ∀ l : Listing K, (digitsOf l).length = (l.filter (fun e => (twoDigits e.1).isSome)).length := by
      intro l
      induction l with
      | nil => rfl
      | cons e l ih =>
        unfold digitsOf at ih ⊢
        rw [List.filterMap_cons, List.filter_cons]
        cases hd : twoDigits e.1 with
        | none => simpa using ih
        | some d => simpa using ih
    rw [← this]
    dsimp only at s1
    omega
  · intro e he
    rw [List.mem_filter, List.mem_filter, isFits_iff, twoDigits_isSome]
    tauto
  · intro e he
    rw [List.mem_filter] at he
    obtain ⟨⟨i, j⟩, hd⟩ := Option.isSome_iff_exists.1 he.2
    obtain ⟨hi, hj⟩ := s2 _ (mem_digitsOf.2 ⟨e, he.1, hd⟩)
    exact ⟨i, j, hi, hj, twoDigits_some.1 hd⟩

/-- C27, for folders in which no two `.fits` files carry the same digits: every component of a loaded tensor was read
from a file of the folder whose name carries the digits of the component (a file with a side of length 1 is repeated
along that side).  Missing from the full property: folders with repeated digits, see `C27_full_claim_false`. -/
theorem C27_complete_partial {files : Listing K} {D : Demodulator K} (hok : loadDemodulator (some files) = .ok D)
    (hdup : files.Pairwise (fun e e' => ListedFits e.1 → ListedFits e'.1 →
      ∀ i j, FirstDigits e.1 i j → ¬FirstDigits e'.1 i j)) :
    ∃ h w, ∀ (i : Fin 3) (j : Fin 4), (D.mij i j).HasShape h w ∧
      ∃ e ∈ files, ListedFits e.1 ∧ FirstDigits e.1 i j ∧ (e.2.h = h ∨ e.2.h = 1) ∧ (e.2.w = w ∨ e.2.w = 1) ∧
        ∀ y x, y < h → x < w →
          (D.mij i j).px y x = e.2.px (if e.2.h = 1 then 0 else y) (if e.2.w = 1 then 0 else x) := by
  obtain ⟨h, w, st, hst, hf, rfl⟩ := load_inv hok
  obtain ⟨s1, s2, s3, -⟩ := loop_spec _ _ _ hst
  refine ⟨h, w, ?_⟩
  have hn : (digitsOf (files.filter (fun e => isFits e.1))).Nodup := by
    unfold digitsOf
    rw [List.Nodup, List.pairwise_filterMap]
    rw [List.pairwise_filter]
    refine hdup.imp ?_
    intro e e' hee h1 h2 d hd d' hd' heq
    subst heq
    exact hee (isFits_iff.1 h1) (isFits_iff.1 h2) d.1 d.2 (twoDigits_some.1 hd) (twoDigits_some.1 hd')
  dsimp only at s1 s3
  have hlen : (digitsOf (files.filter (fun e => isFits e.1))).length = 3 * 4 := by omega
  intro i j
  rcases s3 i j with ⟨-, hno⟩ | ⟨e, he, hd, hp⟩
  · exact absurd (digits_cover hn s2 hlen i.isLt j.isLt) hno
  · rw [List.mem_filter] at he
    unfold assignPlane at hp
    split at hp
    · rename_i hsh
      injection hp with hp
      dsimp only
      rw [← hp]
      refine ⟨⟨rfl, rfl⟩, e, he.1, isFits_iff.1 he.2, twoDigits_some.1 hd, hsh.1, hsh.2, ?_⟩
      intro y x hy hx
      rw [Img.ofFn_px hy hx]
      rfl
    · cases hp

/-- C27: without repeated digits, a folder that lacks a component is refused. -/
theorem C27_missing_refused_partial {files : Listing K} (i : Fin 3) (j : Fin 4)
    (hmiss : ∀ e ∈ files, ListedFits e.1 → ¬FirstDigits e.1 i j)
    (hdup : files.Pairwise (fun e e' => ListedFits e.1 → ListedFits e'.1 →
      ∀ i j, FirstDigits e.1 i j → ¬FirstDigits e'.1 i j)) :
    ∃ err, loadDemodulator (some files) = .error err := by
  cases hl : loadDemodulator (some files) with
  | error err => exact ⟨err, rfl⟩
  | ok D =>
    obtain ⟨h, w, hall⟩ := C27_complete_partial hl hdup
    obtain ⟨-, e, he, h1, h2, -⟩ := hall i j
    exact absurd h2 (hmiss e he h1)

/-- Twelve numbered files, `M00` twice (as `M00.fits` and `old00.fits`) and no `M23`. -/
def dupFolder : Listing ℚ :=
  [(mName 0 0, Img.const 1 1 5), ('o' :: 'l' :: 'd' :: '0' :: '0' :: fitsExt, Img.const 1 1 7),
   (mName 0 1, Img.const 1 1 5), (mName 0 2, Img.const 1 1 5), (mName 0 3, Img.const 1 1 5),
   (mName 1 0, Img.const 1 1 5), (mName 1 1, Img.const 1 1 5), (mName 1 2, Img.const 1 1 5),
   (mName 1 3, Img.const 1 1 5), (mName 2 0, Img.const 1 1 5), (mName 2 1, Img.const 1 1 5),
   (mName 2 2, Img.const 1 1 5)]

/-- C27: the full claim is false.  This folder lacks component 23, yet it loads, and the component is silently 0. -/
theorem C27_full_claim_false :
    UniqueNames dupFolder ∧ (∀ e ∈ dupFolder, ¬FirstDigits e.1 2 3) ∧
      ∃ D, loadDemodulator (some dupFolder) = .ok D ∧ D.mij 2 3 = Img.zeros 1 1 := by
  refine ⟨?_, ?_, ?_⟩
  · unfold UniqueNames; decide
  · intro e he
    rw [← twoDigits_some]
    have : ∀ n ∈ dupFolder.map Prod.fst, twoDigits n ≠ some (2, 3) := by decide
    exact this _ (List.mem_map_of_mem he)
  · have hfil : dupFolder.filter (fun e => isFits e.1) = dupFolder := by rfl
    obtain ⟨st, hst⟩ := loop_total dupFolder (⟨fun _ _ => Img.zeros 1 1, none, 0⟩ : LoadState ℚ 3 4)
      (h := 1) (w := 1) (by
        have h1 : ∀ n ∈ dupFolder.map Prod.fst, ∀ d ∈ twoDigits n, d.1 < 3 ∧ d.2 < 4 := by decide
        have h2 : ∀ e ∈ dupFolder, e.2.h = 1 ∧ e.2.w = 1 := by
          intro e he
          simp only [dupFolder, List.mem_cons, List.not_mem_nil, or_false] at he
          rcases he with rfl | rfl | rfl | rfl | rfl | rfl | rfl | rfl | rfl | rfl | rfl | rfl <;> exact ⟨rfl, rfl⟩
        intro e he d hd
        exact ⟨h1 _ (List.mem_map_of_mem he) d hd, h2 e he⟩)
    obtain ⟨s1, -, s3, -⟩ := loop_spec _ _ _ hst
    refine ⟨⟨st.tensor, st.flags⟩, ?_, ?_⟩
    · unfold loadDemodulator
      dsimp only
      rw [hfil]
      show (forList dupFolder (⟨fun _ _ => Img.zeros 1 1, none, 0⟩ : LoadState ℚ 3 4) (loadBody 3 4 1 1) >>= _) = _
      rw [hst, Py.ok_bind, if_neg]
      rw [s1]
      decide
    · rcases s3 2 3 with ⟨h1, -⟩ | ⟨e, he, hd, -⟩
      · exact h1
      · exfalso
        have : ∀ n ∈ dupFolder.map Prod.fst, twoDigits n ≠ some (2, 3) := by decide
        exact this _ (List.mem_map_of_mem he) hd

/-! ## C28 -/

theorem topWrites_nodup (o : CalibOutput K) (k : Nat) : ((topWrites ((saveOps o).take k)).map Prod.fst).Nodup := by
  have h : ((topWrites (saveOps o)).map Prod.fst).Nodup := by
    show [mName 0 0, mName 0 1, mName 0 2, mName 0 3, mName 1 0, mName 1 1, mName 1 2, mName 1 3, mName 2 0,
      mName 2 1, mName 2 2, mName 2 3, tkName, effName, phaseName, flagName].Nodup
    decide
  exact h.sublist (((List.take_sublist k _).filterMap _).map _)

theorem topWrites_component (o : CalibOutput K) (k : Nat) (hk : 12 ≤ k) (i : Fin 3) (j : Fin 4) :
    (mName i j, o.mij i j) ∈ topWrites ((saveOps o).take k) := by
  have h12 : (mName i j, o.mij i j) ∈ topWrites ((saveOps o).take 12) := by
    fin_cases i <;> fin_cases j <;> simp [topWrites, saveOps]
  have hsub : ((saveOps o).take 12).Sublist ((saveOps o).take k) := by
    have : (saveOps o).take 12 = ((saveOps o).take k).take 12 := by rw [List.take_take, Nat.min_eq_left hk]
    rw [this]
    exact List.take_sublist _ _
  exact (hsub.filterMap _).subset h12

/-- What `calculate_demodulation_tensor` writes under a name. -/
theorem topWrites_cases (o : CalibOutput K) (k : Nat) (e : Name × Img K) (he : e ∈ topWrites ((saveOps o).take k)) :
    (∃ (i : Fin 3) (j : Fin 4), e = (mName i j, o.mij i j)) ∨ (twoDigits e.1 = none ∧ e.1 ≠ flagName) ∨
      e = (flagName, o.fitFound) := by
  have he : e ∈ topWrites (saveOps o) := ((List.take_sublist k _).filterMap _).subset he
  simp only [topWrites, saveOps, List.filterMap_cons, List.filterMap_nil, List.mem_cons, List.not_mem_nil,
    or_false] at he
  rcases he with rfl | rfl | rfl | rfl | rfl | rfl | rfl | rfl | rfl | rfl | rfl | rfl | rfl | rfl | rfl | rfl
  · exact Or.inl ⟨0, 0, rfl⟩
  · exact Or.inl ⟨0, 1, rfl⟩
  · exact Or.inl ⟨0, 2, rfl⟩
  · exact Or.inl ⟨0, 3, rfl⟩
  · exact Or.inl ⟨1, 0, rfl⟩
  · exact Or.inl ⟨1, 1, rfl⟩
  · exact Or.inl ⟨1, 2, rfl⟩
  · exact Or.inl ⟨1, 3, rfl⟩
  · exact Or.inl ⟨2, 0, rfl⟩
  · exact Or.inl ⟨2, 1, rfl⟩
  · exact Or.inl ⟨2, 2, rfl⟩
  · exact Or.inl ⟨2, 3, rfl⟩
  · exact Or.inr (Or.inl (by dsimp only; decide))
  · exact Or.inr (Or.inl (by dsimp only; decide))
  · exact Or.inr (Or.inl (by dsimp only; decide))
  · exact Or.inr (Or.inr rfl)

theorem saveUntil_top (o : CalibOutput K) (k : Nat) (f : CalibFolder K) (hf : UniqueNames f.top) (listing : Listing K)
    (hl : listing.Perm (saveUntil o k f).top) :
    (listing.map Prod.fst).Nodup ∧ ∀ e, e ∈ listing ↔ e ∈ topWrites ((saveOps o).take k) ∨
      (e ∈ f.top ∧ e.1 ∉ (topWrites ((saveOps o).take k)).map Prod.fst) := by
  obtain ⟨h1, h2⟩ := run_top ((saveOps o).take k) f hf (topWrites_nodup o k)
  refine ⟨(hl.map _).nodup_iff.2 h1, ?_⟩
  intro e
  rw [hl.mem_iff]
  exact h2 e

/-- After the twelve components have been written the tensor loads completely, whatever was there before. -/
theorem saveUntil_loads (o : CalibOutput K) (h w k : Nat) (hk : 12 ≤ k) (ho : ∀ i j, (o.mij i j).HasShape h w)
    (f : CalibFolder K) (hf : CleanFolder f.top) (listing : Listing K) (hl : listing.Perm (saveUntil o k f).top) :
    ∃ flags, loadDemodulator (some listing) = .ok ⟨o.mij, flags⟩ ∧
      ((flags = none ∧ ∀ e ∈ listing, e.1 ≠ flagName) ∨ ∃ F, (flagName, F) ∈ listing ∧ flags = some F) := by
  obtain ⟨h1, h2⟩ := saveUntil_top o k f hf.1 listing hl
  refine load_complete ho h1 ?_ ?_
  · intro i j
    rw [h2]
    exact Or.inl (topWrites_component o k hk i j)
  · intro e he hfits hdig
    rcases (h2 e).1 he with hw | ⟨hold, -⟩
    · rcases topWrites_cases o k e hw with ⟨i, j, rfl⟩ | ⟨hno, -⟩ | rfl
      · exact ⟨i, j, rfl⟩
      · rw [hno] at hdig; cases hdig
      · rw [twoDigits_flagName] at hdig; cases hdig
    · exact hf.2 e hold (isFits_iff.1 hfits) (twoDigits_isSome.1 hdig)

theorem save_eq (o : CalibOutput K) (f : CalibFolder K) : saveCalibration o f = saveUntil o 27 f := rfl

/-- C28: a saved calibration loads back exactly, tensor and flags, for every directory order and over every earlier
calibration in the same folder. -/
theorem C28_roundtrip (o : CalibOutput K) (h w : Nat) (ho : ∀ i j, (o.mij i j).HasShape h w) (f : CalibFolder K)
    (hf : CleanFolder f.top) (listing : Listing K) (hl : listing.Perm (saveCalibration o f).top) :
    loadDemodulator (some listing) = .ok ⟨o.mij, some o.fitFound⟩ := by
  rw [save_eq] at hl
  obtain ⟨flags, h1, h2⟩ := saveUntil_loads o h w 27 (by decide) ho f hf listing hl
  obtain ⟨h3, h4⟩ := saveUntil_top o 27 f hf.1 listing hl
  have hmem : (flagName, o.fitFound) ∈ listing := (h4 _).2 (Or.inl (by simp [topWrites, saveOps]))
  rcases h2 with ⟨-, hno⟩ | ⟨F, hF, rfl⟩
  · exact absurd rfl (hno _ hmem)
  · have := List.inj_on_of_nodup_map h3 hF hmem rfl
    injection this with _ hF
    rw [h1, hF]

/-- C28: the maps of transmittance, efficiency and phase are read back exactly. -/
theorem C28_maps (o : CalibOutput K) (f : CalibFolder K) (hf : UniqueNames f.top) (listing : Listing K)
    (hl : listing.Perm (saveCalibration o f).top) :
    readFile listing "transmittancies.fits".toList = .ok o.tk ∧
    readFile listing "efficiences.fits".toList = .ok o.eff ∧
    readFile listing "phases.fits".toList = .ok o.phase := by
  rw [save_eq] at hl
  obtain ⟨h3, h4⟩ := saveUntil_top o 27 f hf listing hl
  have key : ∀ n A, (n, A) ∈ listing → readFile listing n = .ok A := by
    intro n A hm
    unfold readFile
    cases hfind : listing.find? (fun e => e.1 = n) with
    | none =>
      rw [List.find?_eq_none] at hfind
      exact absurd (decide_eq_true rfl) (hfind _ hm)
    | some e =>
      have h5 := List.mem_of_find?_eq_some hfind
      have h6 : e.1 = n := by simpa using List.find?_some hfind
      have := List.inj_on_of_nodup_map h3 h5 hm h6
      rw [this]
  exact ⟨key tkName o.tk ((h4 _).2 (Or.inl (by simp [topWrites, saveOps]))),
    key effName o.eff ((h4 _).2 (Or.inl (by simp [topWrites, saveOps]))),
    key phaseName o.phase ((h4 _).2 (Or.inl (by simp [topWrites, saveOps])))⟩

/-- C28: the covariance tensor is read back exactly too (`Demodulator.Cij`), from a subfolder that held nothing or only
files of earlier calibrations. -/
theorem C28_covariance (o : CalibOutput K) (h w : Nat) (ho : ∀ i j, (o.cov i j).HasShape h w)
    (hchi : o.chisq.HasShape h w) (f : CalibFolder K) (hu : UniqueNames (f.cov.getD []))
    (hclean : ∀ e ∈ f.cov.getD [], (∃ i j : Fin 3, e.1 = cName i j) ∨ e.1 = chiName) (listing : Listing K)
    (hl : listing.Perm ((saveCalibration o f).cov.getD [])) :
    loadCovariance (some listing) = .ok (some o.cov) := by
  have hW : covWrites (saveOps o) = [(cName 0 0, o.cov 0 0), (cName 0 1, o.cov 0 1), (cName 0 2, o.cov 0 2),
      (cName 1 0, o.cov 1 0), (cName 1 1, o.cov 1 1), (cName 1 2, o.cov 1 2), (cName 2 0, o.cov 2 0),
      (cName 2 1, o.cov 2 1), (cName 2 2, o.cov 2 2), (chiName, o.chisq)] := rfl
  obtain ⟨h1, h2⟩ := run_cov (saveOps o) f hu (by
    show [cName 0 0, cName 0 1, cName 0 2, cName 1 0, cName 1 1, cName 1 2, cName 2 0, cName 2 1, cName 2 2,
      chiName].Nodup
    decide)
  have hnd : (listing.map Prod.fst).Nodup := (hl.map _).nodup_iff.2 h1
  -- nothing of the earlier contents survives
  have hmem : ∀ e, e ∈ listing ↔ e ∈ covWrites (saveOps o) := by
    intro e
    rw [hl.mem_iff]
    refine (h2 e).trans ?_
    constructor
    · rintro (h | ⟨he, hno⟩)
      · exact h
      · exfalso
        apply hno
        rw [hW]
        rcases hclean e he with ⟨i, j, hij⟩ | hchi
        · rw [hij]
          fin_cases i <;> fin_cases j <;> simp
        · rw [hchi]
          simp
    · exact Or.inl
  have hcases : ∀ e ∈ listing, (∃ i j : Fin 3, e = (cName i j, o.cov i j)) ∨ e = (chiName, o.chisq) := by
    intro e he
    rw [hmem, hW] at he
    simp only [List.mem_cons, List.not_mem_nil, or_false] at he
    rcases he with rfl | rfl | rfl | rfl | rfl | rfl | rfl | rfl | rfl | rfl
    · exact Or.inl ⟨0, 0, rfl⟩
    · exact Or.inl ⟨0, 1, rfl⟩
    · exact Or.inl ⟨0, 2, rfl⟩
    · exact Or.inl ⟨1, 0, rfl⟩
    · exact Or.inl ⟨1, 1, rfl⟩
    · exact Or.inl ⟨1, 2, rfl⟩
    · exact Or.inl ⟨2, 0, rfl⟩
    · exact Or.inl ⟨2, 1, rfl⟩
    · exact Or.inl ⟨2, 2, rfl⟩
    · exact Or.inr rfl
  have hin : ∀ i j : Fin 3, (cName i j, o.cov i j) ∈ listing := by
    intro i j
    rw [hmem, hW]
    fin_cases i <;> fin_cases j <;> simp
  have hchiD : twoDigits chiName = none := by decide
  have hfilter : listing.filter (fun e => e.1.head? != some '.') = listing := by
    rw [List.filter_eq_self]
    intro e he
    rcases hcases e he with ⟨i, j, rfl⟩ | rfl
    · rfl
    · rfl
  unfold loadCovariance
  rw [Option.getD_some, hfilter]
  have hshape : ∀ e ∈ listing, e.2.HasShape h w := by
    intro e he
    rcases hcases e he with ⟨i, j, rfl⟩ | rfl
    · exact ho i j
    · exact hchi
  cases hlist : listing with
  | nil =>
    have := hin 0 0
    rw [hlist] at this
    simp at this
  | cons sample rest =>
    dsimp only
    obtain ⟨hs1, hs2⟩ := hshape sample (by rw [hlist]; simp)
    rw [hs1, hs2, ← hlist]
    obtain ⟨st, hst⟩ := loop_total listing (⟨fun _ _ => Img.zeros h w, none, 0⟩ : LoadState K 3 3)
      (h := h) (w := w) (by
        intro e he d hd
        refine ⟨?_, hshape e he⟩
        rcases hcases e he with ⟨i, j, rfl⟩ | rfl
        · rw [twoDigits_cName] at hd
          injection hd with hd
          subst hd
          exact ⟨i.isLt, j.isLt⟩
        · rw [hchiD] at hd; cases hd)
    obtain ⟨s1, s2, s3, -⟩ := loop_spec _ _ _ hst
    rw [hst, Py.ok_bind]
    have hlen : (digitsOf listing).length = 3 * 3 := by
      refine digits_length (digits_nodup hnd ?_) s2 ?_
      · intro e he e' he' d hd hd'
        rcases hcases e he with ⟨i, j, rfl⟩ | rfl
        · rcases hcases e' he' with ⟨i', j', rfl⟩ | rfl
          · rw [twoDigits_cName] at hd hd'
            rw [← hd'] at hd
            injection hd with hd
            injection hd with ha hb
            rw [Fin.ext ha, Fin.ext hb]
          · rw [hchiD] at hd'; cases hd'
        · rw [hchiD] at hd; cases hd
      · intro i j hi hj
        rw [mem_digitsOf]
        exact ⟨_, hin ⟨i, hi⟩ ⟨j, hj⟩, twoDigits_cName ⟨i, hi⟩ ⟨j, hj⟩⟩
    rw [if_neg (by rw [s1, hlen]; simp)]
    congr 2
    funext a b
    rcases s3 a b with ⟨-, hno⟩ | ⟨e, he, hd, hp⟩
    · exfalso
      apply hno
      rw [mem_digitsOf]
      exact ⟨_, hin a b, twoDigits_cName a b⟩
    · rcases hcases e he with ⟨i, j, rfl⟩ | rfl
      · rw [twoDigits_cName] at hd
        injection hd with hd
        injection hd with ha hb
        have ha := Fin.ext ha
        have hb := Fin.ext hb
        subst ha hb
        rw [assignPlane_same (ho i j)] at hp
        injection hp with hp
        exact hp.symm
      · rw [hchiD] at hd; cases hd

/-- C28: the names and contents of the files that a calibration leaves in an empty folder and in its subfolder `covariance_tensor`. -/
theorem C28_files (o : CalibOutput K) : ∃ c, (saveCalibration o ⟨[], none⟩).cov = some c ∧
    UniqueNames (saveCalibration o ⟨[], none⟩).top ∧ UniqueNames c ∧
    (∀ e, e ∈ (saveCalibration o ⟨[], none⟩).top ↔ e ∈
      [("M00.fits".toList, o.mij 0 0), ("M01.fits".toList, o.mij 0 1), ("M02.fits".toList, o.mij 0 2), ("M03.fits".toList, o.mij 0 3),
       ("M10.fits".toList, o.mij 1 0), ("M11.fits".toList, o.mij 1 1), ("M12.fits".toList, o.mij 1 2), ("M13.fits".toList, o.mij 1 3),
       ("M20.fits".toList, o.mij 2 0), ("M21.fits".toList, o.mij 2 1), ("M22.fits".toList, o.mij 2 2), ("M23.fits".toList, o.mij 2 3),
       ("transmittancies.fits".toList, o.tk), ("efficiences.fits".toList, o.eff), ("phases.fits".toList, o.phase),
       ("fit_found_flag.fits".toList, o.fitFound)]) ∧
    ∀ e, e ∈ c ↔ e ∈
      [("C00.fits".toList, o.cov 0 0), ("C01.fits".toList, o.cov 0 1), ("C02.fits".toList, o.cov 0 2),
       ("C10.fits".toList, o.cov 1 0), ("C11.fits".toList, o.cov 1 1), ("C12.fits".toList, o.cov 1 2),
       ("C20.fits".toList, o.cov 2 0), ("C21.fits".toList, o.cov 2 1), ("C22.fits".toList, o.cov 2 2),
       ("reduced_chisquare.fits".toList, o.chisq)] := by
  have hW : covWrites (saveOps o) = [(cName 0 0, o.cov 0 0), (cName 0 1, o.cov 0 1), (cName 0 2, o.cov 0 2),
      (cName 1 0, o.cov 1 0), (cName 1 1, o.cov 1 1), (cName 1 2, o.cov 1 2), (cName 2 0, o.cov 2 0),
      (cName 2 1, o.cov 2 1), (cName 2 2, o.cov 2 2), (chiName, o.chisq)] := rfl
  obtain ⟨h1, h2⟩ := run_cov (saveOps o) ⟨[], none⟩ (by simp) (by
    show [cName 0 0, cName 0 1, cName 0 2, cName 1 0, cName 1 1, cName 1 2, cName 2 0, cName 2 1, cName 2 2,
      chiName].Nodup
    decide)
  obtain ⟨g1, g2⟩ := saveUntil_top o 27 ⟨[], none⟩ (by unfold UniqueNames; simp) _ (List.Perm.refl _)
  rw [← save_eq] at g1 g2
  have hc : ∃ c, (saveCalibration o ⟨[], none⟩).cov = some c := ⟨_, rfl⟩
  obtain ⟨c, hc⟩ := hc
  have hc' : ((saveOps o).foldl FileOp.run ⟨[], none⟩).cov = some c := hc
  rw [hc'] at h1 h2
  refine ⟨c, hc, g1, h1, fun e => ?_, fun e => ?_⟩
  · rw [g2 e]
    exact ⟨fun h => h.elim id fun h => absurd h.1 List.not_mem_nil, Or.inl⟩
  · refine (h2 e).trans ?_
    exact ⟨fun h => h.elim id fun h => absurd h.1 List.not_mem_nil, Or.inl⟩

/-- C28: calibrating twice into the same folder leaves what the second calibration alone would have left. -/
theorem C28_overwrite (o o' : CalibOutput K) (h w : Nat) (ho : ∀ i j, (o.mij i j).HasShape h w) (f : CalibFolder K)
    (hf : CleanFolder f.top) (listing : Listing K)
    (hl : listing.Perm (saveCalibration o (saveCalibration o' f)).top) :
    loadDemodulator (some listing) = .ok ⟨o.mij, some o.fitFound⟩ := by
  refine C28_roundtrip o h w ho (saveCalibration o' f) ⟨?_, ?_⟩ listing hl
  · exact (saveUntil_top o' 27 f hf.1 _ (List.Perm.refl _)).1
  · intro e he h1 h2
    rcases ((saveUntil_top o' 27 f hf.1 _ (List.Perm.refl _)).2 e).1 he with hw | ⟨hold, -⟩
    · rcases topWrites_cases o' 27 e hw with ⟨i, j, rfl⟩ | ⟨hno, -⟩ | rfl
      · exact ⟨i, j, rfl⟩
      · exact absurd h2 (twoDigits_none.1 hno)
      · exact absurd h2 (twoDigits_none.1 twoDigits_flagName)
    · exact hf.2 e hold h1 h2

/-! ## C29 -/

/-- C29: an interruption between any two file writes into a folder without numbered files leaves a folder whose load
fails or gives the full new tensor. -/
theorem C29_interrupted (o : CalibOutput K) (h w : Nat) (ho : ∀ i j, (o.mij i j).HasShape h w) (f : CalibFolder K)
    (hf : FreshFolder f.top) (k : Nat) (listing : Listing K) (hl : listing.Perm (saveUntil o k f).top) :
    (∃ err, loadDemodulator (some listing) = .error err) ∨
    ∃ flags, loadDemodulator (some listing) = .ok ⟨o.mij, flags⟩ := by
  by_cases hk : 12 ≤ k
  · right
    obtain ⟨flags, h1, -⟩ := saveUntil_loads o h w k hk ho f
      ⟨hf.1, fun e he h1 h2 => absurd h2 (hf.2 e he h1)⟩ listing hl
    exact ⟨flags, h1⟩
  · left
    obtain ⟨h1, h2⟩ := saveUntil_top o k f hf.1 listing hl
    -- a numbered file in the folder is a component written before the interruption
    have hnum : ∀ e ∈ listing, ListedFits e.1 → HasDigitPair e.1 →
        e ∈ topWrites ((saveOps o).take k) ∧ ∃ (i : Fin 3) (j : Fin 4), e = (mName i j, o.mij i j) := by
      intro e he hfits hdig
      rcases (h2 e).1 he with hw | ⟨hold, -⟩
      · refine ⟨hw, ?_⟩
        rcases topWrites_cases o k e hw with h | ⟨hno, -⟩ | rfl
        · exact h
        · exact absurd hdig (twoDigits_none.1 hno)
        · exact absurd hdig (twoDigits_none.1 twoDigits_flagName)
      · exact absurd hdig (hf.2 e hold hfits)
    refine C27_missing_refused_partial 2 3 ?_ ?_
    · intro e he hfits hd
      have hpair : HasDigitPair e.1 := twoDigits_isSome.1 (by rw [twoDigits_some.2 hd]; rfl)
      obtain ⟨hw, i, j, rfl⟩ := hnum e he hfits hpair
      have := twoDigits_some.2 hd
      rw [twoDigits_mName] at this
      injection this with this
      injection this with hi hj
      have hi : i = 2 := Fin.ext hi
      have hj : j = 3 := Fin.ext hj
      subst hi hj
      have hsub : ((saveOps o).take k).Sublist ((saveOps o).take 11) := by
        have : (saveOps o).take k = ((saveOps o).take 11).take k := by
          rw [List.take_take, Nat.min_eq_left (by omega)]
        rw [this]
        exact List.take_sublist _ _
      have hmem := List.mem_map_of_mem (f := Prod.fst) ((hsub.filterMap _).subset hw)
      have hno : mName 2 3 ∉ (topWrites ((saveOps o).take 11)).map Prod.fst := by
        show mName 2 3 ∉ [mName 0 0, mName 0 1, mName 0 2, mName 0 3, mName 1 0, mName 1 1, mName 1 2, mName 1 3,
          mName 2 0, mName 2 1, mName 2 2]
        decide
      exact hno hmem
    · have hpw : listing.Pairwise (fun e e' => e.1 ≠ e'.1) := List.pairwise_map.1 h1
      refine hpw.imp_of_mem ?_
      intro e e' he he' hne hf1 hf2 i j hd hd'
      have p1 : HasDigitPair e.1 := twoDigits_isSome.1 (by rw [twoDigits_some.2 hd]; rfl)
      have p2 : HasDigitPair e'.1 := twoDigits_isSome.1 (by rw [twoDigits_some.2 hd']; rfl)
      obtain ⟨-, a, b, rfl⟩ := hnum e he hf1 p1
      obtain ⟨-, a', b', rfl⟩ := hnum e' he' hf2 p2
      have e1 := twoDigits_some.2 hd
      have e2 := twoDigits_some.2 hd'
      rw [twoDigits_mName] at e1 e2
      rw [← e2] at e1
      injection e1 with e1
      injection e1 with ea eb
      exact hne (by rw [Fin.ext ea, Fin.ext eb])

/-- C29, violation: an interruption after the twelve components and before the flag file leaves a folder that loads
without fit flags, although the calibration had them. -/
theorem C29_flags_lost (o : CalibOutput K) (h w : Nat) (ho : ∀ i j, (o.mij i j).HasShape h w)
    (k : Nat) (hk : 12 ≤ k) (hk' : k ≤ 25) (listing : Listing K) (hl : listing.Perm (saveUntil o k ⟨[], none⟩).top) :
    loadDemodulator (some listing) = .ok ⟨o.mij, none⟩ := by
  obtain ⟨flags, h1, h2⟩ := saveUntil_loads o h w k hk ho ⟨[], none⟩ ⟨by unfold UniqueNames; simp, by simp⟩ listing hl
  rcases h2 with ⟨rfl, -⟩ | ⟨F, hF, -⟩
  · exact h1
  · exfalso
    rw [(saveUntil_top o k _ (by unfold UniqueNames; simp) listing hl).2] at hF
    rcases hF with hF | ⟨hF, -⟩
    · have hsub : ((saveOps o).take k).Sublist ((saveOps o).take 25) := by
        have : (saveOps o).take k = ((saveOps o).take 25).take k := by
          rw [List.take_take, Nat.min_eq_left hk']
        rw [this]
        exact List.take_sublist _ _
      have hmem := List.mem_map_of_mem (f := Prod.fst) ((hsub.filterMap _).subset hF)
      have hno : flagName ∉ (topWrites ((saveOps o).take 25)).map Prod.fst := by
        show flagName ∉ [mName 0 0, mName 0 1, mName 0 2, mName 0 3, mName 1 0, mName 1 1, mName 1 2, mName 1 3,
          mName 2 0, mName 2 1, mName 2 2, mName 2 3, tkName, effName, phaseName]
        decide
      exact hno hmem
    · simp at hF

/-- C29, violation: interrupting a second calibration after its first write mixes the two calibrations: component 00
is new, the other eleven and the flags are old, and the folder loads without complaint. -/
theorem C29_mixes_calibrations (old new : CalibOutput K) (h w : Nat) (hold : ∀ i j, (old.mij i j).HasShape h w)
    (hnew : ∀ i j, (new.mij i j).HasShape h w) (listing : Listing K)
    (hl : listing.Perm (saveUntil new 1 (saveCalibration old ⟨[], none⟩)).top) :
    loadDemodulator (some listing) =
      .ok ⟨fun i j => if i = 0 ∧ j = 0 then new.mij i j else old.mij i j, some old.fitFound⟩ := by
  have hu0 : UniqueNames (⟨[], none⟩ : CalibFolder K).top := by unfold UniqueNames; simp
  obtain ⟨a1, a2⟩ := saveUntil_top old 27 ⟨[], none⟩ hu0 _ (List.Perm.refl _)
  obtain ⟨b1, b2⟩ := saveUntil_top new 1 (saveCalibration old ⟨[], none⟩) a1 listing hl
  have hw1 : topWrites ((saveOps new).take 1) = [(mName 0 0, new.mij 0 0)] := rfl
  have hmem : ∀ e, e ∈ listing ↔ e = (mName 0 0, new.mij 0 0) ∨
      (e ∈ topWrites ((saveOps old).take 27) ∧ e.1 ≠ mName 0 0) := by
    intro e
    have a2' := a2 e
    rw [b2 e, hw1]
    simp only [List.mem_singleton, List.map_cons, List.map_nil]
    refine or_congr_right (and_congr_left' ?_)
    rw [save_eq, a2']
    constructor
    · rintro (h | ⟨h, -⟩)
      · exact h
      · simp at h
    · exact Or.inl
  obtain ⟨flags, c1, c2⟩ := load_complete (listing := listing) (h := h) (w := w)
    (mij := fun i j => if i = 0 ∧ j = 0 then new.mij i j else old.mij i j) (by
      intro i j
      split
      · exact hnew i j
      · exact hold i j) b1 (by
      intro i j
      rw [hmem]
      by_cases hij : i = 0 ∧ j = 0
      · left
        rw [if_pos hij, hij.1, hij.2]
        rfl
      · right
        rw [if_neg hij]
        refine ⟨topWrites_component old 27 (by decide) i j, ?_⟩
        intro heq
        have h1 := twoDigits_mName i j
        rw [show mName i j = mName 0 0 from heq] at h1
        have h2 := twoDigits_mName 0 0
        rw [show twoDigits (mName 0 0) = some (0, 0) from h2] at h1
        injection h1 with h1
        injection h1 with h3 h4
        exact hij ⟨Fin.ext h3.symm, Fin.ext h4.symm⟩) (by
      intro e he _ hd
      rcases (hmem e).1 he with rfl | ⟨hw', -⟩
      · exact ⟨0, 0, rfl⟩
      · rcases topWrites_cases old 27 e hw' with ⟨i, j, rfl⟩ | ⟨hno, -⟩ | rfl
        · exact ⟨i, j, rfl⟩
        · rw [hno] at hd; cases hd
        · rw [twoDigits_flagName] at hd; cases hd)
  have hF : (flagName, old.fitFound) ∈ listing :=
    (hmem _).2 (Or.inr ⟨by simp [topWrites, saveOps], (mName_ne_flag 0 0).symm⟩)
  rcases c2 with ⟨-, hno⟩ | ⟨F, hF', rfl⟩
  · exact absurd rfl (hno _ hF)
  · have := List.inj_on_of_nodup_map b1 hF' hF rfl
    injection this with _ hFF
    rw [c1, hFF]

/-! ## Non-vacuity -/

/-- A calibration whose components are all different. -/
def exOutput : CalibOutput ℚ where
  mij := fun i j => Img.const 2 3 (10 * i.val + j.val)
  cov := fun i j => Img.const 2 3 (i.val * j.val)
  tk := Img.const 4 6 1
  eff := Img.const 4 6 2
  phase := Img.const 4 6 3
  fitFound := Img.const 2 3 1
  chisq := Img.const 2 3 4

example : ∀ i j, (exOutput.mij i j).HasShape 2 3 := fun _ _ => ⟨rfl, rfl⟩
example : loadCovariance (some ((saveCalibration exOutput ⟨[], none⟩).cov.getD [])) = .ok (some exOutput.cov) :=
  C28_covariance exOutput 2 3 (fun _ _ => ⟨rfl, rfl⟩) ⟨rfl, rfl⟩ ⟨[], none⟩ (by unfold UniqueNames; simp) (by simp) _
    (List.Perm.refl _)
example : FreshFolder ([(['a', '1'] ++ fitsExt, Img.const 1 1 0), (['n', 'o', '1', '2'], Img.const 1 1 0)] : Listing ℚ) := by
  refine ⟨by unfold UniqueNames; decide, ?_⟩
  intro e he
  simp only [List.mem_cons, List.not_mem_nil, or_false] at he
  rcases he with rfl | rfl
  · intro _
    rw [← twoDigits_none]
    decide
  · rw [← isFits_iff]
    intro h
    exact absurd h (by decide)
/-- The result of a first calibration is a folder over which a second one may be written. -/
example : CleanFolder (saveCalibration exOutput ⟨[], none⟩).top := by
  have h0 : UniqueNames (⟨[], none⟩ : CalibFolder ℚ).top := by unfold UniqueNames; simp
  refine ⟨(saveUntil_top exOutput 27 ⟨[], none⟩ h0 _ (List.Perm.refl _)).1, ?_⟩
  intro e he h1 h2
  rcases ((saveUntil_top exOutput 27 ⟨[], none⟩ h0 _ (List.Perm.refl _)).2 e).1 he with hw | ⟨hold, -⟩
  · rcases topWrites_cases exOutput 27 e hw with ⟨i, j, rfl⟩ | ⟨hno, -⟩ | rfl
    · exact ⟨i, j, rfl⟩
    · exact absurd h2 (twoDigits_none.1 hno)
    · exact absurd h2 (twoDigits_none.1 twoDigits_flagName)
  · simp at hold
example : ∃ D, loadDemodulator (some (saveCalibration exOutput ⟨[], none⟩).top.reverse) = .ok D ∧
    (D.mij 2 3).px 1 2 = 23 := by
  refine ⟨_, C28_roundtrip exOutput 2 3 (fun _ _ => ⟨rfl, rfl⟩) ⟨[], none⟩
    ⟨by unfold UniqueNames; simp, by simp⟩ _ (List.reverse_perm _), ?_⟩
  norm_num [exOutput, Img.const, Img.ofFn_px']
example : FirstDigits ("M23.fits".toList) 2 3 := twoDigits_some.1 (by decide)
example : FirstDigits ("run1_M07_old12.fits".toList) 0 7 := twoDigits_some.1 (by decide)

end Micropol
