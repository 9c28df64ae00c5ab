import Verif.Model.ChenFolder
import Verif.Spec.ChenFolder
import Verif.Lemmas.LiveFolder
import Verif.Props.Folder

/-! # Auxiliary facts about the files of a Chen-Wang-Liang calibration -/

set_option autoImplicit false

namespace Micropol

section
variable {K : Type} [Field K]

/-- A folder that holds twelve components under other names and no other numbered `.fits` file. -/
theorem load_named {nm : Fin 3 → Fin 4 → Name} (hnm : ∀ i j, twoDigits (nm i j) = some (i.val, j.val))
    (hfitsn : ∀ i j, isFits (nm i j) = true) {listing : Listing K} {mij : Fin 3 → Fin 4 → Img K} {h w : Nat}
    (hshape : ∀ i j, (mij i j).HasShape h w)
    (hn : (listing.map Prod.fst).Nodup)
    (hall : ∀ (i : Fin 3) (j : Fin 4), (nm i j, mij i j) ∈ listing)
    (honly : ∀ e ∈ listing, isFits e.1 = true → (twoDigits e.1).isSome →
      ∃ (i : Fin 3) (j : Fin 4), e.1 = nm i j) :
    ∃ flags, loadDemodulator (some listing) = .ok ⟨mij, flags⟩ ∧
      ((flags = none ∧ ∀ e ∈ listing, e.1 ≠ flagName) ∨ ∃ F, (flagName, F) ∈ listing ∧ flags = some F) := by
  -- contents are determined by the names
  have huniq : ∀ e ∈ listing, ∀ e' ∈ listing, e.1 = e'.1 → e = e' := by
    intro e he e' he' heq
    exact List.inj_on_of_nodup_map hn he he' heq
  have hnum : ∀ e ∈ listing.filter (fun e => isFits e.1), ∀ d, twoDigits e.1 = some d →
      ∃ (i : Fin 3) (j : Fin 4), e = (nm i j, mij i j) ∧ d = (i.val, j.val) := by
    intro e he d hd
    rw [List.mem_filter] at he
    obtain ⟨i, j, hij⟩ := honly e he.1 he.2 (by rw [hd]; rfl)
    refine ⟨i, j, huniq e he.1 _ (hall i j) hij, ?_⟩
    rw [hij, hnm] at hd
    injection hd with hd
    exact hd.symm
  have hin : ∀ (i : Fin 3) (j : Fin 4), (nm i j, mij i j) ∈ listing.filter (fun e => isFits e.1) := by
    intro i j
    rw [List.mem_filter]
    exact ⟨hall i j, hfitsn i j⟩
  unfold loadDemodulator
  dsimp only
  generalize hnames : listing.filter (fun e => isFits e.1) = names at *
  rw [if_neg (by
    intro h0
    rw [List.isEmpty_iff] at h0
    rw [h0] at hin
    exact absurd (hin 0 0) (by simp))]
  cases hfind : names.find? (fun e => (twoDigits e.1).isSome) with
  | none =>
    exfalso
    rw [List.find?_eq_none] at hfind
    have := hfind _ (hin 0 0)
    dsimp only at this
    rw [hnm 0 0] at this
    exact this rfl
  | some sample =>
    dsimp only
    have hs1 := List.mem_of_find?_eq_some hfind
    have hs2 := List.find?_some hfind
    obtain ⟨d, hd⟩ := Option.isSome_iff_exists.1 hs2
    obtain ⟨i0, j0, hs, -⟩ := hnum sample hs1 d hd
    have hsh : sample.2.HasShape h w := by rw [hs]; exact hshape i0 j0
    obtain ⟨hsh1, hsh2⟩ := hsh
    rw [hsh1, hsh2]
    obtain ⟨st, hst⟩ := loop_total names (⟨fun _ _ => Img.zeros h w, none, 0⟩ : LoadState K 3 4)
      (h := h) (w := w) (by
        intro e he d hd
        obtain ⟨i, j, rfl, rfl⟩ := hnum e he d hd
        exact ⟨⟨i.isLt, j.isLt⟩, hshape i j⟩)
    obtain ⟨s1, s2, s3, s4⟩ := loop_spec _ _ _ hst
    rw [hst, Py.ok_bind]
    have hnn : (names.map Prod.fst).Nodup := by
      rw [← hnames]
      exact hn.sublist (List.filter_sublist.map _)
    have hlen : (digitsOf names).length = 3 * 4 := by
      refine digits_length (digits_nodup hnn ?_) s2 ?_
      · intro e he e' he' d hd hd'
        obtain ⟨i, j, rfl, rfl⟩ := hnum e he d hd
        obtain ⟨i', j', rfl, heq⟩ := hnum e' he' _ hd'
        injection heq with h1 h2
        rw [Fin.ext h1, Fin.ext h2]
      · intro i j hi hj
        rw [mem_digitsOf]
        exact ⟨_, hin ⟨i, hi⟩ ⟨j, hj⟩, hnm ⟨i, hi⟩ ⟨j, hj⟩⟩
    rw [if_neg (by rw [s1, hlen]; simp)]
    have htensor : st.tensor = mij := by
      funext a b
      rcases s3 a b with ⟨-, h2⟩ | ⟨e, he, hd, hp⟩
      · exfalso
        apply h2
        rw [mem_digitsOf]
        exact ⟨_, hin a b, hnm a b⟩
      · obtain ⟨i, j, rfl, heq⟩ := hnum e he _ hd
        injection heq with h1 h2
        have h1 := Fin.ext h1
        have h2 := Fin.ext h2
        subst h1 h2
        rw [assignPlane_same (hshape a b)] at hp
        injection hp with hp
        exact hp.symm
    refine ⟨st.flags, by rw [htensor], ?_⟩
    rcases s4 with ⟨h1, h2⟩ | ⟨e, he, h1, h2⟩
    · left
      refine ⟨h1, ?_⟩
      intro e he hf
      refine h2 e ?_ hf
      rw [← hnames, List.mem_filter]
      exact ⟨he, by rw [hf]; exact isFits_flagName⟩
    · right
      rw [← hnames, List.mem_filter] at he
      exact ⟨e.2, by rw [← h1]; exact he.1, h2⟩


/-- Files that are written in threes: the state of file number `m` after `k` actions. -/
theorem acts_exact (l : Listing K) (hl : (l.map Prod.fst).Nodup) (f : LiveFolder K) (k m : Nat) (n : Name) (d : Img K)
    (hm : l[m]? = some (n, d)) :
    ((l.flatMap (fun e => [.remove e.1, .create e.1, .finish e.1 e.2])).take k).foldl FolderAct.run f n =
      if k ≤ 3 * m then f n else if k = 3 * m + 1 then none else if k = 3 * m + 2 then some .incomplete else some (.complete d) := by
  induction l generalizing f k m with
  | nil => simp at hm
  | cons e l ih =>
    obtain ⟨a, c⟩ := e
    rw [List.map_cons, List.nodup_cons] at hl
    dsimp only at hl
    rcases m with _ | m
    · rw [List.getElem?_cons_zero, Option.some.injEq, Prod.mk.injEq] at hm
      obtain ⟨rfl, rfl⟩ := hm
      rcases k with _ | _ | _ | k
      · rfl
      · show (if a = a then none else f a) = _
        simp
      · show (if a = a then some LiveFile.incomplete else if a = a then none else f a) = _
        simp
      · rw [if_neg (by omega), if_neg (by omega), if_neg (by omega)]
        have := (acts_state l hl.2 (FolderAct.run (FolderAct.run (FolderAct.run f (.remove a)) (.create a)) (.finish a c)) k a).1 hl.1
        refine Eq.trans this ?_
        show (if a = a then some (LiveFile.complete c) else _) = _
        rw [if_pos rfl]
    · rw [List.getElem?_cons_succ] at hm
      have hne : n ≠ a := by
        rintro rfl
        exact hl.1 (List.mem_map.2 ⟨_, List.mem_of_getElem? hm, rfl⟩)
      rcases k with _ | _ | _ | k
      · rw [if_pos (by omega)]
        rfl
      · rw [if_pos (by omega)]
        show (if n = a then none else f n) = _
        rw [if_neg hne]
      · rw [if_pos (by omega)]
        show (if n = a then some LiveFile.incomplete else if n = a then none else f n) = _
        rw [if_neg hne, if_neg hne]
      · have := ih hl.2 (FolderAct.run (FolderAct.run (FolderAct.run f (.remove a)) (.create a)) (.finish a c)) k m hm
        refine Eq.trans this ?_
        have h0 : FolderAct.run (FolderAct.run (FolderAct.run f (.remove a)) (.create a)) (.finish a c) n = f n := by
          show (if n = a then some (LiveFile.complete c) else if n = a then some LiveFile.incomplete else if n = a then none else f n) = _
          rw [if_neg hne, if_neg hne, if_neg hne]
        rw [h0]
        congr 1
        · exact propext (by omega)
        · congr 1
          · exact propext (by omega)
          · congr 1
            exact propext (by omega)

/-- Saving demodulation tensors leaves other files alone. -/
theorem folderAfter_other (os : List (CalibOutput K)) (f : LiveFolder K) (k : Nat) (n : Name)
    (h : n ∉ [mName 0 0, mName 0 1, mName 0 2, mName 0 3, mName 1 0, mName 1 1, mName 1 2, mName 1 3, mName 2 0,
      mName 2 1, mName 2 2, mName 2 3, tkName, effName, phaseName, flagName]) : folderAfter f os k n = f n := by
  induction os generalizing f k with
  | nil => rw [folderAfter_nil]
  | cons o os ih =>
    have h' : n ∉ (topWrites (saveOps o)).map Prod.fst := by rw [calib_names]; exact h
    by_cases hk : k ≤ 48
    · rw [folderAfter_first f o os hk, (one_calibration f o k n).1 h']
    · rw [folderAfter_later f o os (by omega), ih, folderAfter_first f o [] (le_refl _), (one_calibration f o 48 n).1 h']

end

/-! ## Loops over four -/

theorem chenFour_vals {α : Type} {f : Fin 4 → Py α} {v : Fin 4 → α} (h : ∀ i, f i = .ok (v i)) : chenFour f = .ok v := by
  unfold chenFour
  rw [h 0, h 1, h 2, h 3]
  simp only [Py.ok_bind]
  show Except.ok _ = _
  congr 1
  funext i
  fin_cases i <;> rfl

theorem chenFour_error {α : Type} {f : Fin 4 → Py α} {e : PyErr} (h : ∀ i, (∃ v, f i = .ok v) ∨ f i = .error e)
    (hx : ∃ i, f i = .error e) : chenFour f = .error e := by
  unfold chenFour
  rcases h 0 with ⟨v0, h0⟩ | h0
  · rw [h0, Py.ok_bind]
    rcases h 1 with ⟨v1, h1⟩ | h1
    · rw [h1, Py.ok_bind]
      rcases h 2 with ⟨v2, h2⟩ | h2
      · rw [h2, Py.ok_bind]
        rcases h 3 with ⟨v3, h3⟩ | h3
        · exfalso
          obtain ⟨i, hi⟩ := hx
          fin_cases i
          · cases h0.symm.trans hi
          · cases h1.symm.trans hi
          · cases h2.symm.trans hi
          · cases h3.symm.trans hi
        · rw [h3]; rfl
      · rw [h2]; rfl
    · rw [h1]; rfl
  · rw [h0]; rfl

/-! ## The seventeen files -/

theorem matrixFile_eq (i j : Fin 4) : matrixFile i j = cName i j := rfl

theorem offsetFile_eq : offsetFile = dijName := rfl

theorem chenWrites_names (C : Fin 4 → Fin 4 → Img ℝ) (d : Img ℝ) : (chenWrites C d).map Prod.fst =
    [cName 0 0, cName 0 1, cName 0 2, cName 0 3, cName 1 0, cName 1 1, cName 1 2, cName 1 3, cName 2 0, cName 2 1, cName 2 2,
      cName 2 3, cName 3 0, cName 3 1, cName 3 2, cName 3 3, dijName] := rfl

theorem chenWrites_nodup (C : Fin 4 → Fin 4 → Img ℝ) (d : Img ℝ) : ((chenWrites C d).map Prod.fst).Nodup := by
  rw [chenWrites_names]
  decide

theorem chenWrites_matrix (C : Fin 4 → Fin 4 → Img ℝ) (d : Img ℝ) (i j : Fin 4) :
    (chenWrites C d)[4 * i.val + j.val]? = some (cName i j, C i j) := by
  fin_cases i <;> fin_cases j <;> rfl

theorem chenWrites_offset (C : Fin 4 → Fin 4 → Img ℝ) (d : Img ℝ) : (chenWrites C d)[16]? = some (dijName, d) := rfl

/-- What is read of file `C i j` after `k` actions. -/
theorem readLive_matrix (f : LiveFolder ℝ) (C : Fin 4 → Fin 4 → Img ℝ) (d : Img ℝ) (k : Nat) (i j : Fin 4) :
    readLive (chenFolderAfter f C d k) (cName i j) =
      if k ≤ 3 * (4 * i.val + j.val) then readLive f (cName i j)
      else if 3 * (4 * i.val + j.val + 1) ≤ k then .ok (C i j) else .error .fileNotFoundError := by
  have := acts_exact (chenWrites C d) (chenWrites_nodup C d) f k _ _ _ (chenWrites_matrix C d i j)
  unfold readLive chenFolderAfter chenActs
  rw [this]
  by_cases h1 : k ≤ 3 * (4 * i.val + j.val)
  · rw [if_pos h1, if_pos h1]
  · rw [if_neg h1, if_neg h1]
    by_cases h2 : 3 * (4 * i.val + j.val + 1) ≤ k
    · rw [if_neg (by omega), if_neg (by omega), if_pos h2]
    · rw [if_neg h2]
      by_cases h3 : k = 3 * (4 * i.val + j.val) + 1
      · rw [if_pos h3]
      · rw [if_neg h3, if_pos (by omega)]

/-- What is read of `d_ij.fits` after `k` actions. -/
theorem readLive_offset (f : LiveFolder ℝ) (C : Fin 4 → Fin 4 → Img ℝ) (d : Img ℝ) (k : Nat) :
    readLive (chenFolderAfter f C d k) dijName =
      if k ≤ 48 then readLive f dijName else if 51 ≤ k then .ok d else .error .fileNotFoundError := by
  have := acts_exact (chenWrites C d) (chenWrites_nodup C d) f k _ _ _ (chenWrites_offset C d)
  unfold readLive chenFolderAfter chenActs
  rw [this]
  by_cases h1 : k ≤ 48
  · rw [if_pos h1, if_pos h1]
  · rw [if_neg h1, if_neg h1]
    by_cases h2 : 51 ≤ k
    · rw [if_neg (by omega), if_neg (by omega), if_pos h2]
    · rw [if_neg h2]
      by_cases h3 : k = 49
      · rw [if_pos h3]
      · rw [if_neg h3, if_pos (by omega)]

/-- Applying what was read. -/
theorem applyChen_ok {f : Nat → LiveFolder ℝ} {data d : Img ℝ} {C : Fin 4 → Fin 4 → Img ℝ}
    (hC : ∀ i j, (C i j).SameShape data) (h1 : ∀ i j : Fin 4, readLive (f (4 * i.val + j.val)) (cName i j) = .ok (C i j))
    (h2 : readLive (f 16) dijName = .ok d) : applyChen f data = chenWanLiang C d data := by
  have : readChen f data.h data.w = .ok (C, d) := by
    unfold readChen
    rw [chenFour_vals (v := C) (fun i => chenFour_vals (v := C i) (fun j => by rw [h1 i j, Py.ok_bind, assignPlane_same (hC i j)])),
      Py.ok_bind, h2]
    rfl
  unfold applyChen
  rw [this, Py.ok_bind]

/-- One file is missing and no file has another size. -/
theorem applyChen_missing {f : Nat → LiveFolder ℝ} {data : Img ℝ} {e : PyErr}
    (h1 : ∀ i j : Fin 4, (∃ A : Img ℝ, A.SameShape data ∧ readLive (f (4 * i.val + j.val)) (cName i j) = .ok A) ∨
      readLive (f (4 * i.val + j.val)) (cName i j) = .error e)
    (h2 : (∃ d, readLive (f 16) dijName = .ok d) ∨ readLive (f 16) dijName = .error e)
    (hx : (∃ i j : Fin 4, readLive (f (4 * i.val + j.val)) (cName i j) = .error e) ∨ readLive (f 16) dijName = .error e) :
    applyChen f data = .error e := by
  have hb : ∀ i j : Fin 4, (∃ v, (readLive (f (4 * i.val + j.val)) (cName i j) >>= fun A => assignPlane data.h data.w A) = .ok v) ∨
      (readLive (f (4 * i.val + j.val)) (cName i j) >>= fun A => assignPlane data.h data.w A) = .error e := by
    intro i j
    rcases h1 i j with ⟨A, hA, h⟩ | h
    · exact Or.inl ⟨A, by rw [h, Py.ok_bind, assignPlane_same hA]⟩
    · exact Or.inr (by rw [h]; rfl)
  have : readChen f data.h data.w = .error e := by
    unfold readChen
    by_cases hm : ∃ i j : Fin 4, readLive (f (4 * i.val + j.val)) (cName i j) = .error e
    · obtain ⟨i, j, hij⟩ := hm
      rw [chenFour_error (e := e)]
      · rfl
      · intro i
        by_cases hi : ∃ j : Fin 4, (readLive (f (4 * i.val + j.val)) (cName i j) >>= fun A => assignPlane data.h data.w A) = .error e
        · exact Or.inr (chenFour_error (hb i) hi)
        · push Not at hi
          choose v hv using fun j => (hb i j).resolve_right (hi j)
          exact Or.inl ⟨v, chenFour_vals hv⟩
      · exact ⟨i, chenFour_error (hb i) ⟨j, by rw [hij]; rfl⟩⟩
    · push Not at hm
      choose C hC1 hC2 using fun i j => (h1 i j).resolve_right (hm i j)
      rw [chenFour_vals (v := C) (fun i => chenFour_vals (v := C i) (fun j => by rw [hC2 i j, Py.ok_bind, assignPlane_same (hC1 i j)])),
        Py.ok_bind]
      rcases hx with ⟨i, j, hij⟩ | hx
      · exact absurd hij (hm i j)
      · rw [hx]
        rfl
  unfold applyChen
  rw [this]
  rfl

end Micropol
