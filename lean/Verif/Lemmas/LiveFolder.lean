import Verif.Spec.LiveFolder
import Verif.Props.Folder

/-! # Auxiliary facts about folders that are loaded while they are written -/

set_option autoImplicit false

namespace Micropol

section
variable {K : Type} [Field K]

/-! ## The saving program -/

theorem calibActs_eq (o : CalibOutput K) :
    calibActs o = (topWrites (saveOps o)).flatMap (fun e => [.remove e.1, .create e.1, .finish e.1 e.2]) := rfl

theorem calibActs_length (o : CalibOutput K) : (calibActs o).length = 48 := rfl

theorem startOf_eq (os : List (CalibOutput K)) (c : Nat) (hc : c ≤ os.length) : startOf os c = 48 * c := by
  unfold startOf
  rw [List.length_flatMap, List.map_congr_left (g := fun _ => 48) (fun o _ => calibActs_length o)]
  simp [List.length_take, Nat.min_eq_left hc, Nat.mul_comm]

/-- Files that are written in threes. -/
theorem acts_state (l : Listing K) (hl : (l.map Prod.fst).Nodup) (f : LiveFolder K) (k : Nat) (n : Name) :
    let r := ((l.flatMap (fun e => [.remove e.1, .create e.1, .finish e.1 e.2])).take k).foldl FolderAct.run f n
    (n ∉ l.map Prod.fst → r = f n) ∧
    (3 * l.length ≤ k → ∀ d, (n, d) ∈ l → r = some (.complete d)) ∧
    (r = f n ∨ r = none ∨ r = some .incomplete ∨ ∃ d, (n, d) ∈ l ∧ r = some (.complete d)) := by
  induction l generalizing f k with
  | nil => simp
  | cons e l ih =>
    obtain ⟨a, d⟩ := e
    rw [List.map_cons, List.nodup_cons] at hl
    dsimp only at hl
    rcases k with _ | _ | _ | k
    · refine ⟨fun _ => rfl, fun h => by simp at h, Or.inl rfl⟩
    · by_cases hn : n = a
      · refine ⟨fun h => absurd (by simp [hn]) h, fun h => by simp at h; omega, Or.inr (Or.inl ?_)⟩
        show (if n = a then none else f n) = none
        rw [if_pos hn]
      · have : (if n = a then none else f n) = f n := if_neg hn
        exact ⟨fun _ => this, fun h => by simp at h; omega, Or.inl this⟩
    · by_cases hn : n = a
      · refine ⟨fun h => absurd (by simp [hn]) h, fun h => by simp at h; omega, Or.inr (Or.inr (Or.inl ?_))⟩
        show (if n = a then some LiveFile.incomplete else if n = a then none else f n) = _
        rw [if_pos hn]
      · have : (if n = a then some LiveFile.incomplete else if n = a then none else f n) = f n := by rw [if_neg hn, if_neg hn]
        exact ⟨fun _ => this, fun h => by simp at h; omega, Or.inl this⟩
    · obtain ⟨i1, i2, i3⟩ := ih hl.2 (FolderAct.run (FolderAct.run (FolderAct.run f (.remove a)) (.create a)) (.finish a d)) k
      have hstep : ∀ q, FolderAct.run (FolderAct.run (FolderAct.run f (.remove a)) (.create a)) (.finish a d) q =
          if q = a then some (.complete d) else f q := by
        intro q
        show (if q = a then some (LiveFile.complete d) else if q = a then some LiveFile.incomplete else if q = a then none else f q) = _
        split <;> rfl
      dsimp only at i1 i2 i3 ⊢
      rw [hstep] at i1 i3
      show (_ → ((l.flatMap _).take k).foldl FolderAct.run
          (FolderAct.run (FolderAct.run (FolderAct.run f (.remove a)) (.create a)) (.finish a d)) n = f n) ∧ _
      refine ⟨?_, ?_, ?_⟩
      · intro h
        rw [List.map_cons, List.mem_cons, not_or] at h
        rw [i1 h.2, if_neg h.1]
      · intro h d' hd'
        rw [List.length_cons] at h
        rcases List.mem_cons.1 hd' with he | he
        · injection he with h1 h2
          subst h1 h2
          exact (i1 hl.1).trans (if_pos rfl)
        · exact i2 (by omega) d' he
      · by_cases hn : n = a
        · subst hn
          refine Or.inr (Or.inr (Or.inr ⟨d, by simp, ?_⟩))
          exact (i1 hl.1).trans (if_pos rfl)
        · rw [if_neg hn] at i3
          rcases i3 with h | h | h | ⟨d', h1, h2⟩
          · exact Or.inl h
          · exact Or.inr (Or.inl h)
          · exact Or.inr (Or.inr (Or.inl h))
          · exact Or.inr (Or.inr (Or.inr ⟨d', by simp [h1], h2⟩))

theorem calib_names (o : CalibOutput K) : (topWrites (saveOps o)).map Prod.fst =
    [mName 0 0, mName 0 1, mName 0 2, mName 0 3, mName 1 0, mName 1 1, mName 1 2, mName 1 3, mName 2 0,
      mName 2 1, mName 2 2, mName 2 3, tkName, effName, phaseName, flagName] := rfl

theorem calib_nodup (o : CalibOutput K) : ((topWrites (saveOps o)).map Prod.fst).Nodup := by
  rw [calib_names]
  decide

/-- One calibration. -/
theorem one_calibration (f : LiveFolder K) (o : CalibOutput K) (k : Nat) (n : Name) :
    let r := ((calibActs o).take k).foldl FolderAct.run f n
    (n ∉ (topWrites (saveOps o)).map Prod.fst → r = f n) ∧
    (48 ≤ k → ∀ d, (n, d) ∈ topWrites (saveOps o) → r = some (.complete d)) ∧
    (r = f n ∨ r = none ∨ r = some .incomplete ∨ ∃ d, (n, d) ∈ topWrites (saveOps o) ∧ r = some (.complete d)) := by
  rw [calibActs_eq]
  exact acts_state _ (calib_nodup o) f k n

theorem folderAfter_zero (f : LiveFolder K) (os : List (CalibOutput K)) : folderAfter f os 0 = f := rfl

theorem folderAfter_nil (f : LiveFolder K) (k : Nat) : folderAfter f [] k = f := by
  unfold folderAfter
  simp

theorem folderAfter_first (f : LiveFolder K) (o : CalibOutput K) (os : List (CalibOutput K)) {k : Nat} (hk : k ≤ 48) :
    folderAfter f (o :: os) k = ((calibActs o).take k).foldl FolderAct.run f := by
  unfold folderAfter
  rw [List.flatMap_cons, List.take_append_of_le_length (by rw [calibActs_length]; exact hk)]

theorem folderAfter_later (f : LiveFolder K) (o : CalibOutput K) (os : List (CalibOutput K)) {k : Nat} (hk : 48 ≤ k) :
    folderAfter f (o :: os) k = folderAfter (folderAfter f [o] 48) os (k - 48) := by
  unfold folderAfter
  rw [List.flatMap_cons, List.take_append, List.foldl_append, List.flatMap_singleton, calibActs_length,
    List.take_of_length_le (l := calibActs o) (i := k) (by rw [calibActs_length]; exact hk),
    List.take_of_length_le (l := calibActs o) (i := 48) (by rw [calibActs_length])]

/-- Where the complete files come from. -/
theorem complete_from (os : List (CalibOutput K)) (f : LiveFolder K) (k : Nat) (n : Name) (d : Img K)
    (h : folderAfter f os k n = some (.complete d)) :
    (f n = some (.complete d) ∧ (os ≠ [] → k < 48 ∨ n ∉ [mName 0 0, mName 0 1, mName 0 2, mName 0 3, mName 1 0, mName 1 1, mName 1 2,
      mName 1 3, mName 2 0, mName 2 1, mName 2 2, mName 2 3, tkName, effName, phaseName, flagName])) ∨
    ∃ c, ∃ hc : c < os.length, (n, d) ∈ topWrites (saveOps os[c]) ∧ 48 * c < k ∧ (c + 1 < os.length → k < 48 * (c + 2)) := by
  induction os generalizing f k with
  | nil =>
    rw [folderAfter_nil] at h
    exact Or.inl ⟨h, fun h => absurd rfl h⟩
  | cons o os ih =>
    by_cases hk : k < 48
    · rw [folderAfter_first f o os hk.le] at h
      obtain ⟨-, -, h3⟩ := one_calibration f o k n
      rw [h] at h3
      rcases h3 with h3 | h3 | h3 | ⟨d', h4, h5⟩
      · exact Or.inl ⟨h3.symm, fun _ => Or.inl hk⟩
      · cases h3
      · cases h3
      · injection h5 with h5
        injection h5 with h5
        subst h5
        by_cases hk0 : k = 0
        · subst hk0
          exact Or.inl ⟨h, fun _ => Or.inl (by omega)⟩
        · exact Or.inr ⟨0, by simp, h4, by omega, fun _ => by omega⟩
    · rw [folderAfter_later f o os (by omega)] at h
      rcases ih _ _ h with ⟨h1, h2⟩ | ⟨c, hc, h1, h2, h3⟩
      · rw [folderAfter_first f o [] (le_refl _)] at h1
        obtain ⟨o1, o2, o3⟩ := one_calibration f o 48 n
        by_cases hn : n ∈ (topWrites (saveOps o)).map Prod.fst
        · obtain ⟨e, he, hen⟩ := List.mem_map.1 hn
          obtain ⟨n', d'⟩ := e
          dsimp only at hen
          subst hen
          rw [o2 (le_refl _) d' he] at h1
          injection h1 with h1
          injection h1 with h1
          subst h1
          refine Or.inr ⟨0, by simp, he, by omega, fun hlen => ?_⟩
          have hne : os ≠ [] := by
            rintro rfl
            simp at hlen
          rcases h2 hne with h2 | h2
          · omega
          · rw [calib_names] at hn
            exact absurd hn h2
        · rw [o1 hn] at h1
          exact Or.inl ⟨h1, fun _ => Or.inr (by rw [calib_names] at hn; exact hn)⟩
      · refine Or.inr ⟨c + 1, by simp [hc], h1, by omega, fun hlen => ?_⟩
        rw [List.length_cons] at hlen
        have := h3 (by omega)
        omega

/-- Which files there are. -/
theorem files_from (os : List (CalibOutput K)) (f : LiveFolder K) (k : Nat) (n : Name) (h : folderAfter f os k n ≠ none) :
    f n ≠ none ∨ n ∈ [mName 0 0, mName 0 1, mName 0 2, mName 0 3, mName 1 0, mName 1 1, mName 1 2, mName 1 3, mName 2 0,
      mName 2 1, mName 2 2, mName 2 3, tkName, effName, phaseName, flagName] := by
  induction os generalizing f k with
  | nil =>
    rw [folderAfter_nil] at h
    exact Or.inl h
  | cons o os ih =>
    by_cases hn : n ∈ (topWrites (saveOps o)).map Prod.fst
    · rw [calib_names] at hn
      exact Or.inr hn
    · by_cases hk : k ≤ 48
      · rw [folderAfter_first f o os hk, (one_calibration f o k n).1 hn] at h
        exact Or.inl h
      · rw [folderAfter_later f o os (by omega)] at h
        rcases ih _ _ h with h | h
        · rw [folderAfter_first f o [] (le_refl _), (one_calibration f o 48 n).1 hn] at h
          exact Or.inl h
        · exact Or.inr h

/-- Right after a calibration was saved its files are complete. -/
theorem complete_after (os : List (CalibOutput K)) (f : LiveFolder K) (c : Nat) (hc : c < os.length) (k : Nat)
    (hk : k = 48 * (c + 1) ∨ (c + 1 = os.length ∧ 48 * (c + 1) ≤ k)) {n : Name} {d : Img K} (h : (n, d) ∈ topWrites (saveOps os[c])) :
    folderAfter f os k n = some (.complete d) := by
  induction os generalizing f c k with
  | nil => cases hc
  | cons o os ih =>
    rcases c with _ | c
    · have h48 : folderAfter f [o] 48 n = some (.complete d) := by
        rw [folderAfter_first f o [] (le_refl _)]
        exact (one_calibration f o 48 n).2.1 (le_refl _) d h
      rw [folderAfter_later f o os (by omega)]
      rcases hk with hk | ⟨hk, -⟩
      · rw [show k - 48 = 0 by omega, folderAfter_zero]
        exact h48
      · rw [List.length_cons] at hk
        rw [List.length_eq_zero_iff.1 (show os.length = 0 by omega), folderAfter_nil]
        exact h48
    · rw [folderAfter_later f o os (by omega)]
      refine ih _ c (by simpa using hc) (k - 48) ?_ h
      rcases hk with hk | ⟨h1, h2⟩
      · exact Or.inl (by omega)
      · rw [List.length_cons] at h1
        exact Or.inr ⟨by omega, by omega⟩

/-! ## The loading program -/

theorem readLive_ok {f : LiveFolder K} {n : Name} {d : Img K} : readLive f n = .ok d ↔ f n = some (.complete d) := by
  unfold readLive
  cases hf : f n with
  | none => simp
  | some c => cases c <;> simp

/-- A loop that ends has read complete files. -/
theorem liveLoop_inv {h w : Nat} (names : List Name) (f : Nat → LiveFolder K) (st st' : LoadState K 3 4)
    (hok : liveLoop h w f names st = .ok st') :
    ∃ V : Listing K, V.map Prod.fst = names ∧ forList V st (loadBody 3 4 h w) = .ok st' ∧
      ∀ e ∈ V, ((twoDigits e.1).isSome ∨ e.1 = flagName) → ∃ m < names.length, names[m]? = some e.1 ∧ f m e.1 = some (.complete e.2) := by
  induction names generalizing f st with
  | nil =>
    unfold liveLoop at hok
    exact ⟨[], rfl, hok, by simp⟩
  | cons n rest ih =>
    unfold liveLoop at hok
    rw [Py.bind_eq_ok] at hok
    obtain ⟨st1, h1, h2⟩ := hok
    obtain ⟨V, v1, v2, v3⟩ := ih _ _ h2
    have hlater : ∀ e ∈ V, ((twoDigits e.1).isSome ∨ e.1 = flagName) →
        ∃ m < (n :: rest).length, (n :: rest)[m]? = some e.1 ∧ f m e.1 = some (.complete e.2) := by
      intro e he hne
      obtain ⟨m, m1, m2, m3⟩ := v3 e he hne
      exact ⟨m + 1, by simp [m1], by simpa using m2, m3⟩
    unfold liveBody at h1
    split at h1
    · rw [Py.bind_eq_ok] at h1
      obtain ⟨d, h3, h4⟩ := h1
      refine ⟨(n, d) :: V, by rw [List.map_cons, v1], ?_, ?_⟩
      · unfold forList at v2 ⊢
        rw [List.foldlM_cons, h4, Py.ok_bind]
        exact v2
      · intro e he hne
        rcases List.mem_cons.1 he with rfl | he
        · exact ⟨0, by simp, by simp, readLive_ok.1 h3⟩
        · exact hlater e he hne
    · rename_i hneed
      injection h1 with h1
      subst h1
      refine ⟨(n, Img.zeros 0 0) :: V, by rw [List.map_cons, v1], ?_, ?_⟩
      · unfold forList at v2 ⊢
        rw [List.foldlM_cons]
        have : loadBody 3 4 h w (n, Img.zeros 0 0) st = .ok st := by
          unfold loadBody loadDigits
          rw [not_or] at hneed
          dsimp only
          rw [Option.not_isSome_iff_eq_none.1 hneed.1]
          dsimp only
          rw [Py.ok_bind, if_neg hneed.2]
        rw [this, Py.ok_bind]
        exact v2
      · intro e he hne
        rcases List.mem_cons.1 he with rfl | he
        · exact absurd hne hneed
        · exact hlater e he hne

/-- When the contents that are read do not depend on the moment. -/
theorem liveLoop_eq {h w : Nat} (g : Name → Img K) (names : List Name) (f : Nat → LiveFolder K) (st : LoadState K 3 4)
    (hg : ∀ m n, names[m]? = some n → ((twoDigits n).isSome ∨ n = flagName) → f m n = some (.complete (g n))) :
    liveLoop h w f names st = forList (names.map (fun n => (n, g n))) st (loadBody 3 4 h w) := by
  induction names generalizing f st with
  | nil => rfl
  | cons n rest ih =>
    unfold liveLoop
    have hb : liveBody h w (f 0) n st = loadBody 3 4 h w (n, g n) st := by
      unfold liveBody
      split
      · rename_i hneed
        rw [readLive_ok.2 (hg 0 n (by simp) hneed), Py.ok_bind]
      · rename_i hneed
        unfold loadBody loadDigits
        rw [not_or] at hneed
        dsimp only
        rw [Option.not_isSome_iff_eq_none.1 hneed.1]
        dsimp only
        rw [Py.ok_bind, if_neg hneed.2]
    rw [hb]
    unfold forList
    rw [List.map_cons, List.foldlM_cons]
    congr 1
    funext st1
    exact ih (fun m => f (m + 1)) st1 (fun m n' hm hneed => hg (m + 1) n' (by simpa using hm) hneed)

theorem loadLive_eq (g : Name → Img K) (names : List Name) (f : Nat → LiveFolder K) (hfits : ∀ n ∈ names, isFits n = true)
    (hsample : ∀ n, names.find? (fun n => (twoDigits n).isSome) = some n →
      ∃ s, f 0 n = some (.complete s) ∧ s.h = (g n).h ∧ s.w = (g n).w)
    (hg : ∀ m n, names[m]? = some n → ((twoDigits n).isSome ∨ n = flagName) → f (m + 1) n = some (.complete (g n))) :
    loadLive names f = loadDemodulator (some (names.map (fun n => (n, g n)))) := by
  have hfil : (names.map (fun n => (n, g n))).filter (fun e => isFits e.1) = names.map (fun n => (n, g n)) := by
    rw [List.filter_eq_self]
    intro e he
    obtain ⟨n, hn, rfl⟩ := List.mem_map.1 he
    exact hfits n hn
  unfold loadLive loadDemodulator
  dsimp only
  rw [hfil]
  by_cases he : names.isEmpty
  · rw [if_pos he, if_pos (by simpa using he)]
  · rw [if_neg he, if_neg (by simpa using he)]
    have hfind : (names.map (fun n => (n, g n))).find? (fun e => (twoDigits e.1).isSome) =
        (names.find? (fun n => (twoDigits n).isSome)).map (fun n => (n, g n)) := by
      rw [List.find?_map]
      rfl
    rw [hfind]
    cases hf : names.find? (fun n => (twoDigits n).isSome) with
    | none => rfl
    | some n =>
      obtain ⟨s, s1, s2, s3⟩ := hsample n hf
      dsimp only [Option.map]
      rw [readLive_ok.2 s1, Py.ok_bind, s2, s3, liveLoop_eq g names _ _ hg]

end

end Micropol
