import Verif.Lemmas.LiveFolder

/-!
# C107: loading a calibration while calibrations are being saved
-/

set_option autoImplicit false

namespace Micropol

section
variable {K : Type} [Field K] {f : LiveFolder K} {os : List (CalibOutput K)} {k : Nat → Nat} {names : List Name}

theorem fresh_names (hf : f.Fresh) (hl : LoadsAt f os k names) {n : Name} (hn : n ∈ names) (hd : (twoDigits n).isSome) :
    ∃ (i : Fin 3) (j : Fin 4), n = mName i j := by
  obtain ⟨h1, h2⟩ := (hl.listed.2 n).1 hn
  rcases files_from os f (k 0) n h1 with h | h
  · exact absurd (twoDigits_isSome.1 hd) (hf.1 n h h2)
  · simp only [List.mem_cons, List.not_mem_nil, or_false] at h
    rcases h with rfl | rfl | rfl | rfl | rfl | rfl | rfl | rfl | rfl | rfl | rfl | rfl | rfl | rfl | rfl | rfl
    · exact ⟨0, 0, rfl⟩
    · exact ⟨0, 1, rfl⟩
    · exact ⟨0, 2, rfl⟩
    · exact ⟨0, 3, rfl⟩
    · exact ⟨1, 0, rfl⟩
    · exact ⟨1, 1, rfl⟩
    · exact ⟨1, 2, rfl⟩
    · exact ⟨1, 3, rfl⟩
    · exact ⟨2, 0, rfl⟩
    · exact ⟨2, 1, rfl⟩
    · exact ⟨2, 2, rfl⟩
    · exact ⟨2, 3, rfl⟩
    all_goals exact absurd hd (by decide)

theorem assign_exact {h w : Nat} {A B : Img K} (h1 : A.h ≠ 1) (h2 : A.w ≠ 1) (hok : assignPlane h w A = .ok B) : B = A := by
  have hs : A.HasShape h w := by
    unfold assignPlane at hok
    split at hok
    · rename_i hc
      exact ⟨hc.1.resolve_right h1, hc.2.resolve_right h2⟩
    · cases hok
  rw [assignPlane_same hs] at hok
  injection hok with hok
  exact hok.symm

theorem current_of {c m : Nat} (hc : c < os.length) (h1 : 48 * c < m) (h2 : c + 1 < os.length → m < 48 * (c + 2)) :
    CurrentAt os c m := by
  refine ⟨by rw [startOf_eq os c hc.le]; exact h1, fun h => ?_⟩
  rw [startOf_eq os (c + 2) (by omega)]
  exact h2 h

/-- C107: whatever the saving program does during the load, a load that succeeds has twelve complete components, each in its place and
each of a calibration that was current when it was read; so are the fit flags, if there are any.  Missing from the full claim: that they
are all of the same calibration, see `C107_mixes`, and that the flags are there, see `C107_no_flags`. -/
theorem C107_parts_partial (hf : f.Fresh) (hside : ∀ o ∈ os, ∀ i j, (o.mij i j).h ≠ 1 ∧ (o.mij i j).w ≠ 1) (hl : LoadsAt f os k names)
    {D : Demodulator K} (hok : loadResult f os k names = .ok D) :
    (∀ i j, ∃ m, 2 ≤ m ∧ m ≤ names.length + 1 ∧ ∃ c, ∃ hc : c < os.length, CurrentAt os c (k m) ∧ D.mij i j = os[c].mij i j) ∧
    (D.fitFoundFlags = none ∨ ∃ m, 2 ≤ m ∧ m ≤ names.length + 1 ∧
      ∃ c, ∃ hc : c < os.length, CurrentAt os c (k m) ∧ D.fitFoundFlags = some os[c].fitFound) := by
  unfold loadResult loadLive at hok
  split at hok
  · cases hok
  split at hok
  · cases hok
  rw [Py.bind_eq_ok] at hok
  obtain ⟨s, -, hok⟩ := hok
  rw [Py.bind_eq_ok] at hok
  obtain ⟨st, hloop, hok⟩ := hok
  split at hok
  · cases hok
  rename_i hfound
  injection hok with hok
  subst hok
  obtain ⟨V, v1, v2, v3⟩ := liveLoop_inv names _ _ _ hloop
  obtain ⟨s1, s2, s3, s4⟩ := loop_spec _ _ _ v2
  have hmem : ∀ e ∈ V, e.1 ∈ names := fun e he => v1 ▸ List.mem_map_of_mem he
  have hcomp : ∀ e ∈ V, ∀ d, twoDigits e.1 = some d → ∃ (i : Fin 3) (j : Fin 4), e.1 = mName i j ∧ d = (i.val, j.val) := by
    intro e he d hd
    obtain ⟨i, j, hij⟩ := fresh_names hf hl (hmem e he) (by rw [hd]; rfl)
    refine ⟨i, j, hij, ?_⟩
    rw [hij, twoDigits_mName] at hd
    injection hd with hd
    exact hd.symm
  have hnd : (digitsOf V).Nodup := by
    refine digits_nodup (by rw [v1]; exact hl.listed.1) ?_
    intro e he e' he' d hd hd'
    obtain ⟨i, j, h1, h2⟩ := hcomp e he d hd
    obtain ⟨i', j', h1', h2'⟩ := hcomp e' he' d hd'
    rw [h2] at h2'
    injection h2' with h3 h4
    rw [h1, h1', Fin.ext h3, Fin.ext h4]
  have hlen : (digitsOf V).length = 3 * 4 := by
    have := not_not.1 hfound
    dsimp only at s1
    omega
  constructor
  · intro i j
    rcases s3 i j with ⟨-, hno⟩ | ⟨e, he, hd, hp⟩
    · exact absurd (digits_cover hnd s2 hlen i.isLt j.isLt) hno
    · obtain ⟨m, m1, m2, m3⟩ := v3 e he (Or.inl (by rw [hd]; rfl))
      obtain ⟨i', j', h1, h2⟩ := hcomp e he _ hd
      injection h2 with h3 h4
      have hi : i = i' := Fin.ext h3
      have hj : j = j' := Fin.ext h4
      subst hi hj
      rcases complete_from os f _ e.1 e.2 m3 with ⟨hold, -⟩ | ⟨c, hc, hw, hc1, hc2⟩
      · exfalso
        have hin := (hl.listed.2 e.1).1 (hmem e he)
        exact hf.1 e.1 (by rw [hold]; simp) hin.2 (twoDigits_isSome.1 (by rw [hd]; rfl))
      · have he2 : e.2 = os[c].mij i j := by
          rcases topWrites_cases os[c] 27 (e.1, e.2) hw with ⟨a, b, hab⟩ | ⟨hno, -⟩ | hfl
          · have e1 : e.1 = mName a b := congrArg Prod.fst hab
            have e2 : e.2 = os[c].mij a b := congrArg Prod.snd hab
            rw [h1] at e1
            have := congrArg twoDigits e1
            rw [twoDigits_mName, twoDigits_mName] at this
            injection this with this
            injection this with g1 g2
            rw [e2, Fin.ext g1, Fin.ext g2]
          · rw [show (e.1, e.2).1 = e.1 from rfl, hd] at hno
            cases hno
          · have e1 : e.1 = flagName := congrArg Prod.fst hfl
            rw [e1, twoDigits_flagName] at hd
            cases hd
        refine ⟨m + 2, by omega, by omega, c, hc, current_of hc hc1 hc2, ?_⟩
        have hs := hside os[c] (List.getElem_mem hc) i j
        rw [← he2] at hs ⊢
        exact assign_exact hs.1 hs.2 hp
  · rcases s4 with ⟨h1, -⟩ | ⟨e, he, hfl, hst⟩
    · exact Or.inl h1
    · refine Or.inr ?_
      obtain ⟨m, m1, m2, m3⟩ := v3 e he (Or.inr hfl)
      rcases complete_from os f _ e.1 e.2 m3 with ⟨hold, -⟩ | ⟨c, hc, hw, hc1, hc2⟩
      · exfalso
        have : f flagName = none := hf.2
        rw [hfl, this] at hold
        cases hold
      · refine ⟨m + 2, by omega, by omega, c, hc, current_of hc hc1 hc2, ?_⟩
        show st.flags = _
        rw [hst]
        rcases topWrites_cases os[c] 27 (e.1, e.2) hw with ⟨a, b, hab⟩ | ⟨-, hno⟩ | h
        · have e1 : e.1 = mName a b := congrArg Prod.fst hab
          rw [hfl] at e1
          exact absurd e1.symm (mName_ne_flag a b)
        · exact absurd hfl hno
        · rw [show e.2 = os[c].fitFound from congrArg Prod.snd h]

/-- C107: while the first calibration is saved to a folder, a load fails or gives the whole tensor of this calibration. -/
theorem C107_first {o : CalibOutput K} (hf : f.Fresh) (hside : ∀ i j, (o.mij i j).h ≠ 1 ∧ (o.mij i j).w ≠ 1) (hl : LoadsAt f [o] k names)
    {D : Demodulator K} (hok : loadResult f [o] k names = .ok D) :
    D.mij = o.mij ∧ (D.fitFoundFlags = none ∨ D.fitFoundFlags = some o.fitFound) := by
  obtain ⟨h1, h2⟩ := C107_parts_partial hf (by intro o' ho'; rw [List.mem_singleton] at ho'; subst ho'; exact hside) hl hok
  have hz : ∀ c (hc : c < [o].length), [o][c] = o := by
    intro c hc
    have : c = 0 := by simpa using hc
    subst this
    rfl
  constructor
  · funext i j
    obtain ⟨m, -, -, c, hc, -, h⟩ := h1 i j
    rw [h, hz c hc]
  · rcases h2 with h2 | ⟨m, -, -, c, hc, -, h⟩
    · exact Or.inl h2
    · rw [hz c hc] at h
      exact Or.inr h

/-- C107: a load that begins when calibration number `c` is on the disk never gives parts of older ones. -/
theorem C107_not_older (hf : f.Fresh) (hside : ∀ o ∈ os, ∀ i j, (o.mij i j).h ≠ 1 ∧ (o.mij i j).w ≠ 1) (hl : LoadsAt f os k names)
    {c : Nat} (hc : c < os.length) (hbegin : startOf os (c + 1) ≤ k 0) {D : Demodulator K} (hok : loadResult f os k names = .ok D) :
    (∀ i j, ∃ c', ∃ hc' : c' < os.length, c ≤ c' ∧ D.mij i j = os[c'].mij i j) ∧
    (D.fitFoundFlags = none ∨ ∃ c', ∃ hc' : c' < os.length, c ≤ c' ∧ D.fitFoundFlags = some os[c'].fitFound) := by
  obtain ⟨h1, h2⟩ := C107_parts_partial hf hside hl hok
  have key : ∀ {m c'}, c' < os.length → CurrentAt os c' (k m) → c ≤ c' := by
    intro m c' hc' hcur
    by_contra hlt
    have h3 := hcur.2 (by omega)
    have h4 := hl.forward (Nat.zero_le m)
    rw [startOf_eq os (c' + 2) (by omega)] at h3
    rw [startOf_eq os (c + 1) (by omega)] at hbegin
    omega
  constructor
  · intro i j
    obtain ⟨m, -, -, c', hc', hcur, h⟩ := h1 i j
    exact ⟨c', hc', key hc' hcur, h⟩
  · rcases h2 with h2 | ⟨m, -, -, c', hc', hcur, h⟩
    · exact Or.inl h2
    · exact Or.inr ⟨c', hc', key hc' hcur, h⟩

/-- C107: a load that ends before the saving of calibration number `c + 1` begins never gives parts of it or of later ones. -/
theorem C107_not_newer (hf : f.Fresh) (hside : ∀ o ∈ os, ∀ i j, (o.mij i j).h ≠ 1 ∧ (o.mij i j).w ≠ 1) (hl : LoadsAt f os k names)
    {c : Nat} (hc : c < os.length) (hend : k (names.length + 1) ≤ startOf os (c + 1)) {D : Demodulator K}
    (hok : loadResult f os k names = .ok D) :
    (∀ i j, ∃ c', ∃ hc' : c' < os.length, c' ≤ c ∧ D.mij i j = os[c'].mij i j) ∧
    (D.fitFoundFlags = none ∨ ∃ c', ∃ hc' : c' < os.length, c' ≤ c ∧ D.fitFoundFlags = some os[c'].fitFound) := by
  obtain ⟨h1, h2⟩ := C107_parts_partial hf hside hl hok
  have key : ∀ {m c'}, m ≤ names.length + 1 → c' < os.length → CurrentAt os c' (k m) → c' ≤ c := by
    intro m c' hm hc' hcur
    have h3 := hcur.1
    have h4 := hl.forward hm
    rw [startOf_eq os c' hc'.le] at h3
    rw [startOf_eq os (c + 1) (by omega)] at hend
    omega
  constructor
  · intro i j
    obtain ⟨m, -, hm, c', hc', hcur, h⟩ := h1 i j
    exact ⟨c', hc', key hm hc' hcur, h⟩
  · rcases h2 with h2 | ⟨m, -, hm, c', hc', hcur, h⟩
    · exact Or.inl h2
    · exact Or.inr ⟨c', hc', key hm hc' hcur, h⟩

/-- All `Mij.fits` are listed after a calibration was saved. -/
theorem listed_after (hl : LoadsAt f os k names) {c : Nat} (hc : c < os.length)
    (hk : k 0 = 48 * (c + 1) ∨ (c + 1 = os.length ∧ 48 * (c + 1) ≤ k 0)) :
    (∀ i j, mName i j ∈ names ∨ ¬ (i < 3 ∧ j < 4)) ∧ flagName ∈ names := by
  constructor
  · intro i j
    by_cases hij : i < 3 ∧ j < 4
    · left
      have hw := topWrites_component os[c] 27 (by decide) ⟨i, hij.1⟩ ⟨j, hij.2⟩
      rw [hl.listed.2]
      refine ⟨?_, isFits_iff.1 (isFits_mName ⟨i, hij.1⟩ ⟨j, hij.2⟩)⟩
      have := complete_after os f c hc (k 0) hk hw
      intro hno
      rw [show folderAfter f os (k 0) (mName i j) = _ from this] at hno
      cases hno
    · exact Or.inr hij
  · rw [hl.listed.2]
    refine ⟨?_, isFits_iff.1 isFits_flagName⟩
    have hw : (flagName, os[c].fitFound) ∈ topWrites (saveOps os[c]) := by simp [topWrites, saveOps]
    rw [complete_after os f c hc (k 0) hk hw]
    simp

/-- The load when every file is found complete; `g` says what is read. -/
theorem load_exact {h w : Nat} (hf : f.Fresh) (hl : LoadsAt f os k names) (g : Name → Img K) {mij : Fin 3 → Fin 4 → Img K} {F : Img K}
    (hmij : ∀ (i : Fin 3) (j : Fin 4), mName i j ∈ names ∧ g (mName i j) = mij i j ∧ (mij i j).HasShape h w)
    (hF : flagName ∈ names ∧ g flagName = F)
    (hsample : ∀ (i : Fin 3) (j : Fin 4), ∃ s, folderAfter f os (k 1) (mName i j) = some (.complete s) ∧ s.HasShape h w)
    (hread : ∀ m n, names[m]? = some n → ((twoDigits n).isSome ∨ n = flagName) →
      folderAfter f os (k (m + 2)) n = some (.complete (g n))) : loadResult f os k names = .ok ⟨mij, some F⟩ := by
  unfold loadResult
  rw [loadLive_eq g names _ (fun n hn => isFits_iff.2 ((hl.listed.2 n).1 hn).2) (by
    intro n hn
    have hs := List.find?_some hn
    obtain ⟨i, j, rfl⟩ := fresh_names hf hl (List.mem_of_find?_eq_some hn) hs
    obtain ⟨s, s1, s2⟩ := hsample i j
    refine ⟨s, s1, ?_, ?_⟩
    · rw [(hmij i j).2.1, s2.1, (hmij i j).2.2.1]
    · rw [(hmij i j).2.1, s2.2, (hmij i j).2.2.2]) hread]
  have hmap : (names.map (fun n => (n, g n))).map Prod.fst = names := by
    rw [List.map_map]
    exact List.map_id' _
  obtain ⟨flags, h1, h2⟩ := load_complete (listing := names.map (fun n => (n, g n))) (mij := mij) (fun i j => (hmij i j).2.2)
    (by rw [hmap]; exact hl.listed.1)
    (fun i j => List.mem_map.2 ⟨mName i j, (hmij i j).1, by rw [(hmij i j).2.1]⟩) (by
      intro e he _ hd
      exact fresh_names hf hl (by rw [← hmap]; exact List.mem_map_of_mem he) hd)
  rw [h1]
  rcases h2 with ⟨-, hno⟩ | ⟨F', hF', rfl⟩
  · exact absurd rfl (hno _ (List.mem_map.2 ⟨flagName, hF.1, rfl⟩))
  · obtain ⟨n, hn, he⟩ := List.mem_map.1 hF'
    injection he with h3 h4
    rw [h3] at h4
    rw [← h4, hF.2]

theorem needed_write (hf : f.Fresh) (hl : LoadsAt f os k names) (o : CalibOutput K) {n : Name} (hn : n ∈ names)
    (hneed : (twoDigits n).isSome ∨ n = flagName) : ∃ d, (n, d) ∈ topWrites (saveOps o) := by
  rcases hneed with h | h
  · obtain ⟨i, j, rfl⟩ := fresh_names hf hl hn h
    exact ⟨_, topWrites_component o 27 (by decide) i j⟩
  · subst h
    exact ⟨o.fitFound, by simp [topWrites, saveOps]⟩

/-- What a calibration writes under a name. -/
def written (o : CalibOutput K) (n : Name) : Img K := (((topWrites (saveOps o)).find? (fun e => e.1 = n)).map Prod.snd).getD (Img.zeros 0 0)

theorem written_eq (o : CalibOutput K) {n : Name} {d : Img K} (h : (n, d) ∈ topWrites (saveOps o)) : written o n = d := by
  unfold written
  cases hf : (topWrites (saveOps o)).find? (fun e => e.1 = n) with
  | none =>
    rw [List.find?_eq_none] at hf
    exact absurd (by simp) (hf _ h)
  | some e =>
    have h1 := List.find?_some hf
    have h2 := List.mem_of_find?_eq_some hf
    have := List.inj_on_of_nodup_map (calib_nodup o) h2 h (by simpa using h1)
    rw [this]
    rfl

/-- C107: a load during which nothing is saved (between two calibrations, or after the last one) gives the last calibration, with its
flags. -/
theorem C107_undisturbed {c : Nat} (hc : c < os.length) {h w : Nat} (hshape : ∀ i j, (os[c].mij i j).HasShape h w) (hf : f.Fresh)
    (hl : LoadsAt f os k names)
    (hk : (∀ m, k m = startOf os (c + 1)) ∨ (c + 1 = os.length ∧ ∀ m, startOf os (c + 1) ≤ k m)) :
    loadResult f os k names = .ok ⟨os[c].mij, some os[c].fitFound⟩ := by
  rw [startOf_eq os (c + 1) (by omega)] at hk
  have hk' : ∀ m, k m = 48 * (c + 1) ∨ (c + 1 = os.length ∧ 48 * (c + 1) ≤ k m) := by
    intro m
    rcases hk with hk | ⟨h1, h2⟩
    · exact Or.inl (hk m)
    · exact Or.inr ⟨h1, h2 m⟩
  obtain ⟨l1, l2⟩ := listed_after hl hc (hk' 0)
  have hcomp := fun i j => topWrites_component os[c] 27 (by decide) i j
  refine load_exact hf hl (written os[c]) (fun i j => ⟨(l1 i j).resolve_right (fun hno => hno ⟨i.isLt, j.isLt⟩), written_eq _ (hcomp i j),
    hshape i j⟩) ⟨l2, written_eq _ (by simp [topWrites, saveOps])⟩ (fun i j => ⟨_, complete_after os f c hc (k 1) (hk' 1) (hcomp i j), hshape i j⟩) ?_
  intro m n hm hneed
  obtain ⟨d, hd⟩ := needed_write hf hl os[c] (List.mem_of_getElem? hm) hneed
  rw [written_eq _ hd]
  exact complete_after os f c hc _ (hk' _) hd

/-- C107, violation: if a second calibration is saved during the load, the result can be a mixture.  The first `p` names are read before
and the others after the saving; no file is ever found incomplete, and nothing is reported. -/
theorem C107_mixes {old new : CalibOutput K} {h w : Nat} (hold : ∀ i j, (old.mij i j).HasShape h w)
    (hnew : ∀ i j, (new.mij i j).HasShape h w) (hf : f.Fresh) (hn : IsGlob (folderAfter f [old, new] (startOf [old, new] 1)) names)
    (p : Nat) :
    ∃ k, LoadsAt f [old, new] k names ∧ loadResult f [old, new] k names =
      .ok ⟨fun i j => if mName i j ∈ names.take p then old.mij i j else new.mij i j,
        some (if flagName ∈ names.take p then old.fitFound else new.fitFound)⟩ := by
  have e1 : startOf [old, new] 1 = 48 := startOf_eq _ 1 (by simp)
  rw [e1] at hn
  obtain ⟨k, hk⟩ : ∃ k : Nat → Nat, k = fun m => if m < p + 2 then 48 else 96 := ⟨_, rfl⟩
  have k0 : k 0 = 48 := by rw [hk]; simp
  have k1 : k 1 = 48 := by rw [hk]; simp
  have hl : LoadsAt f [old, new] k names := by
    refine ⟨?_, by rw [k0]; exact hn⟩
    intro a b hab
    rw [hk]
    dsimp only
    split <;> split <;> omega
  refine ⟨k, hl, ?_⟩
  have a1 : ∀ {n : Name} {d : Img K}, (n, d) ∈ topWrites (saveOps old) → folderAfter f [old, new] 48 n = some (.complete d) :=
    fun hd => complete_after [old, new] f 0 (by simp) 48 (Or.inl rfl) hd
  have a2 : ∀ {n : Name} {d : Img K}, (n, d) ∈ topWrites (saveOps new) → folderAfter f [old, new] 96 n = some (.complete d) :=
    fun hd => complete_after [old, new] f 1 (by simp) 96 (Or.inl rfl) hd
  obtain ⟨l1, l2⟩ := listed_after hl (c := 0) (by simp) (Or.inl k0)
  have c1 := fun i j => topWrites_component old 27 (by decide) i j
  have c2 := fun i j => topWrites_component new 27 (by decide) i j
  have f1 : (flagName, old.fitFound) ∈ topWrites (saveOps old) := by simp [topWrites, saveOps]
  have f2 : (flagName, new.fitFound) ∈ topWrites (saveOps new) := by simp [topWrites, saveOps]
  have hidx : ∀ {m : Nat} {n : Name}, names[m]? = some n → (n ∈ names.take p ↔ m < p) := by
    intro m n hm
    rw [List.mem_take_iff_getElem]
    obtain ⟨hlt, hget⟩ := List.getElem?_eq_some_iff.1 hm
    constructor
    · rintro ⟨m', hm', he⟩
      have : m' = m := (List.Nodup.getElem_inj_iff hn.1).1 (he.trans hget.symm)
      omega
    · intro hp
      exact ⟨m, by omega, hget⟩
  refine load_exact hf hl (h := h) (w := w) (fun n => if n ∈ names.take p then written old n else written new n) ?_ ⟨l2, ?_⟩ ?_ ?_
  · intro i j
    refine ⟨(l1 i j).resolve_right (fun hno => hno ⟨i.isLt, j.isLt⟩), ?_, ?_⟩
    · rw [written_eq _ (c1 i j), written_eq _ (c2 i j)]
    · split
      · exact hold i j
      · exact hnew i j
  · rw [written_eq _ f1, written_eq _ f2]
  · intro i j
    rw [k1]
    exact ⟨_, a1 (c1 i j), hold i j⟩
  · intro m n hm hneed
    have hmem := List.mem_of_getElem? hm
    obtain ⟨d1, hd1⟩ := needed_write hf hl old hmem hneed
    obtain ⟨d2, hd2⟩ := needed_write hf hl new hmem hneed
    have hkm : k (m + 2) = if m < p then 48 else 96 := by
      rw [hk]
      dsimp only
      split <;> split <;> omega
    rw [hkm, written_eq _ hd1, written_eq _ hd2]
    by_cases hp : m < p
    · rw [if_pos hp, if_pos ((hidx hm).2 hp)]
      exact a1 hd1
    · rw [if_neg hp, if_neg (fun hin => hp ((hidx hm).1 hin))]
      exact a2 hd2

theorem act_remove (o : CalibOutput K) (i : Fin 3) (j : Fin 4) :
    (calibActs o)[3 * (4 * i.val + j.val)]? = some (.remove (mName i j)) := by
  fin_cases i <;> fin_cases j <;> rfl

/-- C107, violation: while a folder with a calibration gets a new one, a load can fail although both calibrations are whole. -/
theorem C107_vanishes {old new : CalibOutput K} (hf : f.Fresh)
    (hn : IsGlob (folderAfter f [old, new] (startOf [old, new] 1)) names) :
    ∃ k, LoadsAt f [old, new] k names ∧ (∀ m, k m < startOf [old, new] 2) ∧
      loadResult f [old, new] k names = .error .fileNotFoundError := by
  have e1 : startOf [old, new] 1 = 48 := startOf_eq _ 1 (by simp)
  have e2 : startOf [old, new] 2 = 96 := startOf_eq _ 2 (by simp)
  rw [e1] at hn
  have hl0 : LoadsAt f [old, new] (fun _ => 48) names := ⟨fun _ _ _ => le_refl _, hn⟩
  obtain ⟨l1, -⟩ := listed_after hl0 (c := 0) (by simp) (Or.inl rfl)
  have h00 : mName 0 0 ∈ names := (l1 0 0).resolve_right (by simp)
  cases hfind : names.find? (fun n => (twoDigits n).isSome) with
  | none =>
    rw [List.find?_eq_none] at hfind
    exact absurd (by decide) (hfind _ h00)
  | some n =>
    obtain ⟨i, j, rfl⟩ := fresh_names hf hl0 (List.mem_of_find?_eq_some hfind) (by simpa using List.find?_some hfind)
    obtain ⟨q, hq⟩ : ∃ q, q = 3 * (4 * i.val + j.val) := ⟨_, rfl⟩
    have hq48 : q < 47 := by omega
    refine ⟨fun m => if m = 0 then 48 else 48 + (q + 1), ⟨?_, hn⟩, ?_, ?_⟩
    · intro a b hab
      dsimp only
      split <;> split <;> omega
    · intro m
      rw [e2]
      dsimp only
      split <;> omega
    · unfold loadResult loadLive
      rw [if_neg (by
        rw [List.isEmpty_iff]
        rintro rfl
        cases h00), hfind]
      dsimp only
      have hgone : folderAfter f [old, new] (if 0 + 1 = 0 then 48 else 48 + (q + 1)) (mName i j) = none := by
        rw [if_neg (by omega), folderAfter_later f old [new] (by omega), Nat.add_sub_cancel_left, folderAfter_first _ new [] (by omega)]
        have hr := act_remove new i j
        rw [← hq] at hr
        rw [List.take_add_one, hr, List.foldl_append]
        show (if mName i j = mName i j then none else _) = none
        rw [if_pos rfl]
      unfold readLive
      rw [hgone]
      rfl

/-- C107, violation: a load that happens after the twelve components of the first calibration and before its flags gives a tensor
without flags. -/
theorem C107_no_flags {o : CalibOutput K} {h w : Nat} (hshape : ∀ i j, (o.mij i j).HasShape h w) :
    ∃ moment, ∀ names, IsGlob (folderAfter (fun _ => none) [o] moment) names →
      LoadsAt (fun _ => none) [o] (fun _ => moment) names ∧
      loadResult (fun _ => none) [o] (fun _ => moment) names = .ok ⟨o.mij, none⟩ := by
  have hfr : LiveFolder.Fresh (fun _ => none : LiveFolder K) := ⟨fun n h => absurd rfl h, rfl⟩
  refine ⟨36, fun names hn => ?_⟩
  have hl : LoadsAt (fun _ => none) [o] (fun _ => 36) names := ⟨fun _ _ _ => le_refl _, hn⟩
  refine ⟨hl, ?_⟩
  have hacts : (calibActs o).take 36 =
      (topWrites ((saveOps o).take 12)).flatMap (fun e => [.remove e.1, .create e.1, .finish e.1 e.2]) := rfl
  have hstate := acts_state (topWrites ((saveOps o).take 12)) (topWrites_nodup o 12) (fun _ => none) 36
  have hcon : ∀ n, folderAfter (fun _ => none) [o] 36 n =
      (((topWrites ((saveOps o).take 12)).flatMap (fun e => [.remove e.1, .create e.1, .finish e.1 e.2])).take 36).foldl
        FolderAct.run (fun _ => none) n := by
    intro n
    rw [folderAfter_first _ o [] (by omega), ← hacts, List.take_take]
    rfl
  have hcomp : ∀ (i : Fin 3) (j : Fin 4), folderAfter (fun _ => none) [o] 36 (mName i j) = some (.complete (o.mij i j)) := by
    intro i j
    rw [hcon]
    exact (hstate _).2.1 (le_of_eq rfl) _ (topWrites_component o 12 (le_refl _) i j)
  have hflag : folderAfter (fun _ => none) [o] 36 flagName = none := by
    rw [hcon]
    refine (hstate flagName).1 ?_
    show flagName ∉ [mName 0 0, mName 0 1, mName 0 2, mName 0 3, mName 1 0, mName 1 1, mName 1 2, mName 1 3,
      mName 2 0, mName 2 1, mName 2 2, mName 2 3]
    decide
  have hfn : flagName ∉ names := fun hin => ((hn.2 _).1 hin).1 hflag
  unfold loadResult
  rw [loadLive_eq (written o) names _ (fun n hn' => isFits_iff.2 ((hn.2 n).1 hn').2) (by
    intro n hfind
    obtain ⟨i, j, rfl⟩ := fresh_names hfr hl (List.mem_of_find?_eq_some hfind) (by simpa using List.find?_some hfind)
    rw [written_eq o (topWrites_component o 27 (by decide) i j)]
    exact ⟨_, hcomp i j, rfl, rfl⟩) (by
    intro m n hm hneed
    rcases hneed with hd | hd
    · obtain ⟨i, j, rfl⟩ := fresh_names hfr hl (List.mem_of_getElem? hm) hd
      rw [written_eq o (topWrites_component o 27 (by decide) i j)]
      exact hcomp i j
    · exact absurd (hd ▸ List.mem_of_getElem? hm) hfn)]
  have hmap : (names.map (fun n => (n, written o n))).map Prod.fst = names := by
    rw [List.map_map]
    exact List.map_id' _
  obtain ⟨flags, h1, h2⟩ := load_complete (listing := names.map (fun n => (n, written o n))) (mij := o.mij) hshape
    (by rw [hmap]; exact hn.1)
    (fun i j => List.mem_map.2 ⟨mName i j, (hn.2 _).2 ⟨by rw [hcomp]; simp, isFits_iff.1 (isFits_mName i j)⟩, by
      rw [written_eq o (topWrites_component o 27 (by decide) i j)]⟩) (by
      intro e he _ hd
      exact fresh_names hfr hl (by rw [← hmap]; exact List.mem_map_of_mem he) hd)
  rw [h1]
  rcases h2 with ⟨rfl, -⟩ | ⟨F', hF', rfl⟩
  · rfl
  · exfalso
    have := List.mem_map_of_mem (f := Prod.fst) hF'
    rw [hmap] at this
    exact hfn this

end

/-! ## The full claim -/

/-- A second calibration, different from `exOutput` in every component. -/
def exOutputNew : CalibOutput ℚ := { exOutput with mij := fun i j => Img.const 2 3 (100 + 10 * i.val + j.val) }

/-- The names that a calibration leaves in an empty folder. -/
def exNames : List Name :=
  [mName 0 0, mName 0 1, mName 0 2, mName 0 3, mName 1 0, mName 1 1, mName 1 2, mName 1 3, mName 2 0,
    mName 2 1, mName 2 2, mName 2 3, tkName, effName, phaseName, flagName]

theorem exFresh : LiveFolder.Fresh (fun _ => none : LiveFolder ℚ) := ⟨fun _ h => absurd rfl h, rfl⟩

theorem exGlob (new : List (CalibOutput ℚ)) : IsGlob (folderAfter (fun _ => none) (exOutput :: new) 48) exNames := by
  refine ⟨by decide, fun n => ⟨fun hn => ⟨?_, ?_⟩, ?_⟩⟩
  · have hn' : n ∈ (topWrites (saveOps exOutput)).map Prod.fst := hn
    obtain ⟨⟨n', d⟩, he, rfl⟩ := List.mem_map.1 hn'
    rw [complete_after (exOutput :: new) _ 0 (by simp) 48 (Or.inl rfl) he]
    simp
  · rw [← isFits_iff]
    revert n
    decide
  · rintro ⟨h1, -⟩
    rcases files_from _ _ _ n h1 with h | h
    · exact absurd rfl h
    · exact h

/-- C107: the full claim is false: a load can give a tensor that belongs to no calibration. -/
theorem C107_full_claim_false : ∃ k, LoadsAt (fun _ => none) [exOutput, exOutputNew] k exNames ∧
    ∃ D, loadResult (fun _ => none) [exOutput, exOutputNew] k exNames = .ok D ∧
      D.mij ≠ exOutput.mij ∧ D.mij ≠ exOutputNew.mij := by
  obtain ⟨k, h1, h2⟩ := C107_mixes (old := exOutput) (new := exOutputNew) (h := 2) (w := 3) (fun _ _ => ⟨rfl, rfl⟩) (fun _ _ => ⟨rfl, rfl⟩)
    exFresh (names := exNames) (by rw [startOf_eq _ 1 (by simp)]; exact exGlob _) 1
  refine ⟨k, h1, _, h2, ?_, ?_⟩
  · intro h
    have h3 := congrArg (fun M => (M 0 1 : Img ℚ).px 0 0) h
    dsimp only at h3
    rw [if_neg (by decide)] at h3
    have h4 : (100 + 10 * ((0 : Fin 3).val : ℚ) + ((1 : Fin 4).val : ℚ)) = 10 * ((0 : Fin 3).val : ℚ) + ((1 : Fin 4).val : ℚ) := h3
    norm_num at h4
  · intro h
    have h3 := congrArg (fun M => (M 0 0 : Img ℚ).px 0 0) h
    dsimp only at h3
    rw [if_pos (by decide)] at h3
    have h4 : 10 * ((0 : Fin 3).val : ℚ) + ((0 : Fin 4).val : ℚ) = (100 + 10 * ((0 : Fin 3).val : ℚ) + ((0 : Fin 4).val : ℚ)) := h3
    norm_num at h4

/-! ## Non-vacuity -/

/-- A load after the first calibration: `C107_undisturbed`, and through it the hypotheses of `C107_parts_partial` and `C107_first`. -/
example : loadResult (fun _ => none) [exOutput] (fun _ => 48) exNames = .ok ⟨exOutput.mij, some exOutput.fitFound⟩ :=
  C107_undisturbed (os := [exOutput]) (c := 0) (by simp) (h := 2) (w := 3) (fun _ _ => ⟨rfl, rfl⟩) exFresh
    ⟨fun _ _ _ => le_refl _, exGlob []⟩ (Or.inl fun _ => (startOf_eq _ 1 (by simp)).symm)

example : ∀ D, loadResult (fun _ => none) [exOutput] (fun _ => 48) exNames = .ok D → D.mij = exOutput.mij := fun _ hD =>
  (C107_first exFresh (fun i j => ⟨by show (2 : Nat) ≠ 1; omega, by show (3 : Nat) ≠ 1; omega⟩) ⟨fun _ _ _ => le_refl _, exGlob []⟩ hD).1

/-- Loads during the second calibration: `C107_not_older` holds for the mixtures, `C107_vanishes` for the failures. -/
example : ∃ k, LoadsAt (fun _ => none) [exOutput, exOutputNew] k exNames ∧
    loadResult (fun _ => none) [exOutput, exOutputNew] k exNames = .error .fileNotFoundError :=
  let ⟨k, h1, _, h2⟩ := C107_vanishes exFresh (names := exNames) (by rw [startOf_eq _ 1 (by simp)]; exact exGlob [exOutputNew])
  ⟨k, h1, h2⟩

end Micropol
