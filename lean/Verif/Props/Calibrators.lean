import Verif.Spec.Calibrators
import Verif.Props.Folder

/-!
# C137: several programs save calibrations into one folder at the same time
-/

set_option autoImplicit false

namespace Micropol

variable {K : Type} [Field K] {n : Nat}

/-- The last data written under a name. -/
def lastWrite : Listing K → Name → Option (Img K)
  | [], _ => none
  | w :: ws, q =>
    match lastWrite ws q with
    | some d => some d
    | none => if w.1 = q then some w.2 else none

theorem lastWrite_none {ws : Listing K} {q : Name} : lastWrite ws q = none ↔ q ∉ ws.map Prod.fst := by
  induction ws with
  | nil => simp [lastWrite]
  | cons w ws ih =>
    unfold lastWrite
    rw [List.map_cons, List.mem_cons, not_or, ← ih]
    cases lastWrite ws q with
    | some d => simp
    | none =>
      dsimp only
      by_cases h : w.1 = q
      · rw [if_pos h]; simp [h]
      · rw [if_neg h]; simp [Ne.symm h]

theorem lastWrite_mem {ws : Listing K} {q : Name} {d : Img K} (h : lastWrite ws q = some d) : (q, d) ∈ ws := by
  induction ws with
  | nil => cases h
  | cons w ws ih =>
    unfold lastWrite at h
    cases hl : lastWrite ws q with
    | some d' =>
      rw [hl] at h
      injection h with h
      subst h
      exact List.mem_cons_of_mem _ (ih hl)
    | none =>
      rw [hl] at h
      dsimp only at h
      by_cases hw : w.1 = q
      · rw [if_pos hw] at h
        injection h with h
        subst hw h
        exact List.mem_cons_self
      · rw [if_neg hw] at h; cases h

/-- The main folder after any list of operations. -/
theorem run_top_last (ops : List (FileOp K)) (f : CalibFolder K) (hn : UniqueNames f.top) :
    UniqueNames (ops.foldl FileOp.run f).top ∧
    ∀ e, e ∈ (ops.foldl FileOp.run f).top ↔
      lastWrite (topWrites ops) e.1 = some e.2 ∨ (e ∈ f.top ∧ e.1 ∉ (topWrites ops).map Prod.fst) := by
  induction ops generalizing f with
  | nil => exact ⟨hn, by simp [topWrites, lastWrite]⟩
  | cons op ops ih =>
    rw [List.foldl_cons]
    cases op with
    | mkCov => exact ih _ hn
    | cov q d => exact ih _ hn
    | top q d =>
      obtain ⟨h1, h2⟩ := ih (FileOp.run f (.top q d)) (putFile_nodup hn)
      refine ⟨h1, fun e => ?_⟩
      rw [h2 e]
      have hw : topWrites (FileOp.top q d :: ops) = (q, d) :: topWrites ops := rfl
      rw [hw, List.map_cons, List.mem_cons, not_or]
      show _ ∨ (e ∈ putFile f.top q d ∧ _) ↔ _
      rw [putFile_mem]
      have hnone := @lastWrite_none K _ (topWrites ops) e.1
      conv_rhs => unfold lastWrite
      cases hl : lastWrite (topWrites ops) e.1 with
      | some d' =>
        have : e.1 ∈ (topWrites ops).map Prod.fst := by
          by_contra h
          rw [hnone.2 h] at hl; cases hl
        simp [this]
      | none =>
        have hno := hnone.1 hl
        dsimp only
        obtain ⟨a, b⟩ := e
        dsimp only at hno ⊢
        by_cases hq : q = a
        · subst hq
          simp [hno, Prod.ext_iff, eq_comm]
        · simp [hno, hq, Ne.symm hq, Prod.ext_iff]

/-- The subfolder after any list of operations. -/
theorem run_cov_last (ops : List (FileOp K)) (f : CalibFolder K) (hn : UniqueNames (f.cov.getD [])) :
    UniqueNames ((ops.foldl FileOp.run f).cov.getD []) ∧
    ∀ e, e ∈ (ops.foldl FileOp.run f).cov.getD [] ↔
      lastWrite (covWrites ops) e.1 = some e.2 ∨ (e ∈ f.cov.getD [] ∧ e.1 ∉ (covWrites ops).map Prod.fst) := by
  induction ops generalizing f with
  | nil => exact ⟨hn, by simp [covWrites, lastWrite]⟩
  | cons op ops ih =>
    rw [List.foldl_cons]
    cases op with
    | mkCov => exact ih _ hn
    | top q d => exact ih _ hn
    | cov q d =>
      obtain ⟨h1, h2⟩ := ih (FileOp.run f (.cov q d)) (putFile_nodup hn)
      refine ⟨h1, fun e => ?_⟩
      rw [h2 e]
      have hw : covWrites (FileOp.cov q d :: ops) = (q, d) :: covWrites ops := rfl
      rw [hw, List.map_cons, List.mem_cons, not_or]
      show _ ∨ (e ∈ putFile (f.cov.getD []) q d ∧ _) ↔ _
      rw [putFile_mem]
      have hnone := @lastWrite_none K _ (covWrites ops) e.1
      conv_rhs => unfold lastWrite
      cases hl : lastWrite (covWrites ops) e.1 with
      | some d' =>
        have : e.1 ∈ (covWrites ops).map Prod.fst := by
          by_contra h
          rw [hnone.2 h] at hl; cases hl
        simp [this]
      | none =>
        have hno := hnone.1 hl
        dsimp only
        obtain ⟨a, b⟩ := e
        dsimp only at hno ⊢
        by_cases hq : q = a
        · subst hq
          simp [hno, Prod.ext_iff, eq_comm]
        · simp [hno, hq, Ne.symm hq, Prod.ext_iff]

theorem own_eq (o : CalibOutput K) (e : Name × Img K) : e ∈ ownFiles o ↔ e ∈ topWrites (saveOps o) := by
  unfold ownFiles
  rw [save_eq, (saveUntil_top o 27 ⟨[], none⟩ (by unfold UniqueNames; simp) _ (List.Perm.refl _)).2 e]
  exact ⟨fun h => h.elim id fun h => absurd h.1 List.not_mem_nil, Or.inl⟩

theorem ownCov_eq (o : CalibOutput K) (e : Name × Img K) : e ∈ ownCovFiles o ↔ e ∈ covWrites (saveOps o) := by
  have h := (run_cov (saveOps o) ⟨[], none⟩ (by simp) (by
    show [cName 0 0, cName 0 1, cName 0 2, cName 1 0, cName 1 1, cName 1 2, cName 2 0, cName 2 1, cName 2 2,
      chiName].Nodup
    decide)).2 e
  exact h.trans ⟨fun h => h.elim id fun h => absurd h.1 List.not_mem_nil, Or.inl⟩

theorem trace_write {o : Fin n → CalibOutput K} {l : List (Fin n × FileOp K)} (ht : IsTrace o l) {e : Name × Img K}
    (he : e ∈ topWrites (l.map Prod.snd)) : ∃ i, e ∈ topWrites (saveOps (o i)) := by
  unfold topWrites at he
  obtain ⟨op, h1, h2⟩ := List.mem_filterMap.1 he
  obtain ⟨⟨i, op'⟩, h3, rfl⟩ := List.mem_map.1 h1
  refine ⟨i, List.mem_filterMap.2 ⟨op', ?_, h2⟩⟩
  exact (ht i).subset (List.mem_map.2 ⟨(i, op'), List.mem_filter.2 ⟨h3, by simp⟩, rfl⟩)

theorem trace_covWrite {o : Fin n → CalibOutput K} {l : List (Fin n × FileOp K)} (ht : IsTrace o l) {e : Name × Img K}
    (he : e ∈ covWrites (l.map Prod.snd)) : ∃ i, e ∈ covWrites (saveOps (o i)) := by
  unfold covWrites at he
  obtain ⟨op, h1, h2⟩ := List.mem_filterMap.1 he
  obtain ⟨⟨i, op'⟩, h3, rfl⟩ := List.mem_map.1 h1
  refine ⟨i, List.mem_filterMap.2 ⟨op', ?_, h2⟩⟩
  exact (ht i).subset (List.mem_map.2 ⟨(i, op'), List.mem_filter.2 ⟨h3, by simp⟩, rfl⟩)

theorem finished_write {o : Fin n → CalibOutput K} {l : List (Fin n × FileOp K)} {i : Fin n} (hf : Finished o l i)
    {e : Name × Img K} (he : e ∈ topWrites (saveOps (o i))) : e ∈ topWrites (l.map Prod.snd) := by
  rw [← hf] at he
  obtain ⟨op, h1, h2⟩ := List.mem_filterMap.1 he
  obtain ⟨⟨i', op'⟩, h3, rfl⟩ := List.mem_map.1 h1
  exact List.mem_filterMap.2 ⟨op', List.mem_map.2 ⟨(i', op'), (List.mem_filter.1 h3).1, rfl⟩, h2⟩

theorem finished_covWrite {o : Fin n → CalibOutput K} {l : List (Fin n × FileOp K)} {i : Fin n} (hf : Finished o l i)
    {e : Name × Img K} (he : e ∈ covWrites (saveOps (o i))) : e ∈ covWrites (l.map Prod.snd) := by
  rw [← hf] at he
  obtain ⟨op, h1, h2⟩ := List.mem_filterMap.1 he
  obtain ⟨⟨i', op'⟩, h3, rfl⟩ := List.mem_map.1 h1
  exact List.mem_filterMap.2 ⟨op', List.mem_map.2 ⟨(i', op'), (List.mem_filter.1 h3).1, rfl⟩, h2⟩

/-- C137: at any moment every file of the folder, and of its subfolder, was there before or is a whole file of one of the calibrations;
once a calibration is finished, all its files are there in some version; files with other names stay. -/
theorem C137_files {o : Fin n → CalibOutput K} {l : List (Fin n × FileOp K)} (ht : IsTrace o l) (f : CalibFolder K)
    (hf : UniqueNames f.top) (hc : UniqueNames (f.cov.getD [])) :
    UniqueNames (traceRun f l).top ∧ UniqueNames ((traceRun f l).cov.getD []) ∧
    (∀ e ∈ (traceRun f l).top, e ∈ f.top ∨ ∃ i, e ∈ ownFiles (o i)) ∧
    (∀ e ∈ (traceRun f l).cov.getD [], e ∈ f.cov.getD [] ∨ ∃ i, e ∈ ownCovFiles (o i)) ∧
    (∀ i, Finished o l i → (∀ e ∈ ownFiles (o i), ∃ p d, (e.1, d) ∈ (traceRun f l).top ∧ (e.1, d) ∈ ownFiles (o p)) ∧
      ∀ e ∈ ownCovFiles (o i), ∃ p d, (e.1, d) ∈ (traceRun f l).cov.getD [] ∧ (e.1, d) ∈ ownCovFiles (o p)) ∧
    (∀ e ∈ f.top, (∀ i, ∀ e' ∈ ownFiles (o i), e'.1 ≠ e.1) → e ∈ (traceRun f l).top) ∧
    ∀ e ∈ f.cov.getD [], (∀ i, ∀ e' ∈ ownCovFiles (o i), e'.1 ≠ e.1) → e ∈ (traceRun f l).cov.getD [] := by
  obtain ⟨a1, a2⟩ := run_top_last (l.map Prod.snd) f hf
  obtain ⟨b1, b2⟩ := run_cov_last (l.map Prod.snd) f hc
  refine ⟨a1, b1, ?_, ?_, ?_, ?_, ?_⟩
  · intro e he
    rcases (a2 e).1 he with h | h
    · obtain ⟨i, hi⟩ := trace_write ht (lastWrite_mem h)
      exact Or.inr ⟨i, (own_eq _ _).2 hi⟩
    · exact Or.inl h.1
  · intro e he
    rcases (b2 e).1 he with h | h
    · obtain ⟨i, hi⟩ := trace_covWrite ht (lastWrite_mem h)
      exact Or.inr ⟨i, (ownCov_eq _ _).2 hi⟩
    · exact Or.inl h.1
  · intro i hi
    refine ⟨fun e he => ?_, fun e he => ?_⟩
    · have h := finished_write hi ((own_eq _ _).1 he)
      cases hl : lastWrite (topWrites (l.map Prod.snd)) e.1 with
      | none => exact absurd (List.mem_map_of_mem h) (lastWrite_none.1 hl)
      | some d =>
        obtain ⟨p, hp⟩ := trace_write ht (lastWrite_mem hl)
        exact ⟨p, d, (a2 (e.1, d)).2 (Or.inl hl), (own_eq _ _).2 hp⟩
    · have h := finished_covWrite hi ((ownCov_eq _ _).1 he)
      cases hl : lastWrite (covWrites (l.map Prod.snd)) e.1 with
      | none => exact absurd (List.mem_map_of_mem h) (lastWrite_none.1 hl)
      | some d =>
        obtain ⟨p, hp⟩ := trace_covWrite ht (lastWrite_mem hl)
        exact ⟨p, d, (b2 (e.1, d)).2 (Or.inl hl), (ownCov_eq _ _).2 hp⟩
  · intro e he hne
    refine (a2 e).2 (Or.inr ⟨he, fun h => ?_⟩)
    obtain ⟨e', h1, h2⟩ := List.mem_map.1 h
    obtain ⟨i, hi⟩ := trace_write ht h1
    exact hne i e' ((own_eq _ _).2 hi) h2
  · intro e he hne
    refine (b2 e).2 (Or.inr ⟨he, fun h => ?_⟩)
    obtain ⟨e', h1, h2⟩ := List.mem_map.1 h
    obtain ⟨i, hi⟩ := trace_covWrite ht h1
    exact hne i e' ((ownCov_eq _ _).2 hi) h2

theorem own_component {o : CalibOutput K} {i : Fin 3} {j : Fin 4} {d : Img K} (h : (mName i j, d) ∈ topWrites (saveOps o)) :
    d = o.mij i j := by
  have h1 := topWrites_component o 27 (by decide) i j
  have hn := topWrites_nodup o 27
  have e27 : (saveOps o).take 27 = saveOps o := rfl
  rw [e27] at h1 hn
  exact congrArg Prod.snd (List.inj_on_of_nodup_map hn h h1 rfl)

theorem own_flag {o : CalibOutput K} {d : Img K} (h : (flagName, d) ∈ topWrites (saveOps o)) : d = o.fitFound := by
  have h1 : (flagName, o.fitFound) ∈ topWrites (saveOps o) := by simp [topWrites, saveOps]
  have hn := topWrites_nodup o 27
  have e27 : (saveOps o).take 27 = saveOps o := rfl
  rw [e27] at hn
  exact congrArg Prod.snd (List.inj_on_of_nodup_map hn h h1 rfl)

/-- C137: when at least one of the programs has come to its end, the folder loads in every directory order; each of the twelve components,
and the map of flags, is that of one of the calibrations. -/
theorem C137_loads_partial {o : Fin n → CalibOutput K} {l : List (Fin n × FileOp K)} (ht : IsTrace o l) (i : Fin n)
    (hi : Finished o l i) {h w : Nat} (ho : ∀ p a b, ((o p).mij a b).HasShape h w) (f : CalibFolder K) (hf : CleanFolder f.top)
    (listing : Listing K) (hl : listing.Perm (traceRun f l).top) :
    ∃ mij F, loadDemodulator (some listing) = .ok ⟨mij, some F⟩ ∧ (∀ a b, ∃ p, mij a b = (o p).mij a b) ∧
      ∃ p, F = (o p).fitFound := by
  obtain ⟨a1, a2⟩ := run_top_last (l.map Prod.snd) f hf.1
  have hcomp : ∀ (a : Fin 3) (b : Fin 4), ∃ d, lastWrite (topWrites (l.map Prod.snd)) (mName a b) = some d ∧ ∃ p, d = (o p).mij a b := by
    intro a b
    have e27 : (saveOps (o i)).take 27 = saveOps (o i) := rfl
    have h1 := topWrites_component (o i) 27 (by decide) a b
    rw [e27] at h1
    cases hl : lastWrite (topWrites (l.map Prod.snd)) (mName a b) with
    | none => exact absurd (List.mem_map_of_mem (finished_write hi h1)) (lastWrite_none.1 hl)
    | some d =>
      obtain ⟨p, hp⟩ := trace_write ht (lastWrite_mem hl)
      exact ⟨d, rfl, p, own_component hp⟩
  choose mij hm hp using hcomp
  have hnd : (listing.map Prod.fst).Nodup := (hl.map _).nodup_iff.2 a1
  obtain ⟨flags, h1, h2⟩ := load_complete (listing := listing) (mij := mij) (h := h) (w := w)
    (fun a b => by obtain ⟨p, e⟩ := hp a b; rw [e]; exact ho p a b) hnd
    (fun a b => hl.mem_iff.2 ((a2 _).2 (Or.inl (hm a b)))) (by
      intro e he hfits hdig
      rcases (a2 e).1 (hl.mem_iff.1 he) with hw | ⟨hold, -⟩
      · obtain ⟨p, hp⟩ := trace_write ht (lastWrite_mem hw)
        have e27 : (saveOps (o p)).take 27 = saveOps (o p) := rfl
        rw [← e27] at hp
        rcases topWrites_cases (o p) 27 _ hp with ⟨i, j, hh⟩ | ⟨hno, -⟩ | hh
        · exact ⟨i, j, congrArg Prod.fst hh⟩
        · rw [show twoDigits e.1 = none from hno] at hdig; cases hdig
        · rw [show e.1 = flagName from congrArg Prod.fst hh, twoDigits_flagName] at hdig; cases hdig
      · exact hf.2 e hold (isFits_iff.1 hfits) (twoDigits_isSome.1 hdig))
  have hflag : (flagName, (o i).fitFound) ∈ topWrites (saveOps (o i)) := by simp [topWrites, saveOps]
  cases hlf : lastWrite (topWrites (l.map Prod.snd)) flagName with
  | none => exact absurd (List.mem_map_of_mem (finished_write hi hflag)) (lastWrite_none.1 hlf)
  | some F =>
    have hF : (flagName, F) ∈ listing := hl.mem_iff.2 ((a2 _).2 (Or.inl hlf))
    obtain ⟨p, hpw⟩ := trace_write ht (lastWrite_mem hlf)
    refine ⟨mij, F, ?_, hp, p, own_flag hpw⟩
    rcases h2 with ⟨-, hno⟩ | ⟨F', hF', rfl⟩
    · exact absurd rfl (hno _ hF)
    · have := List.inj_on_of_nodup_map hnd hF' hF rfl
      injection this with _ e
      rw [h1, e]

/-- C137: programs that save the same calibration do not disturb each other: when one of them has come to its end, its calibration loads,
whatever the others have done or are still doing. -/
theorem C137_same {o : CalibOutput K} {l : List (Fin n × FileOp K)} (ht : IsTrace (fun _ => o) l) (i : Fin n)
    (hi : Finished (fun _ => o) l i) {h w : Nat} (ho : ∀ a b, (o.mij a b).HasShape h w) (f : CalibFolder K) (hf : CleanFolder f.top)
    (listing : Listing K) (hl : listing.Perm (traceRun f l).top) :
    loadDemodulator (some listing) = .ok ⟨o.mij, some o.fitFound⟩ := by
  obtain ⟨mij, F, h1, h2, p, rfl⟩ := C137_loads_partial ht i hi (fun _ => ho) f hf listing hl
  have : mij = o.mij := by
    funext a b
    obtain ⟨p, h⟩ := h2 a b
    exact h
  rw [h1, this]

/-- C137: wherever the programs are stopped, a folder without numbered files before them gives an error or a tensor each component of
which is that of one of the calibrations (for the same calibration: C29 for any number of programs). -/
theorem C137_stopped {o : Fin n → CalibOutput K} {l : List (Fin n × FileOp K)} (ht : IsTrace o l)
    {h w : Nat} (ho : ∀ p a b, ((o p).mij a b).HasShape h w) (f : CalibFolder K) (hf : FreshFolder f.top)
    (listing : Listing K) (hl : listing.Perm (traceRun f l).top) :
    (∃ err, loadDemodulator (some listing) = .error err) ∨
    ∃ mij flags, loadDemodulator (some listing) = .ok ⟨mij, flags⟩ ∧ ∀ a b, ∃ p, mij a b = (o p).mij a b := by
  obtain ⟨a1, a2⟩ := run_top_last (l.map Prod.snd) f hf.1
  have hnd : (listing.map Prod.fst).Nodup := (hl.map _).nodup_iff.2 a1
  have hnum : ∀ e ∈ listing, ListedFits e.1 → HasDigitPair e.1 →
      ∃ (i : Fin 3) (j : Fin 4) (p : Fin n), e = (mName i j, (o p).mij i j) := by
    intro e he hfits hdig
    rcases (a2 e).1 (hl.mem_iff.1 he) with hw | ⟨hold, -⟩
    · obtain ⟨p, hp⟩ := trace_write ht (lastWrite_mem hw)
      have e27 : (saveOps (o p)).take 27 = saveOps (o p) := rfl
      rw [← e27] at hp
      rcases topWrites_cases (o p) 27 _ hp with ⟨i, j, hh⟩ | ⟨hno, -⟩ | hh
      · exact ⟨i, j, p, hh⟩
      · exact absurd hdig (twoDigits_none.1 hno)
      · rw [show e.1 = flagName from congrArg Prod.fst hh] at hdig
        exact absurd hdig (twoDigits_none.1 twoDigits_flagName)
    · exact absurd hdig (hf.2 e hold hfits)
  by_cases hall : ∀ (i : Fin 3) (j : Fin 4), ∃ p, (mName i j, (o p).mij i j) ∈ listing
  · right
    choose p hp using hall
    obtain ⟨flags, h1, -⟩ := load_complete (listing := listing) (mij := fun i j => (o (p i j)).mij i j) (h := h) (w := w)
      (fun i j => ho _ i j) hnd hp (by
        intro e he h1 h2
        obtain ⟨i, j, _, hh⟩ := hnum e he (isFits_iff.1 h1) (twoDigits_isSome.1 h2)
        exact ⟨i, j, congrArg Prod.fst hh⟩)
    exact ⟨_, flags, h1, fun a b => ⟨_, rfl⟩⟩
  · left
    push Not at hall
    obtain ⟨i, j, hij⟩ := hall
    refine C27_missing_refused_partial i j ?_ ?_
    · intro e he hfits hd
      have hpair : HasDigitPair e.1 := twoDigits_isSome.1 (by rw [twoDigits_some.2 hd]; rfl)
      obtain ⟨i', j', p, rfl⟩ := hnum e he hfits hpair
      have := twoDigits_some.2 hd
      rw [twoDigits_mName] at this
      injection this with this
      injection this with e1 e2
      have e1 := Fin.ext e1
      have e2 := Fin.ext e2
      subst e1 e2
      exact hij p he
    · have hpw : listing.Pairwise (fun e e' => e.1 ≠ e'.1) := List.pairwise_map.1 hnd
      refine hpw.imp_of_mem ?_
      intro e e' he he' hne hf1 hf2 i j hd hd'
      have p1 : HasDigitPair e.1 := twoDigits_isSome.1 (by rw [twoDigits_some.2 hd]; rfl)
      have p2 : HasDigitPair e'.1 := twoDigits_isSome.1 (by rw [twoDigits_some.2 hd']; rfl)
      obtain ⟨a, b, _, rfl⟩ := hnum e he hf1 p1
      obtain ⟨a', b', _, rfl⟩ := hnum e' he' hf2 p2
      have e1 := twoDigits_some.2 hd
      have e2 := twoDigits_some.2 hd'
      rw [twoDigits_mName] at e1 e2
      rw [← e2] at e1
      injection e1 with e1
      injection e1 with ea eb
      exact hne (by rw [Fin.ext ea, Fin.ext eb])

/-- Program 0 writes its first file, program 1 all its files, then program 0 the rest. -/
def mixedTrace (o : Fin 2 → CalibOutput K) : List (Fin 2 × FileOp K) :=
  (0, .top (mName 0 0) ((o 0).mij 0 0)) :: ((saveOps (o 1)).map (fun op => (1, op)) ++ ((saveOps (o 0)).drop 1).map (fun op => (0, op)))

theorem mixed_finished (o : Fin 2 → CalibOutput K) (i : Fin 2) : Finished o (mixedTrace o) i := by
  fin_cases i <;> rfl

/-- C137 does not hold in full: two programs that save different calibrations, both to their end, may leave a folder that loads without
complaint and is neither of the two: component 00 is that of program 1, everything else that of program 0. -/
theorem C137_mixed (o : Fin 2 → CalibOutput K) {h w : Nat} (ho : ∀ p a b, ((o p).mij a b).HasShape h w) (listing : Listing K)
    (hl : listing.Perm (traceRun ⟨[], none⟩ (mixedTrace o)).top) :
    IsTrace o (mixedTrace o) ∧ (∀ i, Finished o (mixedTrace o) i) ∧
    loadDemodulator (some listing) =
      .ok ⟨fun a b => if a = 0 ∧ b = 0 then (o 1).mij a b else (o 0).mij a b, some (o 0).fitFound⟩ := by
  have ht : IsTrace o (mixedTrace o) := fun i => by rw [mixed_finished o i]
  refine ⟨ht, mixed_finished o, ?_⟩
  obtain ⟨a1, a2⟩ := run_top_last ((mixedTrace o).map Prod.snd) (⟨[], none⟩ : CalibFolder K) (by unfold UniqueNames; simp)
  have hnd : (listing.map Prod.fst).Nodup := (hl.map _).nodup_iff.2 a1
  obtain ⟨mij, F, h1, -, -⟩ := C137_loads_partial ht 0 (mixed_finished o 0) ho ⟨[], none⟩
    ⟨by unfold UniqueNames; simp, fun e he => by simp at he⟩ listing hl
  obtain ⟨flags, h2, h3⟩ := load_complete (listing := listing)
    (mij := fun a b => if a = 0 ∧ b = 0 then (o 1).mij a b else (o 0).mij a b) (h := h) (w := w)
    (fun a b => by split <;> exact ho _ a b) hnd
    (fun a b => hl.mem_iff.2 ((a2 _).2 (Or.inl (by fin_cases a <;> fin_cases b <;> rfl)))) (by
      intro e he hfits hdig
      rcases (a2 e).1 (hl.mem_iff.1 he) with hw | ⟨hold, -⟩
      · obtain ⟨p, hp⟩ := trace_write ht (lastWrite_mem hw)
        have e27 : (saveOps (o p)).take 27 = saveOps (o p) := rfl
        rw [← e27] at hp
        rcases topWrites_cases (o p) 27 _ hp with ⟨i, j, hh⟩ | ⟨hno, -⟩ | hh
        · exact ⟨i, j, congrArg Prod.fst hh⟩
        · rw [show twoDigits e.1 = none from hno] at hdig; cases hdig
        · rw [show e.1 = flagName from congrArg Prod.fst hh, twoDigits_flagName] at hdig; cases hdig
      · simp at hold)
  have hF : (flagName, (o 0).fitFound) ∈ listing := hl.mem_iff.2 ((a2 _).2 (Or.inl rfl))
  rcases h3 with ⟨-, hno⟩ | ⟨F', hF', rfl⟩
  · exact absurd rfl (hno _ hF)
  · have := List.inj_on_of_nodup_map hnd hF' hF rfl
    injection this with _ e
    rw [h2, e]

/-! ## Samples -/

/-- Two calibrations of one superpixel. -/
def twoOutputs (p : Fin 2) : CalibOutput ℚ :=
  let A : Img ℚ := Img.const 1 1 (if p = 0 then 1 else 2)
  ⟨fun _ _ => A, fun _ _ => A, A, A, A, A, A⟩

/-- The two calibrations give a third one: `C137_mixed`, and with it `C137_files` and `C137_loads_partial`, apply. -/
example : loadDemodulator (some (traceRun ⟨[], none⟩ (mixedTrace twoOutputs)).top) =
    .ok ⟨fun a b => if a = 0 ∧ b = 0 then Img.const 1 1 2 else Img.const 1 1 1, some (Img.const 1 1 1)⟩ :=
  (C137_mixed twoOutputs (h := 1) (w := 1) (fun _ _ _ => ⟨rfl, rfl⟩) _ (List.Perm.refl _)).2.2

example : IsTrace twoOutputs (mixedTrace twoOutputs) ∧ Finished twoOutputs (mixedTrace twoOutputs) 1 :=
  ⟨fun i => by rw [mixed_finished twoOutputs i], mixed_finished _ 1⟩

/-- `C137_same`: the same calibration saved by two programs. -/
example (listing : Listing ℚ) (hl : listing.Perm (traceRun ⟨[], none⟩ (mixedTrace (fun _ => twoOutputs 0))).top) :
    loadDemodulator (some listing) = .ok ⟨fun _ _ => Img.const 1 1 1, some (Img.const 1 1 1)⟩ :=
  C137_same (fun i => by rw [mixed_finished _ i]) 0 (mixed_finished _ 0) (h := 1) (w := 1) (fun _ _ => ⟨rfl, rfl⟩) ⟨[], none⟩
    ⟨by unfold UniqueNames; simp, fun e he => by simp at he⟩ listing hl

/-- `C137_stopped`: both programs stopped after one file. -/
example : IsTrace twoOutputs [(1, .top (mName 0 0) (Img.const 1 1 2)), (0, .top (mName 0 0) (Img.const 1 1 1))] := by
  intro i
  fin_cases i
  · exact ⟨(saveOps (twoOutputs 0)).drop 1, rfl⟩
  · exact ⟨(saveOps (twoOutputs 1)).drop 1, rfl⟩

end Micropol
