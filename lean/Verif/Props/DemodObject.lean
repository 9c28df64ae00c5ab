import Verif.Spec.DemodObject
import Verif.Props.Glob

/-!
# C140: a `Demodulator` stays with one calibration

Full property: the tensor `mij`, the maps `eff`, `tk`, `phi` and the covariance `Cij` of a `Demodulator` are those of one calibration,
whatever happens after it was made: the program changes its current directory, or other calibrations are saved.

It holds as long as the files are not changed and the name of the folder still means the same folder, in particular for absolute names in
every current directory (`C140_stays_partial`).  Otherwise the object mixes calibrations: after `os.chdir` a relative name gives the maps
of another folder or `FileNotFoundError` (`C140_chdir`, `C140_full_claim_false`), and after another calibration is saved to the same
folder the maps are the new ones while the tensor is the old one (`C140_mixed`).
-/

set_option autoImplicit false
set_option linter.unusedSectionVars false

namespace Micropol

variable {fit : GaussFit} {env : CalibEnv} {a : CalibArgs} {ny nx : Nat} {schedule : List Nat} {cwd : List Name} {fs : FileSystem}
  {dir : Name} {maps : CalibMaps}

theorem after_file {s : DiskState} {l : List DiskStep} {p : Name} (h : ∀ c, DiskStep.change p c ∉ l) :
    (s.after l).fs.file p = s.fs.file p := by
  unfold DiskState.after
  induction l generalizing s with
  | nil => rfl
  | cons x l ih =>
    rw [List.foldl_cons, ih fun c hc => h c (List.mem_cons_of_mem _ hc)]
    cases x with
    | chdir d => rfl
    | change q c =>
      refine if_neg fun hq => ?_
      subst hq
      exact h c List.mem_cons_self

theorem abspath_same {dir : Name} {cwd cwd' : List Name} (h : SameMeaning dir cwd cwd') : abspath cwd' dir = abspath cwd dir := by
  rcases h with h | h
  · unfold abspath absComponents
    rw [if_pos h, if_pos h]
  · rw [h]

theorem hidden_good {n : Name} (h1 : '/' ∉ n) (h2 : n ≠ []) (h3 : n.head? ≠ some '.') : GoodComp n :=
  ⟨h2, by rintro rfl; exact h3 rfl, by rintro rfl; exact h3 rfl, h1⟩

theorem covFolder_plain {dir : Name} (h : PlainName dir) : PlainName (dir ++ '/' :: covFolder) := by
  intro c hc
  rcases List.mem_append.1 hc with hc | hc
  · exact h c hc
  · have : ∀ c ∈ '/' :: covFolder, c ≠ '*' ∧ c ≠ '?' ∧ c ≠ '[' := by decide
    exact this c hc

theorem covListing_plain (h : PlainName dir) {L : Listing ℝ} (hL : IsCovListing cwd fs dir L) :
    UniqueNames L ∧ ∀ n v, (n, v) ∈ L ↔ '/' ∉ n ∧ n ≠ [] ∧ n.head? ≠ some '.' ∧
      fs.file (fileIn cwd (dir ++ "/covariance_tensor".toList) n) = some (.fits v) := by
  have hp := covFolder_plain h
  have hne : dir ++ '/' :: covFolder ≠ [] := by simp
  obtain ⟨P, h1, h2, h3⟩ := hL
  have hq : ∀ x ∈ P, x.1 = components (dir ++ '/' :: covFolder) := fun x hx => (globFolder_plain hp x.1).1 ((h2 x.1 x.2).1 hx).1
  have hnames : L.map Prod.fst = P.map Prod.snd := by
    clear h1 h2 hq
    induction h3 with
    | nil => rfl
    | cons hxy _ ih => rw [List.map_cons, List.map_cons, hxy.1, ih]
  obtain ⟨m1, m2⟩ := forall₂_mem h3
  rw [covPath]
  constructor
  · unfold UniqueNames
    rw [hnames]
    refine List.Nodup.map_on ?_ h1
    intro x hx y hy hxy
    exact Prod.ext ((hq x hx).trans (hq y hy).symm) hxy
  · intro n v
    constructor
    · intro hm
      obtain ⟨x, hx, e1, e2⟩ := m1 _ hm
      obtain ⟨g1, g2, g3, g4, g5, g6⟩ := (h2 x.1 x.2).1 hx
      have e1 : n = x.2 := e1
      rw [hq x hx, globPath_plain hne (hidden_good g3 g4 g5)] at e2
      rw [e1]
      exact ⟨g3, g4, g5, e2⟩
    · rintro ⟨g3, g4, g5, g6⟩
      have hg := hidden_good g3 g4 g5
      have hx : (components (dir ++ '/' :: covFolder), n) ∈ P := (h2 _ _).2 ⟨(globFolder_plain hp _).2 rfl, chenComps_good _, g3, g4, g5, by
        rw [globPath_plain hne hg, g6]; simp⟩
      obtain ⟨e, he, e1, e2⟩ := m2 _ hx
      have e1 : e.1 = n := e1
      rw [globPath_plain hne hg, g6] at e2
      injection e2 with e2
      injection e2 with e2
      rw [show (n, v) = e from Prod.ext e1.symm e2]
      exact he

theorem calculate_cov {fs : Name → Option (Img ℝ)} (hm : calculateDemodulationTensor fs fit env a ny nx schedule = .ok maps)
    (hord : schedule.Perm (List.range (ny * nx))) :
    ∃ h w, (∀ i j, (maps.cov i j).HasShape h w) ∧ maps.chisq.HasShape h w := by
  obtain ⟨inp, -, hg, hc, -⟩ := calculate_inv hm hord
  rw [calibrate_eq env inp hg.ny_pos hg.nx_pos hg.even_y hg.even_x hg.order] at hc
  injection hc with hc
  subst hc
  exact ⟨inp.height, inp.width, fun i j => ⟨rfl, rfl⟩, ⟨rfl, rfl⟩⟩

/-- The maps of an object in a state in which the files of the calibration are in its folder. -/
theorem shows_maps {o : CalibOutput ℝ} {s : DiskState} {d : DemodObject} {cwd : List Name} (hcwd : ∀ x ∈ cwd, GoodComp x)
    (hs : ∀ x ∈ s.cwd, GoodComp x) (hdir : dir ≠ []) (hd : d.path ≠ []) (heq : abspath s.cwd d.path = abspath cwd dir)
    (hall : ∀ e ∈ tensorFiles o, s.fs.file (fileIn cwd dir e.1) = some (.fits e.2)) :
    d.eff s = .ok o.eff ∧ d.tk s = .ok o.tk ∧ d.phi s = .ok o.phase := by
  have key : ∀ e ∈ tensorFiles o, d.readMap s e.1 = .ok e.2 := by
    intro e he
    have h1 := hall e he
    rw [← fileIn_eq hcwd hs hdir hd heq (tensorFiles_good he).1] at h1
    unfold fileIn at h1
    unfold DemodObject.readMap readLive FileSystem.folderAt
    rw [h1]
  refine ⟨key ("efficiences.fits".toList, o.eff) ?_, key ("transmittancies.fits".toList, o.tk) ?_, key ("phases.fits".toList, o.phase) ?_⟩ <;>
  · unfold tensorFiles
    rw [List.mem_append]
    right
    simp

theorem covFiles_explicit (o : CalibOutput ℝ) : tensorCovFiles o =
      [("C00.fits".toList, o.cov 0 0), ("C01.fits".toList, o.cov 0 1), ("C02.fits".toList, o.cov 0 2),
       ("C10.fits".toList, o.cov 1 0), ("C11.fits".toList, o.cov 1 1), ("C12.fits".toList, o.cov 1 2),
       ("C20.fits".toList, o.cov 2 0), ("C21.fits".toList, o.cov 2 1), ("C22.fits".toList, o.cov 2 2),
       ("reduced_chisquare.fits".toList, o.chisq)] := by
  rw [tensorCovFiles_cov]
  rfl

/-- C140: after a calibration was saved and its `Demodulator` made, the object shows this calibration after every history that does not
change its files, if the name of the folder is absolute or the current directory is again the one in which the object was made.
Missing from the full property: histories that change the files, or a relative name and another directory, see `C140_chdir` and
`C140_mixed`. -/
theorem C140_stays_partial (hcwd : ∀ x ∈ cwd, GoodComp x) (hdir : dir ≠ []) (hway : OpenWay cwd fs dir) (hclean : CleanAt cwd fs dir)
    (hord : schedule.Perm (List.range (ny * nx)))
    (h : calculateDemodulationTensor (fs.images cwd) fit env a ny nx schedule = .ok maps) :
    ∃ final, (demodCall fit env a ny nx schedule cwd fs dir).Final final ∧
      ∀ (cwd' : List Name) (dir' : Name), (∀ x ∈ cwd', GoodComp x) → dir' ≠ [] → PlainName dir' → abspath cwd' dir' = abspath cwd dir →
        ∀ L, IsGlobListing cwd' final dir' L → ∃ d, (DiskState.mk cwd' final).demodulator dir' L = .ok d ∧
          ∀ l, LeavesAlone cwd dir maps.output l → (∀ x ∈ ((DiskState.mk cwd' final).after l).cwd, GoodComp x) →
            SameMeaning dir' cwd' ((DiskState.mk cwd' final).after l).cwd → CleanCov cwd ((DiskState.mk cwd' final).after l).fs dir →
            Shows d ((DiskState.mk cwd' final).after l) maps.output := by
  obtain ⟨final, hfin, hload⟩ := C139_loads_partial hcwd hdir hway hclean hord h
  obtain ⟨final', hfin', -, hall, -⟩ := demodCall_final hcwd hdir hway h
  have : final' = final := Option.some.inj (hfin'.symm.trans hfin)
  subst this
  refine ⟨final', hfin, fun cwd' dir' hcwd' hdir' hplain heq L hL => ?_⟩
  refine ⟨⟨dir', ⟨maps.mij, some maps.fitFound⟩⟩, ?_, ?_⟩
  · unfold DiskState.demodulator
    rw [hload cwd' dir' hcwd' hdir' hplain heq L hL]
    rfl
  intro l hl hgood hsame hcov
  obtain ⟨s, hs⟩ : ∃ s, s = (DiskState.mk cwd' final').after l := ⟨_, rfl⟩
  rw [← hs] at hgood hsame hcov ⊢
  have hkeep : ∀ p v, (p, v) ∈ diskFiles cwd dir maps.output → s.fs.file p = some (.fits v) := by
    intro p v hp
    rw [hs, after_file fun c hc => hl p c hc (List.mem_map.2 ⟨_, hp, rfl⟩)]
    exact hall p v hp
  have heq' : abspath s.cwd dir' = abspath cwd dir := (abspath_same hsame).trans heq
  obtain ⟨r1, r2, r3⟩ := shows_maps (o := maps.output) (s := s) (d := ⟨dir', ⟨maps.mij, some maps.fitFound⟩⟩) hcwd hgood hdir hdir' heq'
    fun e he => hkeep _ _ (List.mem_append.2 (Or.inl (List.mem_map.2 ⟨e, he, rfl⟩)))
  refine ⟨rfl, r1, r2, r3, fun C hC => ?_⟩
  obtain ⟨hu, hm⟩ := covListing_plain hplain hC
  have hfile : ∀ n, GoodComp n → fileIn s.cwd (dir' ++ "/covariance_tensor".toList) n = fileIn cwd (dir ++ "/covariance_tensor".toList) n := by
    intro n hn
    refine fileIn_eq hcwd hgood (by simp) (by simp) ?_ hn
    rw [covPath, (abspath_slash s.cwd hdir' covFolder_good).1, (abspath_slash cwd hdir covFolder_good).1]
    unfold abspath at heq'
    rw [pathString_injective (fun x hx => chenAbs_good hgood dir' x (resolveDots_mem hx).1)
      (fun x hx => chenAbs_good hcwd dir x (resolveDots_mem hx).1) heq']
  have hown : ∀ e ∈ tensorCovFiles maps.output, s.fs.file (fileIn cwd (dir ++ "/covariance_tensor".toList) e.1) = some (.fits e.2) :=
    fun e he => hkeep _ _ (List.mem_append.2 (Or.inr (List.mem_map.2 ⟨e, he, rfl⟩)))
  have hhid : ∀ e ∈ tensorCovFiles maps.output, e.1.head? ≠ some '.' := by
    intro e he
    rw [covFiles_explicit] at he
    simp only [List.mem_cons, List.not_mem_nil, or_false] at he
    rcases he with rfl | rfl | rfl | rfl | rfl | rfl | rfl | rfl | rfl | rfl <;> simp
  have hmem : ∀ e, e ∈ C ↔ e ∈ tensorCovFiles maps.output := by
    intro e
    constructor
    · intro he
      obtain ⟨g1, g2, g3, g4⟩ := (hm e.1 e.2).1 he
      rw [hfile _ (hidden_good g1 g2 g3)] at g4
      have hn : e.1 ∈ (tensorCovFiles maps.output).map Prod.fst := by
        rw [covFiles_explicit]
        rcases hcov e.1 g1 g2 g3 (by rw [g4]; simp) with ⟨i, j, hij⟩ | hchi
        · rw [hij]
          fin_cases i <;> fin_cases j <;> simp [digitChar]
        · rw [hchi]; simp
      obtain ⟨e', he', hee⟩ := List.mem_map.1 hn
      rw [← hee, hown e' he'] at g4
      injection g4 with g4
      injection g4 with g4
      rw [← show e' = e from Prod.ext hee g4]
      exact he'
    · intro he
      have hg := tensorCovFiles_good he
      exact (hm e.1 e.2).2 ⟨hg.2.2.2, hg.1, hhid e he, by rw [hfile _ hg]; exact hown e he⟩
  obtain ⟨c, c1, -, c2, -, c3⟩ := C28_files maps.output
  obtain ⟨sh, sw, s1, s2⟩ := calculate_cov h hord
  refine C28_covariance maps.output sh sw s1 s2 ⟨[], none⟩ (by unfold UniqueNames; simp) (by simp) C ?_
  rw [c1]
  show C.Perm c
  rw [List.perm_ext_iff_of_nodup (List.Nodup.of_map _ hu) (List.Nodup.of_map _ c2)]
  intro e
  rw [hmem, covFiles_explicit, c3]

/-- C140: a relative name is looked up in the current directory of the moment: after `os.chdir` the maps are those of whatever calibration
the same name has there, and the tensor is the one that was read before. -/
theorem C140_chdir {o : CalibOutput ℝ} (s : DiskState) {d : DemodObject} (hd : d.path ≠ []) {cwd' : List Name}
    (hcwd' : ∀ x ∈ cwd', GoodComp x) (hall : ∀ e ∈ tensorFiles o, s.fs.file (fileIn cwd' d.path e.1) = some (.fits e.2)) :
    d.eff (s.after [.chdir cwd']) = .ok o.eff ∧ d.tk (s.after [.chdir cwd']) = .ok o.tk ∧ d.phi (s.after [.chdir cwd']) = .ok o.phase :=
  shows_maps (s := s.after [.chdir cwd']) hcwd' hcwd' hd hd rfl hall

/-- C140: and if the name is not there, the maps cannot be read any more. -/
theorem C140_lost (s : DiskState) {d : DemodObject} {cwd' : List Name} (hno : ∀ n, GoodComp n → s.fs.file (fileIn cwd' d.path n) = none) :
    d.eff (s.after [.chdir cwd']) = .error .fileNotFoundError ∧ d.tk (s.after [.chdir cwd']) = .error .fileNotFoundError ∧
    d.phi (s.after [.chdir cwd']) = .error .fileNotFoundError := by
  have key : ∀ n, GoodComp n → d.readMap (s.after [.chdir cwd']) n = .error .fileNotFoundError := by
    intro n hn
    have h1 := hno n hn
    unfold fileIn at h1
    have h2 : (s.after [.chdir cwd']).fs.file (abspath (s.after [.chdir cwd']).cwd (d.path ++ '/' :: n)) = none := h1
    unfold DemodObject.readMap readLive FileSystem.folderAt
    rw [h2]
  refine ⟨key _ ?_, key _ ?_, key _ ?_⟩ <;> exact ⟨by decide, by decide, by decide, by decide⟩

/-- C140: after another calibration is saved to the folder, the maps of an object made before are the new ones, its tensor the old one. -/
theorem C140_mixed (hcwd : ∀ x ∈ cwd, GoodComp x) (hdir : dir ≠ []) (hway : OpenWay cwd fs dir)
    (h : calculateDemodulationTensor (fs.images cwd) fit env a ny nx schedule = .ok maps) {L : Listing ℝ} {d : DemodObject}
    (hd : (DiskState.mk cwd fs).demodulator dir L = .ok d) :
    ∃ final, (demodCall fit env a ny nx schedule cwd fs dir).Final final ∧
      demodulatorAt cwd fs dir L = .ok d.tensor ∧ d.eff ⟨cwd, final⟩ = .ok maps.eff ∧ d.tk ⟨cwd, final⟩ = .ok maps.tk ∧
      d.phi ⟨cwd, final⟩ = .ok maps.phase := by
  obtain ⟨final, hfin, -, hall, -⟩ := demodCall_final hcwd hdir hway h
  unfold DiskState.demodulator at hd
  obtain ⟨t, ht, hd⟩ := Py.bind_eq_ok.1 hd
  injection hd with hd
  subst hd
  exact ⟨final, hfin, ht, shows_maps (o := maps.output) (s := ⟨cwd, final⟩) hcwd hcwd hdir hdir rfl fun e he =>
    hall _ _ (List.mem_append.2 (Or.inl (List.mem_map.2 ⟨e, he, rfl⟩)))⟩

/-! ## The hypotheses are met -/

theorem runDisk_final : ∃ (maps : CalibMaps) (final : FileSystem),
    calculateDemodulationTensor (runDisk.images []) (fun _ _ _ => none) exactEnv runArgs 1 1 [0] = .ok maps ∧
    (demodCall (fun _ _ _ => none) exactEnv runArgs 1 1 [0] [] runDisk "cal".toList).Final final ∧
    IsGlobListing [] final "cal".toList (tensorFiles maps.output) ∧
    (∀ q, q ∉ (diskFiles [] "cal".toList maps.output).map Prod.fst → final.file q = runDisk.file q) ∧
    ∀ p d, (p, d) ∈ diskFiles [] "cal".toList maps.output → final.file p = some (.fits d) := by
  obtain ⟨maps, h, hm⟩ := runDisk_calculated
  have hw : OpenWay [] runDisk "cal".toList := runDisk_open (x := "cal".toList) (by decide) (by decide)
  have hp : PlainName "cal".toList := by unfold PlainName; decide
  obtain ⟨final', h3, -, h4, h5⟩ := demodCall_final (dir := "cal".toList) (by simp) (by decide) hw h
  refine ⟨maps, final', h, h3, ?_, h5, h4⟩
  have hown : ∀ e ∈ tensorFiles maps.output, final'.file (fileIn [] "cal".toList e.1) = some (.fits e.2) := fun e he =>
    h4 _ _ (List.mem_append.2 (Or.inl (List.mem_map.2 ⟨e, he, rfl⟩)))
  refine ⟨(tensorFiles maps.output).map fun e => (components "cal".toList, e.1), ?_, ?_, ?_⟩
  · have := tensorFiles_nodup (o := maps.output)
    have h := List.Nodup.map (f := fun n : Name => (components "cal".toList, n)) (fun _ _ h => (Prod.mk.inj h).2) this
    rwa [List.map_map] at h
  · intro q n
    constructor
    · intro hx
      obtain ⟨e, he, heq⟩ := List.mem_map.1 hx
      obtain ⟨rfl, rfl⟩ := Prod.mk.inj heq
      have hg := tensorFiles_good he
      refine ⟨(globFolder_plain hp _).2 rfl, chenComps_good _, hg.1.2.2.2, hg.2.1, ?_⟩
      rw [globPath_plain (by decide) hg.1, hown e he]
      simp
    · rintro ⟨g1, g2, g3, g4, g5⟩
      rw [(globFolder_plain hp _).1 g1] at g5 ⊢
      have hg := fits_good g4 g3
      rw [globPath_plain (by decide) hg] at g5
      by_cases hn : n ∈ (tensorFiles maps.output).map Prod.fst
      · obtain ⟨e, he, rfl⟩ := List.mem_map.1 hn
        exact List.mem_map.2 ⟨e, he, rfl⟩
      · rw [h5 _ fun hx => hn (disk_own (by simp) (by decide) hg hx),
          runDisk_below g3 (isFits_iff.1 g4) (by decide) (x := "cal".toList) (by decide) (by decide)] at g5
        exact absurd rfl g5
  · rw [List.forall₂_map_left_iff, List.forall₂_same]
    intro e he
    exact ⟨rfl, by rw [globPath_plain (by decide) (tensorFiles_good he).1]; exact hown e he⟩

theorem cov_only {maps : CalibMaps} {final : FileSystem}
    (h5 : ∀ q, q ∉ (diskFiles [] "cal".toList maps.output).map Prod.fst → final.file q = runDisk.file q) :
    CleanCov [] final "cal".toList := by
  intro n g1 g2 g3 g4
  have hg := hidden_good g1 g2 g3
  have hres : resolveDots (absComponents [] ("cal".toList ++ "/covariance_tensor".toList)) = ["cal".toList, covFolder] := by decide
  have hm : fileIn [] ("cal".toList ++ "/covariance_tensor".toList) n ∈ (diskFiles [] "cal".toList maps.output).map Prod.fst := by
    by_contra hno
    apply g4
    rw [h5 _ hno]
    apply runDisk_long
    unfold fileIn
    rw [(abspath_slash [] (by simp) hg).1, hres]
    unfold pathString
    rw [List.cons_append, joinChar_cons (by simp)]
    intro hl
    simp at hl
  unfold diskFiles at hm
  rw [List.map_append, List.map_map, List.map_map] at hm
  rcases List.mem_append.1 hm with hm | hm
  · obtain ⟨e, he, heq⟩ := List.mem_map.1 hm
    have := (fileIn_split (cwd := []) (by simp) (by decide) (by simp) (tensorFiles_good he).1 hg heq).1
    rw [hres] at this
    exact absurd this (by decide)
  · obtain ⟨e, he, heq⟩ := List.mem_map.1 hm
    have hn := (fileIn_split (cwd := []) (by simp) (by simp) (by simp) (tensorCovFiles_good he) hg heq).2
    rw [← hn]
    rw [covFiles_explicit] at he
    simp only [List.mem_cons, List.not_mem_nil, or_false] at he
    rcases he with rfl | rfl | rfl | rfl | rfl | rfl | rfl | rfl | rfl | rfl
    · exact Or.inl ⟨0, 0, rfl⟩
    · exact Or.inl ⟨0, 1, rfl⟩
    · exact Or.inl ⟨0, 2, rfl⟩
    · exact Or.inl ⟨1, 0, rfl⟩
    · exact Or.inl ⟨1, 1, rfl⟩
    · exact Or.inl ⟨1, 2, rfl⟩
    · exact Or.inl ⟨2, 0, rfl⟩
    · exact Or.inl ⟨2, 1, rfl⟩
    · exact Or.inl ⟨2, 2, rfl⟩
    · exact Or.inr rfl

theorem not_below {maps : CalibMaps} {n : Name} (hn : GoodComp n) :
    fileIn ["x".toList] "cal".toList n ∉ (diskFiles [] "cal".toList maps.output).map Prod.fst ∧
    runDisk.file (fileIn ["x".toList] "cal".toList n) = none := by
  have habs : fileIn ["x".toList] "cal".toList n = fileIn [] "x/cal".toList n := by
    unfold fileIn
    rw [(abspath_slash _ (by decide) hn).1, (abspath_slash _ (by decide) hn).1]
    have : resolveDots (absComponents ["x".toList] "cal".toList) = resolveDots (absComponents [] "x/cal".toList) := by decide
    rw [this]
  rw [habs]
  constructor
  · intro hm
    unfold diskFiles at hm
    rw [List.map_append, List.map_map, List.map_map] at hm
    rcases List.mem_append.1 hm with hm | hm
    · obtain ⟨e, he, heq⟩ := List.mem_map.1 hm
      exact absurd (fileIn_split (cwd := []) (by simp) (by decide) (by decide) (tensorFiles_good he).1 hn heq).1 (by decide)
    · obtain ⟨e, he, heq⟩ := List.mem_map.1 hm
      exact absurd (fileIn_split (cwd := []) (by simp) (by decide) (by decide) (tensorCovFiles_good he) hn heq).1 (by decide)
  · apply runDisk_long
    unfold fileIn
    rw [(abspath_slash [] (by decide) hn).1]
    have : resolveDots (absComponents [] "x/cal".toList) = ["x".toList, "cal".toList] := by decide
    rw [this]
    unfold pathString
    rw [List.cons_append, joinChar_cons (by simp)]
    intro hl
    simp at hl

/-- The full claim is false: a calibration is saved to `cal`, its `Demodulator` is made and shows it; then the program changes its
current directory, no file is changed, and the maps cannot be read any more. -/
theorem C140_full_claim_false :
    ∃ (s : DiskState) (o : CalibOutput ℝ) (L : Listing ℝ) (d : DemodObject), IsGlobListing s.cwd s.fs "cal".toList L ∧
      s.demodulator "cal".toList L = .ok d ∧ Shows d s o ∧ d.eff (s.after [.chdir ["x".toList]]) = .error .fileNotFoundError := by
  obtain ⟨maps, final, h, h1, h2, h3, -⟩ := runDisk_final
  have hw : OpenWay [] runDisk "cal".toList := runDisk_open (x := "cal".toList) (by decide) (by decide)
  obtain ⟨final', g1, g2⟩ := C140_stays_partial (dir := "cal".toList) (by simp) (by decide) hw
    (runDisk_clean (by decide) (x := "cal".toList) (by decide) (by decide)) (by rfl) h
  have : final' = final := Option.some.inj (g1.symm.trans h1)
  subst this
  obtain ⟨d, d1, d2⟩ := g2 [] "cal".toList (by simp) (by decide) (by unfold PlainName; decide) rfl _ h2
  refine ⟨⟨[], final'⟩, maps.output, _, d, h2, d1, ?_, ?_⟩
  · exact d2 [] (fun p c hc => (List.not_mem_nil hc).elim) (fun x hx => (List.not_mem_nil hx).elim) (Or.inr rfl) (cov_only h3)
  · have hpath : d.path = "cal".toList := by
      unfold DiskState.demodulator at d1
      obtain ⟨t, -, ht⟩ := Py.bind_eq_ok.1 d1
      injection ht with ht
      rw [← ht]
    refine (C140_lost _ fun n hn => ?_).1
    rw [hpath]
    obtain ⟨k1, k2⟩ := not_below (maps := maps) hn
    exact (h3 _ k1).trans k2

/-- A listing of the subfolder. -/
theorem covListing_exists {maps : CalibMaps} {final : FileSystem}
    (h5 : ∀ q, q ∉ (diskFiles [] "cal".toList maps.output).map Prod.fst → final.file q = runDisk.file q)
    (h4 : ∀ p d, (p, d) ∈ diskFiles [] "cal".toList maps.output → final.file p = some (.fits d)) :
    IsCovListing [] final "cal".toList (tensorCovFiles maps.output) := by
  have hp : PlainName ("cal".toList ++ '/' :: covFolder) := covFolder_plain (by unfold PlainName; decide)
  have hne : "cal".toList ++ '/' :: covFolder ≠ [] := by simp
  have hown : ∀ e ∈ tensorCovFiles maps.output, final.file (fileIn [] ("cal".toList ++ '/' :: covFolder) e.1) = some (.fits e.2) :=
    fun e he => h4 _ _ (List.mem_append.2 (Or.inr (List.mem_map.2 ⟨e, he, rfl⟩)))
  have hcov := cov_only h5
  refine ⟨(tensorCovFiles maps.output).map fun e => (components ("cal".toList ++ '/' :: covFolder), e.1), ?_, ?_, ?_⟩
  · have := tensorCovFiles_nodup (o := maps.output)
    have h := List.Nodup.map (f := fun n : Name => (components ("cal".toList ++ '/' :: covFolder), n)) (fun _ _ h => (Prod.mk.inj h).2) this
    rwa [List.map_map] at h
  · intro q n
    constructor
    · intro hx
      obtain ⟨e, he, heq⟩ := List.mem_map.1 hx
      obtain ⟨rfl, rfl⟩ := Prod.mk.inj heq
      have hg := tensorCovFiles_good he
      refine ⟨(globFolder_plain hp _).2 rfl, chenComps_good _, hg.2.2.2, hg.1, ?_, ?_⟩
      · rw [covFiles_explicit] at he
        simp only [List.mem_cons, List.not_mem_nil, or_false] at he
        rcases he with rfl | rfl | rfl | rfl | rfl | rfl | rfl | rfl | rfl | rfl <;> simp
      · rw [globPath_plain hne hg, hown e he]
        simp
    · rintro ⟨g1, g2, g3, g4, g5, g6⟩
      rw [(globFolder_plain hp _).1 g1] at g6 ⊢
      rw [globPath_plain hne (hidden_good g3 g4 g5)] at g6
      have hn : n ∈ (tensorCovFiles maps.output).map Prod.fst := by
        rw [covFiles_explicit]
        rcases hcov n g3 g4 g5 g6 with ⟨i, j, hij⟩ | hchi
        · rw [hij]
          fin_cases i <;> fin_cases j <;> simp [digitChar]
        · rw [hchi]; simp
      obtain ⟨e, he, rfl⟩ := List.mem_map.1 hn
      exact List.mem_map.2 ⟨e, he, rfl⟩
  · rw [List.forall₂_map_left_iff, List.forall₂_same]
    intro e he
    exact ⟨rfl, by rw [globPath_plain hne (tensorCovFiles_good he)]; exact hown e he⟩

/-- The covariance tensor of the saved calibration can be listed. -/
example : ∃ (maps : CalibMaps) (final : FileSystem),
    (demodCall (fun _ _ _ => none) exactEnv runArgs 1 1 [0] [] runDisk "cal".toList).Final final ∧
    IsCovListing [] final "cal".toList (tensorCovFiles maps.output) := by
  obtain ⟨maps, final, -, h1, -, h3, h4⟩ := runDisk_final
  exact ⟨maps, final, h1, covListing_exists h3 h4⟩

/-- An absolute name means the same in every current directory. -/
example (cwd cwd' : List Name) : SameMeaning "/cal".toList cwd cwd' := Or.inl rfl

/-- `C140_stays_partial`: the program goes to another directory, a frame is removed, and it comes back. -/
example : ∃ (maps : CalibMaps) (final : FileSystem) (d : DemodObject) (L : Listing ℝ), IsGlobListing [] final "cal".toList L ∧
    (DiskState.mk [] final).demodulator "cal".toList L = .ok d ∧
    Shows d ((DiskState.mk [] final).after [.chdir ["x".toList], .change "/a".toList none, .chdir []]) maps.output := by
  obtain ⟨maps, final, h, h1, h2, h3, -⟩ := runDisk_final
  have hw : OpenWay [] runDisk "cal".toList := runDisk_open (x := "cal".toList) (by decide) (by decide)
  obtain ⟨final', g1, g2⟩ := C140_stays_partial (dir := "cal".toList) (by simp) (by decide) hw
    (runDisk_clean (by decide) (x := "cal".toList) (by decide) (by decide)) (by rfl) h
  have : final' = final := Option.some.inj (g1.symm.trans h1)
  subst this
  obtain ⟨d, d1, d2⟩ := g2 [] "cal".toList (by simp) (by decide) (by unfold PlainName; decide) rfl _ h2
  refine ⟨maps, final', d, _, h2, d1, d2 _ ?_ (fun x hx => (List.not_mem_nil hx).elim) (Or.inr rfl) ?_⟩
  · intro p c hc hm
    simp only [List.mem_cons, List.not_mem_nil, or_false, reduceCtorEq, false_or, DiskStep.change.injEq] at hc
    obtain ⟨rfl, -⟩ := hc
    unfold diskFiles at hm
    rw [List.map_append, List.map_map, List.map_map] at hm
    have hlen : ∀ (D n : Name), D ≠ [] → GoodComp n → resolveDots (absComponents [] D) ≠ [] → fileIn [] D n = "/a".toList → False := by
      intro D n hD hn hne he
      unfold fileIn at he
      rw [(abspath_slash [] hD hn).1] at he
      have := pathString_injective (m := ["a".toList]) (absRes_good (by simp) D hn) (by decide) he
      have := congrArg List.length this
      simp only [List.length_append, List.length_cons, List.length_nil] at this
      exact hne (List.length_eq_zero_iff.1 (by omega))
    rcases List.mem_append.1 hm with hm | hm
    · obtain ⟨e, he, heq⟩ := List.mem_map.1 hm
      exact hlen _ _ (by decide) (tensorFiles_good he).1 (by decide) heq
    · obtain ⟨e, he, heq⟩ := List.mem_map.1 hm
      exact hlen _ _ (by decide) (tensorCovFiles_good he) (by decide) heq
  · intro n g1 g2 g3 g4
    refine cov_only h3 n g1 g2 g3 fun h0 => g4 ?_
    show (if _ then _ else _) = _
    split_ifs
    · rfl
    · exact h0

theorem disk_paths {maps : CalibMaps} {l : List Name} (hl : ∀ x ∈ l, x ≠ [] ∧ x ≠ ['.'] ∧ '/' ∉ x)
    (h : pathString l ∈ (diskFiles [] "cal".toList maps.output).map Prod.fst) : 2 ≤ l.length ∧ l ≠ ["cal".toList, covFolder] := by
  unfold diskFiles at h
  rw [List.map_append, List.map_map, List.map_map] at h
  have r1 : resolveDots (absComponents [] "cal".toList) = ["cal".toList] := by decide
  have r2 : resolveDots (absComponents [] ("cal".toList ++ "/covariance_tensor".toList)) = ["cal".toList, covFolder] := by decide
  rcases List.mem_append.1 h with h | h
  · obtain ⟨e, he, heq⟩ := List.mem_map.1 h
    have hg := tensorFiles_good he
    have heq : fileIn [] "cal".toList e.1 = pathString l := heq
    unfold fileIn at heq
    rw [(abspath_slash [] (by decide) hg.1).1] at heq
    have := pathString_injective (absRes_good (by simp) _ hg.1) hl heq
    rw [r1] at this
    rw [← this]
    refine ⟨by simp, fun hc => hg.2.2 ?_⟩
    injection hc with _ hc
    injection hc
  · obtain ⟨e, he, heq⟩ := List.mem_map.1 h
    have hg := tensorCovFiles_good he
    have heq : fileIn [] ("cal".toList ++ "/covariance_tensor".toList) e.1 = pathString l := heq
    unfold fileIn at heq
    rw [(abspath_slash [] (by simp) hg).1] at heq
    have := pathString_injective (absRes_good (by simp) _ hg) hl heq
    rw [r2] at this
    rw [← this]
    refine ⟨by simp, fun hc => ?_⟩
    have := congrArg List.length hc
    simp at this

/-- `C140_mixed`: the sensor is calibrated a second time into the same folder. -/
example : ∃ (maps : CalibMaps) (final : FileSystem) (d : DemodObject) (L : Listing ℝ), (DiskState.mk [] final).demodulator "cal".toList L = .ok d ∧
    OpenWay [] final "cal".toList ∧
    calculateDemodulationTensor (final.images []) (fun _ _ _ => none) exactEnv runArgs 1 1 [0] = .ok maps := by
  obtain ⟨maps, final, h, h1, h2, h3, -⟩ := runDisk_final
  have hw : OpenWay [] runDisk "cal".toList := runDisk_open (x := "cal".toList) (by decide) (by decide)
  obtain ⟨final', g1, g2⟩ := C140_stays_partial (dir := "cal".toList) (by simp) (by decide) hw
    (runDisk_clean (by decide) (x := "cal".toList) (by decide) (by decide)) (by rfl) h
  have : final' = final := Option.some.inj (g1.symm.trans h1)
  subst this
  obtain ⟨d, d1, -⟩ := g2 [] "cal".toList (by simp) (by decide) (by unfold PlainName; decide) rfl _ h2
  have hres : resolveDots (absComponents [] ("cal".toList ++ "/covariance_tensor".toList)) = ["cal".toList, covFolder] := by decide
  have hopen : OpenWay [] final' "cal".toList := by
    intro b hb
    rw [h3, hw b hb]
    intro hm
    rw [hres] at hb
    have hgood : ∀ x ∈ ["cal".toList, covFolder], x ≠ [] ∧ x ≠ ['.'] ∧ '/' ∉ x := by decide
    obtain ⟨k1, k2⟩ := disk_paths (fun x hx => hgood x (hb.subset hx)) hm
    exact k2 (hb.eq_of_length (le_antisymm hb.length_le k1))
  have him : ∀ c : Char, c ≠ '/' → c ≠ '.' → final'.images [] [c] = runDisk.images [] [c] := by
    intro c c1 c2
    have : abspath [] [c] = pathString [[c]] := by
      unfold abspath absComponents components
      simp [splitChar, c1, c2, resolveDots]
    unfold FileSystem.images
    rw [this, h3]
    intro hm
    have := (disk_paths (l := [[c]]) (by simp [c1.symm, c2]) hm).1
    simp at this
  obtain ⟨maps', h', -⟩ := run_calculated (files := final'.images []) fun c c1 c2 => (him c c1 c2).trans (runDisk_images c c1 c2)
  exact ⟨maps', final', d, _, d1, hopen, h'⟩

end Micropol
