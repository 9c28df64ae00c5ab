import Verif.Lemmas.GlobMatch
import Verif.Lemmas.GlobStar
import Verif.Props.ChenCall
import Verif.Props.CalibrateCall

/-!
# C139: the folder of a demodulation tensor on the disk

Full property: `calculate_demodulation_tensor(..., output_dir)` either raises and leaves all files as they were, or it writes its
twenty-six files to `output_dir`, which it makes with all folders above it, touches no other file, and `Demodulator(output_dir)` then gives
this tensor, under whatever name the folder is called.

The first parts hold (`C139_failed`, `C139_blocked`, `C139_saved`).  The last one holds for names without `*`, `?` and `[`
(`C139_loads_partial`).  A folder `cal[1]` is saved, but `Demodulator("cal[1]")` reads the folder `cal1` (`C139_brackets`), and does not
find the calibration that was just saved (`C139_not_found`, `C139_full_claim_false`); `Demodulator("cal*")` and `Demodulator("cal?")` read
the files of several folders together (`C139_star`, `C139_question_mark`, also `C139_range`, `C139_negated`).
-/

set_option autoImplicit false
set_option linter.unusedSectionVars false

namespace Micropol

variable {fit : GaussFit} {env : CalibEnv} {a : CalibArgs} {ny nx : Nat} {schedule : List Nat} {cwd : List Name} {fs : FileSystem}
  {dir : Name} {maps : CalibMaps}

theorem makeOutput_file {fs' : FileSystem} (h : makeOutput cwd fs dir = .ok fs') : fs'.file = fs.file ∧ fs'.dir (abspath cwd dir) := by
  unfold makeOutput at h
  split_ifs at h with hd
  · injection h with h
    rw [← h]
    exact ⟨rfl, hd⟩
  · unfold FileSystem.mkParents at h
    split_ifs at h
    injection h with h
    rw [← h]
    exact ⟨rfl, Or.inr ⟨_, List.prefix_refl _, rfl⟩⟩

theorem makeOutput_open (hdir : dir ≠ []) (hway : OpenWay cwd fs dir) : ∃ fs', makeOutput cwd fs dir = .ok fs' := by
  unfold makeOutput
  split_ifs with hd
  · exact ⟨_, rfl⟩
  · unfold FileSystem.mkParents
    rw [if_neg]
    · exact ⟨_, rfl⟩
    · rintro ⟨b, hb, hne⟩
      apply hne
      apply hway
      rw [covPath, absComponents_slash cwd hdir covFolder_good, resolveDots_snoc _ covFolder_good.2.2.1]
      exact hb.trans (List.prefix_append _ _)

theorem images_congr {fs' : FileSystem} (h : fs'.file = fs.file) : fs'.images cwd = fs.images cwd := by
  unfold FileSystem.images
  rw [h]

/-- C139: a calculation that raises writes nothing: every file is as it was, at every moment. -/
theorem C139_failed {e : PyErr} (h : calculateDemodulationTensor (fs.images cwd) fit env a ny nx schedule = .error e)
    (hdir : dir ≠ []) (hway : OpenWay cwd fs dir) :
    (demodCall fit env a ny nx schedule cwd fs dir).result = .error e ∧
    ∀ s ∈ (demodCall fit env a ny nx schedule cwd fs dir).states, s.file = fs.file := by
  obtain ⟨fs', h1⟩ := makeOutput_open hdir hway
  obtain ⟨h2, -⟩ := makeOutput_file h1
  unfold demodCall
  rw [h1]
  dsimp only
  rw [images_congr h2, h]
  refine ⟨rfl, fun s hs => ?_⟩
  simp only [List.mem_cons, List.not_mem_nil, or_false] at hs
  rcases hs with rfl | rfl
  · rfl
  · exact h2

/-- C139: if a regular file stands where the folder, or one above it, has to be, the call raises before the calculation and the disk is
as it was. -/
theorem C139_blocked (hd : ¬ IsFolder cwd fs dir) {b : List Name} (hb : b <+: resolveDots (absComponents cwd dir))
    (hf : fs.file (pathString b) ≠ none) : (demodCall fit env a ny nx schedule cwd fs dir).FailedClean fs .fileNotFoundError := by
  have : makeOutput cwd fs dir = .error .fileNotFoundError := by
    unfold makeOutput FileSystem.mkParents
    rw [if_neg (show ¬ fs.dir (abspath cwd dir) from hd), if_pos ⟨b, hb, hf⟩]
  unfold demodCall
  rw [this]
  exact ⟨rfl, rfl⟩

/-- C139: the calculated maps are in the files of the folder, and no other file was touched at any moment. -/
theorem C139_saved (hcwd : ∀ x ∈ cwd, GoodComp x) (hdir : dir ≠ []) (hway : OpenWay cwd fs dir)
    (h : calculateDemodulationTensor (fs.images cwd) fit env a ny nx schedule = .ok maps) :
    SavedExactly fs (demodCall fit env a ny nx schedule cwd fs dir) (diskFiles cwd dir maps.output) := by
  obtain ⟨fs', h1⟩ := makeOutput_open hdir hway
  obtain ⟨h2, h3⟩ := makeOutput_file h1
  unfold demodCall
  rw [h1]
  dsimp only
  rw [images_congr h2, h]
  exact saveTensor_ok hcwd hdir h2 h3 hway

theorem saveTensor_keeps {fs' : FileSystem} {out q : Name} {o : CalibOutput ℝ} (hq : fs'.dir q) :
    ∀ s ∈ (saveTensorAt fs' out o).states, s.dir q := by
  intro s hs
  unfold saveTensorAt at hs
  dsimp only at hs
  have hlast : ((writeMany fs' (tensorWrites o out)).states.getLastD fs').dir q := by
    rw [List.getLastD_eq_getLast?]
    cases hl : (writeMany fs' (tensorWrites o out)).states.getLast? with
    | none => exact hq
    | some f =>
      have : f.dir = fs'.dir := writeMany_dir _ _ f (List.mem_of_getLast? hl)
      show f.dir q
      rw [this]; exact hq
  have h1 : ∀ s ∈ (writeMany fs' (tensorWrites o out)).states, s.dir q := by
    intro s hs
    rw [writeMany_dir _ _ s hs]; exact hq
  split at hs
  · exact h1 s hs
  · split at hs
    · exact h1 s hs
    · rename_i f hf
      rcases List.mem_append.1 hs with hs | hs
      · exact h1 s hs
      · rw [writeMany_dir _ _ s hs]
        unfold FileSystem.mkParents at hf
        split_ifs at hf
        injection hf with hf
        rw [← hf]
        exact Or.inl hlast

/-- The folder is there in the end. -/
theorem demodCall_final (hcwd : ∀ x ∈ cwd, GoodComp x) (hdir : dir ≠ []) (hway : OpenWay cwd fs dir)
    (h : calculateDemodulationTensor (fs.images cwd) fit env a ny nx schedule = .ok maps) :
    ∃ final, (demodCall fit env a ny nx schedule cwd fs dir).Final final ∧ final.dir (abspath cwd dir) ∧
      (∀ p d, (p, d) ∈ diskFiles cwd dir maps.output → final.file p = some (.fits d)) ∧
      ∀ q, q ∉ (diskFiles cwd dir maps.output).map Prod.fst → final.file q = fs.file q := by
  obtain ⟨-, -, ⟨final, hfin, hall⟩, hother⟩ := C139_saved hcwd hdir hway h
  have hmem := List.mem_of_getLast? hfin
  refine ⟨final, hfin, ?_, hall, hother final hmem⟩
  obtain ⟨fs', h1⟩ := makeOutput_open hdir hway
  obtain ⟨h2, h3⟩ := makeOutput_file h1
  unfold demodCall at hfin
  rw [h1] at hfin
  dsimp only at hfin
  rw [images_congr h2, h] at hfin
  dsimp only at hfin
  have hne : (saveTensorAt fs' (absoluteName cwd dir) maps.output).states ≠ [] := by
    unfold saveTensorAt
    dsimp only
    have hw : ∀ (l : List (Name × Img ℝ)) (f : FileSystem), (writeMany f l).states ≠ [] := by
      intro l
      induction l with
      | nil => intro f; simp [writeMany]
      | cons p l ih =>
        intro f
        rw [writeMany]
        split <;> simp
    split
    · exact hw _ _
    · split
      · exact hw _ _
      · simp [hw]
  rw [List.getLast?_cons] at hfin
  cases hl : (saveTensorAt fs' (absoluteName cwd dir) maps.output).states.getLast? with
  | none => exact absurd (List.getLast?_eq_none_iff.1 hl) hne
  | some f =>
    rw [hl] at hfin
    injection hfin with hfin
    have hfin : f = final := hfin
    rw [← hfin]
    exact saveTensor_keeps h3 _ (List.mem_of_getLast? hl)

theorem absRes_good (hcwd : ∀ x ∈ cwd, GoodComp x) (dir : Name) {n : Name} (hn : GoodComp n) :
    ∀ x ∈ resolveDots (absComponents cwd dir) ++ [n], x ≠ [] ∧ x ≠ ['.'] ∧ '/' ∉ x := by
  intro x hx
  rcases List.mem_append.1 hx with hx | hx
  · exact chenAbs_good hcwd dir x (resolveDots_mem hx).1
  · rw [List.mem_singleton.1 hx]; exact ⟨hn.1, hn.2.1, hn.2.2.2⟩

theorem fileIn_split {dir' n n' : Name} (hcwd : ∀ x ∈ cwd, GoodComp x) (hdir : dir ≠ []) (hdir' : dir' ≠ []) (hn : GoodComp n)
    (hn' : GoodComp n') (h : fileIn cwd dir n = fileIn cwd dir' n') :
    resolveDots (absComponents cwd dir) = resolveDots (absComponents cwd dir') ∧ n = n' := by
  unfold fileIn at h
  rw [(abspath_slash cwd hdir hn).1, (abspath_slash cwd hdir' hn').1] at h
  have := pathString_injective (absRes_good hcwd dir hn) (absRes_good hcwd dir' hn') h
  have h1 := congrArg List.dropLast this
  have h2 := congrArg List.getLast? this
  simp only [List.dropLast_concat] at h1
  simp only [List.getLast?_concat, Option.some.injEq] at h2
  exact ⟨h1, h2⟩

theorem covRes (hdir : dir ≠ []) : resolveDots (absComponents cwd (dir ++ "/covariance_tensor".toList)) =
    resolveDots (absComponents cwd dir) ++ [covFolder] := by
  rw [covPath, absComponents_slash cwd hdir covFolder_good, resolveDots_snoc _ covFolder_good.2.2.1]

theorem disk_own {n : Name} {o : CalibOutput ℝ} (hcwd : ∀ x ∈ cwd, GoodComp x) (hdir : dir ≠ []) (hn : GoodComp n)
    (h : fileIn cwd dir n ∈ (diskFiles cwd dir o).map Prod.fst) : n ∈ (tensorFiles o).map Prod.fst := by
  unfold diskFiles at h
  rw [List.map_append, List.map_map, List.map_map] at h
  rcases List.mem_append.1 h with h | h
  · obtain ⟨e, he, heq⟩ := List.mem_map.1 h
    have := (fileIn_split hcwd hdir hdir (tensorFiles_good he).1 hn heq).2
    exact List.mem_map.2 ⟨e, he, this⟩
  · obtain ⟨e, he, heq⟩ := List.mem_map.1 h
    have := (fileIn_split hcwd (by simp) hdir (tensorCovFiles_good he) hn heq).1
    rw [covRes hdir] at this
    have := congrArg List.length this
    simp at this

/-- C139: the demodulator of the folder is the calculated one, flags included, from wherever and by whatever plain name the folder is
given, in whatever order its files are listed.  Missing from the full property: names with `*`, `?` or `[`, see `C139_brackets`. -/
theorem C139_loads_partial (hcwd : ∀ x ∈ cwd, GoodComp x) (hdir : dir ≠ []) (hway : OpenWay cwd fs dir) (hclean : CleanAt cwd fs dir)
    (hord : schedule.Perm (List.range (ny * nx)))
    (h : calculateDemodulationTensor (fs.images cwd) fit env a ny nx schedule = .ok maps) :
    ∃ final, (demodCall fit env a ny nx schedule cwd fs dir).Final final ∧
      ∀ (cwd' : List Name) (dir' : Name), (∀ x ∈ cwd', GoodComp x) → dir' ≠ [] → PlainName dir' → abspath cwd' dir' = abspath cwd dir →
        ∀ L, IsGlobListing cwd' final dir' L → demodulatorAt cwd' final dir' L = .ok ⟨maps.mij, some maps.fitFound⟩ := by
  obtain ⟨final, hfin, hfold, hall, hother⟩ := demodCall_final hcwd hdir hway h
  refine ⟨final, hfin, fun cwd' dir' hcwd' hdir' hplain heq L hL => ?_⟩
  obtain ⟨hu, hm⟩ := listing_plain hplain hdir' hL
  obtain ⟨inp, -, -, -, hshape⟩ := calculate_inv h hord
  have hown : ∀ e ∈ tensorFiles maps.output, final.file (fileIn cwd dir e.1) = some (.fits e.2) := fun e he =>
    hall _ _ (List.mem_append.2 (Or.inl (List.mem_map.2 ⟨e, he, rfl⟩)))
  have hm' : ∀ n v, (n, v) ∈ L ↔ '/' ∉ n ∧ isFits n = true ∧ final.file (fileIn cwd dir n) = some (.fits v) := by
    intro n v
    rw [hm]
    refine and_congr_right fun g1 => and_congr_right fun g2 => ?_
    rw [fileIn_eq hcwd hcwd' hdir hdir' heq (fits_good g2 g1)]
  let f : CalibFolder ℝ := ⟨L.filter fun e => decide (e.1 ∉ (tensorFiles maps.output).map Prod.fst), none⟩
  have hf : ∀ e, e ∈ f.top ↔ e ∈ L ∧ e.1 ∉ (tensorFiles maps.output).map Prod.fst := by
    intro e
    show e ∈ L.filter _ ↔ _
    rw [List.mem_filter, decide_eq_true_eq]
  have hfc : CleanFolder f.top := by
    refine ⟨List.Nodup.sublist (List.Sublist.map _ List.filter_sublist) hu, ?_⟩
    intro e he hl hp
    obtain ⟨he, hne⟩ := (hf e).1 he
    obtain ⟨g1, g2, g3⟩ := (hm' e.1 e.2).1 he
    have hg := fits_good g2 g1
    refine hclean e.1 ?_ g1 hl hp
    rw [← hother _ fun hx => hne (disk_own hcwd hdir hg hx), g3]
    simp
  have htake : topWrites ((saveOps maps.output).take 27) = tensorFiles maps.output := by
    rw [tensorFiles_top]; rfl
  have hperm : L.Perm (saveCalibration maps.output f).top := by
    obtain ⟨s1, s2⟩ := saveUntil_top maps.output 27 f hfc.1 _ (List.Perm.refl _)
    rw [htake] at s2
    rw [save_eq, List.perm_ext_iff_of_nodup (List.Nodup.of_map _ hu) (List.Nodup.of_map _ s1)]
    intro e
    rw [s2, hf]
    constructor
    · intro he
      by_cases hn : e.1 ∈ (tensorFiles maps.output).map Prod.fst
      · left
        obtain ⟨e', he', hee⟩ := List.mem_map.1 hn
        have h1 := ((hm' e.1 e.2).1 he).2.2
        rw [← hee, hown e' he'] at h1
        injection h1 with h1
        injection h1 with h1
        rw [← show e' = e from Prod.ext hee h1]
        exact he'
      · exact Or.inr ⟨⟨he, hn⟩, hn⟩
    · rintro (he | ⟨⟨he, -⟩, -⟩)
      · have hg := tensorFiles_good he
        exact (hm' e.1 e.2).2 ⟨hg.1.2.2.2, hg.2.1, hown e he⟩
      · exact he
  have hload := C28_roundtrip maps.output _ _ hshape f hfc L hperm
  unfold demodulatorAt
  rw [if_pos ⟨hdir', by rw [heq]; exact Or.inl hfold⟩]
  exact hload

/-! ## Special characters -/

/-- C139: with one character in brackets in its name, a folder is listed as the folder without the brackets. -/
theorem C139_brackets {p t : Name} {c : Char} (hp : PlainName (p ++ c :: t)) (ht : '/' ∉ t) (h1 : c ≠ '!') (h2 : c ≠ ']') (h3 : c ≠ '.')
    (h4 : c ≠ '/') (cwd : List Name) (fs : FileSystem) (L : Listing ℝ) :
    IsGlobListing cwd fs (p ++ '[' :: c :: ']' :: t) L ↔ IsGlobListing cwd fs (p ++ c :: t) L := by
  have hp1 : PlainName p := fun x hx => hp x (List.mem_append.2 (Or.inl hx))
  have hp2 : PlainName t := fun x hx => hp x (List.mem_append.2 (Or.inr (List.mem_cons_of_mem _ hx)))
  have hq : ∀ q, GlobFolder (p ++ '[' :: c :: ']' :: t) q ↔ GlobFolder (p ++ c :: t) q := fun q => by
    rw [globFolder_bracket hp1 hp2 ht h1 h2 h3 h4, globFolder_plain hp]
  have hb : globBase cwd (p ++ '[' :: c :: ']' :: t) = globBase cwd (p ++ c :: t) := by
    unfold globBase
    cases p with
    | nil => simp [h4]
    | cons b p => rfl
  have hg : ∀ q n, globPath cwd (p ++ '[' :: c :: ']' :: t) q n = globPath cwd (p ++ c :: t) q n := fun q n => by
    unfold globPath
    rw [hb]
  unfold IsGlobListing
  simp only [hq, hg]

theorem bracket_apart {p t : Name} {c : Char} (hp : PlainName p) (ht : '/' ∉ t) (h3 : c ≠ '.') (h4 : c ≠ '/') (cwd : List Name) :
    ∃ R x, resolveDots (absComponents cwd (p ++ '[' :: c :: ']' :: t)) = R ++ [x ++ '[' :: c :: ']' :: t] ∧
      resolveDots (absComponents cwd (p ++ c :: t)) = R ++ [x ++ c :: t] := by
  obtain ⟨D, x, hx, hD, e1, e2⟩ := bracket_components hp ht h4 h3
  have n1 : x ++ '[' :: c :: ']' :: t ≠ ['.', '.'] := fun h => by
    have := congrArg List.length h
    simp at this
    omega
  have n2 : x ++ c :: t ≠ ['.', '.'] := fun h => by
    have : c ∈ ['.', '.'] := by rw [← h]; simp
    exact h3 (by simpa using this)
  have hb : globBase cwd (p ++ '[' :: c :: ']' :: t) = globBase cwd (p ++ c :: t) := by
    unfold globBase
    cases p with
    | nil => simp [h4]
    | cons b p => rfl
  refine ⟨resolveDots (globBase cwd (p ++ c :: t) ++ D), x, ?_, ?_⟩
  · rw [← globBase_components, e1, hb, ← List.append_assoc, resolveDots_snoc _ n1]
  · rw [← globBase_components, e2, ← List.append_assoc, resolveDots_snoc _ n2]

/-- C139: a calibration saved to such a folder is not found under the name to which it was saved, if there is no other calibration in the
folder without the brackets. -/
theorem C139_not_found {p t : Name} {c : Char} (hp : PlainName (p ++ c :: t)) (ht : '/' ∉ t) (h1 : c ≠ '!') (h2 : c ≠ ']') (h3 : c ≠ '.')
    (h4 : c ≠ '/') (hcwd : ∀ x ∈ cwd, GoodComp x) (hway : OpenWay cwd fs (p ++ '[' :: c :: ']' :: t))
    (h : calculateDemodulationTensor (fs.images cwd) fit env a ny nx schedule = .ok maps)
    (hno : ∀ n, '/' ∉ n → ListedFits n → fs.file (fileIn cwd (p ++ c :: t) n) = none) :
    SavedExactly fs (demodCall fit env a ny nx schedule cwd fs (p ++ '[' :: c :: ']' :: t))
      (diskFiles cwd (p ++ '[' :: c :: ']' :: t) maps.output) ∧
    ∃ final, (demodCall fit env a ny nx schedule cwd fs (p ++ '[' :: c :: ']' :: t)).Final final ∧
      IsGlobListing cwd final (p ++ '[' :: c :: ']' :: t) [] ∧
      ∀ L, IsGlobListing cwd final (p ++ '[' :: c :: ']' :: t) L →
        demodulatorAt cwd final (p ++ '[' :: c :: ']' :: t) L = .error .fileNotFoundError := by
  have hp1 : PlainName p := fun x hx => hp x (List.mem_append.2 (Or.inl hx))
  have hdir : p ++ '[' :: c :: ']' :: t ≠ [] := by simp
  have hdir2 : p ++ c :: t ≠ [] := by simp
  refine ⟨C139_saved hcwd hdir hway h, ?_⟩
  obtain ⟨final, hfin, hfold, hall, hother⟩ := demodCall_final hcwd hdir hway h
  refine ⟨final, hfin, ?_⟩
  obtain ⟨R, x, r1, r2⟩ := bracket_apart hp1 ht h3 h4 cwd
  have hempty : ∀ n, '/' ∉ n → isFits n = true → final.file (fileIn cwd (p ++ c :: t) n) = none := by
    intro n g1 g2
    rw [hother, hno n g1 (isFits_iff.1 g2)]
    intro hm
    have hg := fits_good g2 g1
    unfold diskFiles at hm
    rw [List.map_append, List.map_map, List.map_map] at hm
    rcases List.mem_append.1 hm with hm | hm
    · obtain ⟨e, he, heq⟩ := List.mem_map.1 hm
      have := (fileIn_split hcwd hdir hdir2 (tensorFiles_good he).1 hg heq).1
      rw [r1, r2] at this
      have := congrArg List.length (List.append_cancel_left this |> fun h => (List.cons.inj h).1)
      simp at this
      omega
    · obtain ⟨e, he, heq⟩ := List.mem_map.1 hm
      have := (fileIn_split hcwd (by simp) hdir2 (tensorCovFiles_good he) hg heq).1
      rw [covRes hdir, r1, r2] at this
      have := congrArg List.length this
      simp at this
  simp only [C139_brackets hp ht h1 h2 h3 h4]
  constructor
  · refine ⟨[], List.nodup_nil, fun q n => ?_, List.Forall₂.nil⟩
    refine ⟨fun hx => (List.not_mem_nil hx).elim, ?_⟩
    rintro ⟨g1, g2, g3, g4, g5⟩
    rw [(globFolder_plain hp q).1 g1, globPath_plain hdir2 (fits_good g4 g3), hempty n g3 g4] at g5
    exact absurd rfl g5
  · intro L hL
    obtain ⟨-, hm⟩ := listing_plain hp hdir2 hL
    have hnil : L = [] := by
      rw [List.eq_nil_iff_forall_not_mem]
      rintro ⟨n, v⟩ hv
      obtain ⟨g1, g2, g3⟩ := (hm n v).1 hv
      rw [hempty n g1 g2] at g3
      cases g3
    rw [hnil]
    unfold demodulatorAt
    rw [if_pos ⟨hdir, Or.inl hfold⟩]
    rfl

theorem fileIn_one {z n : Name} (h1 : '/' ∉ z) (h2 : z ≠ []) (h3 : z ≠ ['.']) (hn : GoodComp n) :
    pathString (resolveDots (cwd ++ [z]) ++ [n]) = fileIn cwd z n := by
  have hc := star_components (x := z) (t := []) (by simpa using h1) (by simpa using h2) (by simpa using h3)
  rw [List.append_nil] at hc
  have hs : z.head? ≠ some '/' := by
    cases z with
    | nil => simp
    | cons b z =>
      intro h
      simp only [List.head?_cons, Option.some.injEq] at h
      exact h1 (by rw [h]; simp)
  unfold fileIn
  rw [(abspath_slash cwd h2 hn).1]
  unfold absComponents
  rw [if_neg hs, hc]

/-- C139: `Demodulator("cal*")` reads the files of every folder whose name begins with `cal`, not those of the folder `cal*` alone. -/
theorem C139_star {x : Name} (hx : PlainName x) (h0 : x ≠ []) (h1 : x.head? ≠ some '.') (h2 : '/' ∉ x) {L : Listing ℝ}
    (hL : IsGlobListing cwd fs (x ++ ['*']) L) (n : Name) (v : Img ℝ) :
    (n, v) ∈ L ↔ '/' ∉ n ∧ ListedFits n ∧ ∃ y, '/' ∉ y ∧ fs.file (fileIn cwd (x ++ y) n) = some (.fits v) := by
  have hy : ∀ y : Name, '/' ∉ y → '/' ∉ x ++ y ∧ x ++ y ≠ [] ∧ x ++ y ≠ ['.'] := by
    intro y hy
    refine ⟨by simp [h2, hy], by simp [h0], ?_⟩
    cases x with
    | nil => exact absurd rfl h0
    | cons b x =>
      intro h
      injection h with h
      exact h1 (by rw [h]; rfl)
  obtain ⟨s1, s2, s3⟩ := hy ['*'] (by decide)
  have hhead : (x ++ ['*']).head? ≠ some '/' := by
    cases x with
    | nil => simp
    | cons b x => intro h; exact h2 (by simp at h; simp [h])
  rw [listing_one (star_components s1 s2 s3) hhead hL]
  refine and_congr_right fun g1 => ?_
  rw [isFits_iff]
  refine and_congr_right fun g2 => ?_
  have hg := fits_good (isFits_iff.2 g2) g1
  constructor
  · rintro ⟨z, hz, z1, z2, z3, g⟩
    obtain ⟨y, rfl⟩ := (compMatch_star hx h0 h1).1 hz
    rw [fileIn_one z3 z1 z2 hg] at g
    exact ⟨y, fun h => z3 (List.mem_append.2 (Or.inr h)), g⟩
  · rintro ⟨y, hy', g⟩
    obtain ⟨t1, t2, t3⟩ := hy y hy'
    exact ⟨x ++ y, (compMatch_star hx h0 h1).2 ⟨y, rfl⟩, t2, t3, t1, by rw [fileIn_one t1 t2 t3 hg]; exact g⟩

/-- C139: `Demodulator("cal?")` reads the files of every folder whose name is `cal` and one more character. -/
theorem C139_question_mark {x : Name} (hx : PlainName x) (h0 : x ≠ []) (h1 : x.head? ≠ some '.') (h2 : '/' ∉ x) {L : Listing ℝ}
    (hL : IsGlobListing cwd fs (x ++ ['?']) L) (n : Name) (v : Img ℝ) :
    (n, v) ∈ L ↔ '/' ∉ n ∧ ListedFits n ∧ ∃ c, c ≠ '/' ∧ fs.file (fileIn cwd (x ++ [c]) n) = some (.fits v) := by
  have hy : ∀ c : Char, c ≠ '/' → '/' ∉ x ++ [c] ∧ x ++ [c] ≠ [] ∧ x ++ [c] ≠ ['.'] := by
    intro c hc
    refine ⟨by simp [h2, hc.symm], by simp, ?_⟩
    cases x with
    | nil => exact absurd rfl h0
    | cons b x =>
      intro h
      injection h with h
      exact h1 (by rw [h]; rfl)
  obtain ⟨s1, s2, s3⟩ := hy '?' (by decide)
  have hhead : (x ++ ['?']).head? ≠ some '/' := by
    cases x with
    | nil => simp
    | cons b x => intro h; exact h2 (by simp at h; simp [h])
  rw [listing_one (star_components s1 s2 s3) hhead hL]
  refine and_congr_right fun g1 => ?_
  rw [isFits_iff]
  refine and_congr_right fun g2 => ?_
  have hg := fits_good (isFits_iff.2 g2) g1
  constructor
  · rintro ⟨z, hz, z1, z2, z3, g⟩
    obtain ⟨c, rfl⟩ := (compMatch_one hx h0 h1).1 hz
    rw [fileIn_one z3 z1 z2 hg] at g
    exact ⟨c, fun h => z3 (by simp [h]), g⟩
  · rintro ⟨c, hc, g⟩
    obtain ⟨t1, t2, t3⟩ := hy c hc
    exact ⟨x ++ [c], (compMatch_one hx h0 h1).2 ⟨c, rfl⟩, t2, t3, t1, by rw [fileIn_one t1 t2 t3 hg]; exact g⟩

theorem class_listing {x k text : Name} {neg : Bool} (hx : PlainName x) (h0 : x ≠ []) (h1 : x.head? ≠ some '.') (h2 : '/' ∉ x)
    (hk : '/' ∉ k) (ht : bracketText k = some (neg, text, [])) {L : Listing ℝ} (hL : IsGlobListing cwd fs (x ++ '[' :: k) L) (n : Name)
    (v : Img ℝ) : (n, v) ∈ L ↔ '/' ∉ n ∧ ListedFits n ∧ ∃ c, c ≠ '/' ∧
      (neg != (classRanges text).any fun r => decide (r.1 ≤ c ∧ c ≤ r.2)) = true ∧ fs.file (fileIn cwd (x ++ [c]) n) = some (.fits v) := by
  have hdot : ∀ y : Name, x ++ y ≠ ['.'] := by
    intro y
    cases x with
    | nil => exact absurd rfl h0
    | cons b x =>
      intro h
      injection h with h
      exact h1 (by rw [h]; rfl)
  have hhead : (x ++ '[' :: k).head? ≠ some '/' := by
    cases x with
    | nil => simp
    | cons b x => intro h; exact h2 (by simp at h; simp [h])
  rw [listing_one (star_components (by simp [h2, hk]) (by simp) (hdot _)) hhead hL]
  refine and_congr_right fun g1 => ?_
  rw [isFits_iff]
  refine and_congr_right fun g2 => ?_
  have hg := fits_good (isFits_iff.2 g2) g1
  constructor
  · rintro ⟨z, hz, z1, z2, z3, g⟩
    obtain ⟨c, rfl, hc⟩ := (compMatch_class hx h0 h1 ht).1 hz
    rw [fileIn_one z3 z1 z2 hg] at g
    exact ⟨c, fun h => z3 (by simp [h]), hc, g⟩
  · rintro ⟨c, hc, hc', g⟩
    have t1 : '/' ∉ x ++ [c] := by simp [h2, hc.symm]
    exact ⟨x ++ [c], (compMatch_class hx h0 h1 ht).2 ⟨c, rfl, hc'⟩, by simp, hdot _, t1, by
      rw [fileIn_one t1 (by simp) (hdot _) hg]; exact g⟩

/-- C139: `Demodulator("cal[a-b]")` reads the files of every folder whose name is `cal` and one character between `a` and `b`. -/
theorem C139_range {x : Name} {a b : Char} (hx : PlainName x) (h0 : x ≠ []) (h1 : x.head? ≠ some '.') (h2 : '/' ∉ x) (ha : a ≠ '!')
    (ha' : a ≠ ']') (ha'' : a ≠ '/') (hb : b ≠ ']') (hb' : b ≠ '/') {L : Listing ℝ}
    (hL : IsGlobListing cwd fs (x ++ ['[', a, '-', b, ']']) L) (n : Name) (v : Img ℝ) :
    (n, v) ∈ L ↔ '/' ∉ n ∧ ListedFits n ∧ ∃ c, c ≠ '/' ∧ (a ≤ c ∧ c ≤ b) ∧ fs.file (fileIn cwd (x ++ [c]) n) = some (.fits v) := by
  rw [class_listing hx h0 h1 h2 (by simp [ha''.symm, hb'.symm]) (bracketText_range ha ha' hb) hL]
  have : ∀ c : Char, (false != (classRanges [a, '-', b]).any fun r => decide (r.1 ≤ c ∧ c ≤ r.2)) = true ↔ a ≤ c ∧ c ≤ b := by
    intro c
    rw [show classRanges [a, '-', b] = [(a, b)] from rfl]
    simp
  simp only [this]

/-- C139: `Demodulator("cal[!a]")` reads the files of every folder whose name is `cal` and one character other than `a`. -/
theorem C139_negated {x : Name} {a : Char} (hx : PlainName x) (h0 : x ≠ []) (h1 : x.head? ≠ some '.') (h2 : '/' ∉ x)
    (ha' : a ≠ ']') (ha'' : a ≠ '/') {L : Listing ℝ}
    (hL : IsGlobListing cwd fs (x ++ ['[', '!', a, ']']) L) (n : Name) (v : Img ℝ) :
    (n, v) ∈ L ↔ '/' ∉ n ∧ ListedFits n ∧ ∃ c, c ≠ '/' ∧ c ≠ a ∧ fs.file (fileIn cwd (x ++ [c]) n) = some (.fits v) := by
  rw [class_listing hx h0 h1 h2 (by simp [ha''.symm]) (bracketText_not ha') hL]
  have : ∀ c : Char, (true != (classRanges [a]).any fun r => decide (r.1 ≤ c ∧ c ≤ r.2)) = true ↔ c ≠ a := by
    intro c
    rw [show classRanges [a] = [(a, a)] from rfl]
    simp only [List.any_cons, List.any_nil, Bool.or_false, bne_iff_ne, ne_eq, true_eq_decide_iff]
    rw [not_iff_not]
    exact ⟨fun h => le_antisymm h.2 h.1, fun h => by rw [h]; exact ⟨le_refl _, le_refl _⟩⟩
  simp only [this]

/-! ## The hypotheses are met -/

/-- The files of the sensor of C75 in the root directory; there is no other folder. -/
noncomputable def runDisk : FileSystem where
  file p := if p.length = 2 then (runFiles p.tail).map Content.fits else none
  dir p := p = ['/']

theorem run_calculated {files : Name → Option (Img ℝ)} (him : ∀ c : Char, c ≠ '/' → c ≠ '.' → files [c] = runFiles [c]) :
    ∃ maps, calculateDemodulationTensor files (fun _ _ _ => none) exactEnv runArgs 1 1 [0] = .ok maps ∧ maps.fitFound.px 0 0 = 1 := by
  have hr : Readable files runArgs 1 2 2 runContent none := by
    refine { run_readable with frames := ?_, dark := Or.inl ⟨rfl, rfl⟩ }
    intro n hn
    have hn' : n ∈ [['a'], ['b'], ['c']] := hn
    have := run_readable.frames n hn
    refine ⟨?_, this.2⟩
    simp only [List.mem_cons, List.not_mem_nil, or_false] at hn'
    rcases hn' with rfl | rfl | rfl <;> rw [him _ (by decide) (by decide)] <;> exact this.1
  obtain ⟨maps, h1, h2, -⟩ := C75_recovers_sensor (fit := fun _ _ _ => none) exactEnv_finds exactEnv_pinv hr
    run_prescribes (by norm_num [runArgs]) run_nonneg (ny := 1) (nx := 1) (schedule := [0]) (by norm_num) (by norm_num)
    (by norm_num) (by norm_num) (by rfl) (Y := 0) (X := 0) (by norm_num) (by norm_num) rfl run_sane run_sane
    (t := fun _ => 1 / 2) (e := fun _ => 1 / 2) (φ := runPhases) (fun _ => run_inside) (fun _ => run_inside) run_near
    run_directions (by intro i; fin_cases i <;> simp [runArgs]) run_sorted run_law run_rank
    (fun i j => (run_big i j).trans (by norm_num))
  exact ⟨maps, h1, h2⟩

theorem runDisk_images (c : Char) (h1 : c ≠ '/') (h2 : c ≠ '.') : runDisk.images [] [c] = runFiles [c] := by
  have : abspath [] [c] = ['/', c] := by
    unfold abspath absComponents components
    simp [splitChar, h1, h2, resolveDots, pathString, joinChar]
  unfold FileSystem.images
  rw [this]
  show (match (runFiles [c]).map Content.fits with | some (.fits d) => some d | _ => none) = _
  cases runFiles [c] <;> rfl

theorem runDisk_calculated : ∃ maps, calculateDemodulationTensor (runDisk.images []) (fun _ _ _ => none) exactEnv runArgs 1 1 [0] = .ok maps ∧
    maps.fitFound.px 0 0 = 1 := run_calculated runDisk_images

theorem runDisk_long {p : Name} (h : p.length ≠ 2) : runDisk.file p = none := if_neg h

theorem runDisk_open {dir : Name} {x : Name} (hx : x.length ≠ 1)
    (h : resolveDots (absComponents [] (dir ++ "/covariance_tensor".toList)) = [x, covFolder]) : OpenWay [] runDisk dir := by
  intro b hb
  rw [h] at hb
  apply runDisk_long
  have hb' : b = [] ∨ b = [x] ∨ b = [x, covFolder] := by
    obtain ⟨r, hr⟩ := hb
    match b, hr with
    | [], _ => exact Or.inl rfl
    | [y], hr => injection hr with h1; subst h1; exact Or.inr (Or.inl rfl)
    | [y, z], hr => injection hr with h1 h2; injection h2 with h2; subst h1; subst h2; exact Or.inr (Or.inr rfl)
    | y :: z :: w :: b, hr => have := congrArg List.length hr; simp at this
  rcases hb' with rfl | rfl | rfl
  · decide
  · unfold pathString joinChar
    rw [List.length_cons]
    omega
  · unfold pathString
    rw [joinChar_cons (by simp)]
    intro hl
    have : covFolder.length = 17 := rfl
    simp [joinChar, this] at hl

theorem runDisk_below {dir n : Name} (hn : '/' ∉ n) (hf : ListedFits n) (hdir : dir ≠ []) {x : Name} (hx : x ≠ [])
    (h : resolveDots (absComponents [] dir) = [x]) : runDisk.file (fileIn [] dir n) = none := by
  have hg := fits_good (isFits_iff.2 hf) hn
  apply runDisk_long
  unfold fileIn
  rw [(abspath_slash [] hdir hg).1, h]
  unfold pathString
  rw [List.singleton_append, joinChar_cons (by simp)]
  have h1 := List.length_pos_iff.2 hx
  have h2 := List.length_pos_iff.2 hg.1
  intro hl
  simp [joinChar] at hl
  omega

theorem runDisk_clean {dir : Name} (hdir : dir ≠ []) {x : Name} (hx : x ≠ []) (h : resolveDots (absComponents [] dir) = [x]) :
    CleanAt [] runDisk dir := fun _ h1 h2 h3 _ => absurd (runDisk_below h2 h3 hdir hx h) h1

/-- The full claim is false: the calibration is saved to `cal[1]`, and `Demodulator("cal[1]")` does not find it. -/
theorem C139_full_claim_false :
    ∃ (fit : GaussFit) (env : CalibEnv) (a : CalibArgs) (fs final : FileSystem),
      (demodCall fit env a 1 1 [0] [] fs "cal[1]".toList).result = .ok () ∧
      (demodCall fit env a 1 1 [0] [] fs "cal[1]".toList).Final final ∧
      IsGlobListing [] final "cal[1]".toList [] ∧
      ∀ L, IsGlobListing [] final "cal[1]".toList L → demodulatorAt [] final "cal[1]".toList L = .error .fileNotFoundError := by
  obtain ⟨maps, h, -⟩ := runDisk_calculated
  have hw : OpenWay [] runDisk ("cal".toList ++ '[' :: '1' :: ']' :: []) :=
    runDisk_open (x := "cal[1]".toList) (by decide) (by decide)
  obtain ⟨⟨h1, -⟩, final, h2, h3, h4⟩ := C139_not_found (p := "cal".toList) (t := []) (c := '1') (by unfold PlainName; decide)
    (by decide) (by decide) (by decide) (by decide) (by decide) (by simp) hw h
    (fun n hn hf => runDisk_below hn hf (by decide) (x := "cal1".toList) (by decide) (by decide))
  exact ⟨_, _, _, _, final, h1, h2, h3, h4⟩

/-- The folder `cal` is made, and its demodulator is the calculated one, also under the name `./x/../cal`. -/
example : ∃ (maps : CalibMaps) (final : FileSystem), maps.fitFound.px 0 0 = 1 ∧
    (demodCall (fun _ _ _ => none) exactEnv runArgs 1 1 [0] [] runDisk "cal".toList).Final final ∧
    (∀ L, IsGlobListing [] final "./x/../cal".toList L →
      demodulatorAt [] final "./x/../cal".toList L = .ok ⟨maps.mij, some maps.fitFound⟩) ∧
    IsGlobListing [] final "cal".toList (tensorFiles maps.output) := by
  obtain ⟨maps, h, hm⟩ := runDisk_calculated
  have hw : OpenWay [] runDisk "cal".toList := runDisk_open (x := "cal".toList) (by decide) (by decide)
  have hp : PlainName "cal".toList := by unfold PlainName; decide
  obtain ⟨final, h1, h2⟩ := C139_loads_partial (dir := "cal".toList) (by simp) (by decide) hw
    (runDisk_clean (by decide) (x := "cal".toList) (by decide) (by decide)) (by rfl) h
  refine ⟨maps, final, hm, h1, h2 [] _ (by simp) (by decide) (by unfold PlainName; decide) (by decide), ?_⟩
  obtain ⟨final', h3, -, h4, h5⟩ := demodCall_final (dir := "cal".toList) (by simp) (by decide) hw h
  have : final' = final := Option.some.inj (h3.symm.trans h1)
  subst this
  have hown : ∀ e ∈ tensorFiles maps.output, final'.file (fileIn [] "cal".toList e.1) = some (.fits e.2) := fun e he =>
    h4 _ _ (List.mem_append.2 (Or.inl (List.mem_map.2 ⟨e, he, rfl⟩)))
  refine ⟨(tensorFiles maps.output).map fun e => (components "cal".toList, e.1), ?_, ?_, ?_⟩
  · have := tensorFiles_nodup (o := maps.output)
    have h := List.Nodup.map (f := fun n : Name => (components "cal".toList, n)) (fun _ _ h => (Prod.mk.inj h).2) this
    rwa [List.map_map] at h
  · intro q n
    constructor
    · intro hx
      obtain ⟨e, he, heq⟩ := List.mem_map.1 hx
      obtain ⟨rfl, rfl⟩ := Prod.mk.inj heq
      have hg := tensorFiles_good he
      refine ⟨(globFolder_plain hp _).2 rfl, chenComps_good _, hg.1.2.2.2, hg.2.1, ?_⟩
      rw [globPath_plain (by decide) hg.1, hown e he]
      simp
    · rintro ⟨g1, g2, g3, g4, g5⟩
      rw [(globFolder_plain hp _).1 g1] at g5 ⊢
      have hg := fits_good g4 g3
      rw [globPath_plain (by decide) hg] at g5
      by_cases hn : n ∈ (tensorFiles maps.output).map Prod.fst
      · obtain ⟨e, he, rfl⟩ := List.mem_map.1 hn
        exact List.mem_map.2 ⟨e, he, rfl⟩
      · rw [h5 _ fun hx => hn (disk_own (by simp) (by decide) hg hx),
          runDisk_below g3 (isFits_iff.1 g4) (by decide) (x := "cal".toList) (by decide) (by decide)] at g5
        exact absurd rfl g5
  · rw [List.forall₂_map_left_iff, List.forall₂_same]
    intro e he
    exact ⟨rfl, by rw [globPath_plain (by decide) (tensorFiles_good he).1]; exact hown e he⟩

/-- `C139_star`, `C139_question_mark`, `C139_range` and `C139_negated`: a disk with one file, `cal1/M00.fits`. -/
example : ∃ fs : FileSystem, IsGlobListing [] fs "cal*".toList [("M00.fits".toList, Img.zeros 2 2)] ∧
    IsGlobListing [] fs "cal?".toList [("M00.fits".toList, Img.zeros 2 2)] ∧
    IsGlobListing [] fs "cal[0-9]".toList [("M00.fits".toList, Img.zeros 2 2)] ∧
    IsGlobListing [] fs "cal[!2]".toList [("M00.fits".toList, Img.zeros 2 2)] := by
  let fs : FileSystem := ⟨fun p => if p = "/cal1/M00.fits".toList then some (.fits (Img.zeros 2 2)) else none, fun _ => True⟩
  have hfile : ∀ p, fs.file p = if p = "/cal1/M00.fits".toList then some (.fits (Img.zeros 2 2)) else none := fun _ => rfl
  have key : ∀ pat : Name, components pat = [pat] → pat.head? ≠ some '/' → compMatch pat "cal1".toList = true →
      (∀ z, compMatch pat z = true → z ≠ ['.', '.']) → IsGlobListing [] fs pat [("M00.fits".toList, Img.zeros 2 2)] := by
    intro pat h1 h2 h3 h4
    have hp : ∀ z n, z ≠ ['.', '.'] → globPath [] pat [z] n = pathString [z, n] := fun z n hz => by
      unfold globPath globBase
      rw [if_neg h2, resolveDots_snoc _ hz]
      rfl
    refine ⟨[(["cal1".toList], "M00.fits".toList)], List.nodup_singleton _, fun q n => ?_, List.Forall₂.cons ⟨rfl, ?_⟩ List.Forall₂.nil⟩
    · rw [List.mem_singleton, Prod.mk.injEq]
      constructor
      · rintro ⟨rfl, rfl⟩
        refine ⟨?_, ?_, by decide, by decide, ?_⟩
        · unfold GlobFolder
          rw [h1]
          exact List.Forall₂.cons h3 List.Forall₂.nil
        · intro y hy
          rw [List.mem_singleton.1 hy]
          decide
        · rw [hp _ _ (h4 _ h3)]
          have hf : fs.file (pathString ["cal1".toList, "M00.fits".toList]) = some (.fits (Img.zeros 2 2)) := by
            rw [hfile, if_pos (show pathString ["cal1".toList, "M00.fits".toList] = "/cal1/M00.fits".toList by decide)]
          rw [hf]
          exact Option.some_ne_none _
      · rintro ⟨g1, g2, g3, g4, g5⟩
        unfold GlobFolder at g1
        rw [h1, List.forall₂_cons_left_iff] at g1
        obtain ⟨z, u, hz, hu, rfl⟩ := g1
        rw [List.forall₂_nil_left_iff] at hu
        subst hu
        rw [hp _ _ (h4 _ hz)] at g5
        have hpath : pathString [z, n] = pathString ["cal1".toList, "M00.fits".toList] := by
          by_contra hne
          exact g5 (if_neg hne)
        have hz' := g2 z (by simp)
        have hn := fits_good g4 g3
        have := pathString_injective (by
          intro y hy
          simp only [List.mem_cons, List.not_mem_nil, or_false] at hy
          rcases hy with rfl | rfl
          · exact hz'
          · exact ⟨hn.1, hn.2.1, hn.2.2.2⟩) (by decide) hpath
        injection this with e1 e2
        injection e2 with e2
        exact ⟨by rw [e1], e2⟩
    · rw [hp _ _ (h4 _ h3)]
      rw [hfile]
      exact if_pos (show pathString ["cal1".toList, "M00.fits".toList] = "/cal1/M00.fits".toList by decide)
  have hp : PlainName "cal".toList := by unfold PlainName; decide
  refine ⟨fs, key _ (by decide) (by decide) ?_ ?_, key _ (by decide) (by decide) ?_ ?_, key _ (by decide) (by decide) ?_ ?_,
    key _ (by decide) (by decide) ?_ ?_⟩
  · exact (compMatch_star hp (by decide) (by decide)).2 ⟨['1'], rfl⟩
  · intro z hz
    obtain ⟨y, rfl⟩ := (compMatch_star hp (by decide) (by decide)).1 hz
    exact fun h => by injection h with h; revert h; decide
  · exact (compMatch_one hp (by decide) (by decide)).2 ⟨'1', rfl⟩
  · intro z hz
    obtain ⟨y, rfl⟩ := (compMatch_one hp (by decide) (by decide)).1 hz
    exact fun h => by injection h with h; revert h; decide
  · exact (compMatch_class hp (by decide) (by decide) (bracketText_range (a := '0') (b := '9') (by decide) (by decide) (by decide))).2
      ⟨'1', rfl, by decide⟩
  · intro z hz
    obtain ⟨y, rfl, -⟩ := (compMatch_class hp (by decide) (by decide) (bracketText_range (a := '0') (b := '9') (by decide) (by decide)
      (by decide))).1 hz
    exact fun h => by injection h with h; revert h; decide
  · exact (compMatch_class hp (by decide) (by decide) (bracketText_not (a := '2') (by decide))).2 ⟨'1', rfl, by decide⟩
  · intro z hz
    obtain ⟨y, rfl, -⟩ := (compMatch_class hp (by decide) (by decide) (bracketText_not (a := '2') (by decide))).1 hz
    exact fun h => by injection h with h; revert h; decide

/-- `C139_blocked`: the folder `a/cal` cannot be made, since `a` is a file. -/
example (fit : GaussFit) (env : CalibEnv) : (demodCall fit env runArgs 1 1 [0] [] runDisk "a/cal".toList).FailedClean runDisk .fileNotFoundError := by
  refine C139_blocked (b := [['a']]) ?_ ⟨["cal".toList], by decide⟩ ?_
  · show ¬ (abspath [] "a/cal".toList = ['/'])
    decide
  · show (runFiles ['a']).map Content.fits ≠ none
    simp [runFiles]

/-- `C139_failed`: a calculation that raises. -/
example (fit : GaussFit) (env : CalibEnv) :
    (demodCall fit env { runArgs with normS := .missing } 1 1 [0] [] runDisk "cal".toList).result = .error .valueError := by
  refine (C139_failed (e := .valueError) ?_ (by decide) (runDisk_open (x := "cal".toList) (by decide) (by decide))).1
  have hp : prepare (runDisk.images []) fit { runArgs with normS := .missing } = .error .valueError := by
    unfold prepare
    rw [if_pos]
    refine ⟨rfl, fun h => ?_, fun h => ?_⟩
    · have := h (-45) (by simp [normMinus])
      norm_num [runArgs] at this
    · have := h 135 (by simp [normPlus])
      norm_num [runArgs] at this
  unfold calculateDemodulationTensor
  rw [hp]
  rfl

end Micropol
