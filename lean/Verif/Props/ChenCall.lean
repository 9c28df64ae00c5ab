import Verif.Lemmas.ChenCall
import Verif.Props.ChenFolder

/-!
# C138: the folder of a Chen-Wang-Liang calibration

Full property: `calculate_chen_wan_lian_calibration(..., output_dir)` either raises and leaves the disk as it was, or it writes the
seventeen files to `output_dir`, which it makes if it is not there, touches nothing else, and `chen_wan_liang_calibration(image,
output_dir)` then applies this calibration, under whatever name the folder is called.

A call whose calculation raises does nothing (`C138_failed`).  The rest holds exactly when the folder is there, or the folder above it is
and its own name has no extension (`C138_saved_partial`, `C138_lost`); in all other cases the calibration has been calculated and is lost
(`C138_full_claim_false`).  With the empty name the calibration goes to the current directory and is looked for in the root
(`C138_empty_name`).
-/

set_option autoImplicit false
set_option linter.unusedSectionVars false

namespace Micropol

variable {env : ChenEnv} {cwd : List Name} {fs : FileSystem} {a : ChenArgs} {dir : Name} {C : Fin 4 → Fin 4 → Img ℝ} {d : Img ℝ}

/-- C138: a call whose calculation raises leaves the disk as it was; the folder is not even made. -/
theorem C138_failed {e : PyErr} (h : calculateChen env (fs.images cwd) a = .error e) (dir : Name) :
    (chenCall env cwd fs a dir).FailedClean fs e := by
  unfold chenCall
  rw [h]
  exact ⟨rfl, rfl⟩

theorem chenCall_ok (hcwd : ∀ x ∈ cwd, GoodComp x) (hw : Rooted fs) (hdir : dir ≠ [])
    (h : calculateChen env (fs.images cwd) a = .ok (C, d)) (hf : IsFolder cwd fs dir ∨ CanBeMade cwd fs dir) :
    SavedExactly fs (chenCall env cwd fs a dir) ((calibrationFiles C d).map fun e => (fileIn cwd dir e.1, e.2)) := by
  obtain ⟨fs', h1, h2, h3⟩ := makeAbs_folder hcwd hw hf
  unfold chenCall
  rw [h]
  dsimp only
  rw [h1]
  exact chen_written hcwd hdir h2 h3

theorem fileIn_eq {cwd' : List Name} {dir' n : Name} (hcwd : ∀ x ∈ cwd, GoodComp x) (hcwd' : ∀ x ∈ cwd', GoodComp x) (hdir : dir ≠ [])
    (hdir' : dir' ≠ []) (h : abspath cwd' dir' = abspath cwd dir) (hn : GoodComp n) : fileIn cwd' dir' n = fileIn cwd dir n := by
  unfold fileIn
  rw [(abspath_slash cwd' hdir' hn).1, (abspath_slash cwd hdir hn).1]
  unfold abspath at h
  rw [pathString_injective (fun x hx => chenAbs_good hcwd' dir' x (resolveDots_mem hx).1)
    (fun x hx => chenAbs_good hcwd dir x (resolveDots_mem hx).1) h]

/-- C138: what holds if the folder is there or can be made: the seventeen files are in it, no other file was touched at any moment, and
images are calibrated with this calibration, from wherever and by whatever name the folder is given.  Missing from the full property:
the other folders, see `C138_lost`. -/
theorem C138_saved_partial (hcwd : ∀ x ∈ cwd, GoodComp x) (hw : Rooted fs) (hdir : dir ≠ [])
    (h : calculateChen env (fs.images cwd) a = .ok (C, d)) (hf : IsFolder cwd fs dir ∨ CanBeMade cwd fs dir) :
    SavedExactly fs (chenCall env cwd fs a dir) ((calibrationFiles C d).map fun e => (fileIn cwd dir e.1, e.2)) ∧
    ∃ final, (chenCall env cwd fs a dir).Final final ∧
      ∀ (cwd' : List Name) (dir' : Name), (∀ x ∈ cwd', GoodComp x) → dir' ≠ [] → abspath cwd' dir' = abspath cwd dir →
        ∀ data : Img ℝ, (∀ i j, (C i j).SameShape data) → chenApply cwd' final dir' data = chenWanLiang C d data := by
  have hs := chenCall_ok hcwd hw hdir h hf
  refine ⟨hs, ?_⟩
  obtain ⟨-, -, ⟨final, hfin, hall⟩, -⟩ := hs
  refine ⟨final, hfin, fun cwd' dir' hcwd' hdir' heq data hC => ?_⟩
  have key : ∀ e ∈ chenWrites C d, readLive (final.folderAt cwd' dir') e.1 = .ok e.2 := by
    intro e he
    have hg := calibrationFiles_good he
    have h1 : final.file (fileIn cwd dir e.1) = some (.fits e.2) :=
      hall _ _ (List.mem_map.2 ⟨e, by rw [calibrationFiles_eq]; exact he, rfl⟩)
    rw [← fileIn_eq hcwd hcwd' hdir hdir' heq hg] at h1
    unfold fileIn at h1
    unfold readLive FileSystem.folderAt
    rw [h1]
  unfold chenApply
  refine applyChen_ok hC (fun i j => ?_) ?_
  · exact key (cName i j, C i j) (List.mem_of_getElem? (chenWrites_matrix C d i j))
  · exact key (dijName, d) (by unfold chenWrites; simp)

/-- C138: if the folder is not there and cannot be made (the folder above it is missing, or its own name has an extension, or there is a
file of that name), the call raises after the calculation, and no file is written: the calibration is lost. -/
theorem C138_lost (hcwd : ∀ x ∈ cwd, GoodComp x) (h : calculateChen env (fs.images cwd) a = .ok (C, d))
    (hf : ¬ (IsFolder cwd fs dir ∨ CanBeMade cwd fs dir)) :
    (chenCall env cwd fs a dir).result = .error .fileNotFoundError ∧ ∀ s ∈ (chenCall env cwd fs a dir).states, s.file = fs.file := by
  unfold chenCall
  rw [h]
  dsimp only
  rcases makeAbs_nofolder hcwd hf with h1 | ⟨fs', h1, h2, h3⟩
  · rw [h1]
    refine ⟨rfl, fun s hs => ?_⟩
    rw [List.mem_singleton.1 hs]
  · rw [h1]
    dsimp only
    rw [chen_refused hcwd h3]
    refine ⟨rfl, fun s hs => ?_⟩
    simp only [List.mem_cons, List.not_mem_nil, or_false] at hs
    rcases hs with rfl | rfl
    · rfl
    · exact h2

/-- C138: with the empty name the calibration is saved to the current directory, and is then looked for in the root directory: no image
is calibrated otherwise than before the call. -/
theorem C138_empty_name (hcwd : ∀ x ∈ cwd, GoodComp x) (hne : cwd ≠ []) (hw : Rooted fs) (hd : fs.dir (pathString cwd))
    (h : calculateChen env (fs.images cwd) a = .ok (C, d)) :
    SavedExactly fs (chenCall env cwd fs a []) ((calibrationFiles C d).map fun e => (pathString (cwd ++ [e.1]), e.2)) ∧
    ∀ s ∈ (chenCall env cwd fs a []).states, ∀ data : Img ℝ, chenApply cwd s [] data = chenApply cwd fs [] data := by
  have habs : absComponents cwd [] = cwd := by
    unfold absComponents components
    simp [splitChar]
  have habs' : absComponents cwd ['.'] = cwd := by
    unfold absComponents components
    simp [splitChar]
  have hres : resolveDots cwd = cwd := resolveDots_id fun x hx => (hcwd x hx).2.2.1
  have hcall : chenCall env cwd fs a [] = chenCall env cwd fs a ['.'] := by
    unfold chenCall makeAbsAndCreateDir
    rw [habs, habs']
  have hfold : IsFolder cwd fs ['.'] := by
    unfold IsFolder abspath
    rw [habs', hres]
    exact hd
  have hfile : ∀ e ∈ chenWrites C d, fileIn cwd ['.'] e.1 = pathString (cwd ++ [e.1]) := by
    intro e he
    unfold fileIn
    rw [(abspath_slash cwd (by simp) (calibrationFiles_good he)).1, habs', hres]
  have hs := chenCall_ok (dir := ['.']) hcwd hw (by simp) h (Or.inl hfold)
  rw [calibrationFiles_eq, List.map_congr_left (fun e he => by rw [hfile e he]), ← calibrationFiles_eq, ← hcall] at hs
  refine ⟨hs, fun s hss data => ?_⟩
  obtain ⟨-, -, -, hother⟩ := hs
  have key : ∀ e ∈ chenWrites C d, s.folderAt cwd [] e.1 = fs.folderAt cwd [] e.1 := by
    intro e he
    have hg := calibrationFiles_good he
    have hroot : abspath cwd ([] ++ '/' :: e.1) = pathString ([] ++ [e.1]) := by
      unfold abspath absComponents
      rw [if_pos (by rfl), components_slash [] hg]
      have : components [] = [] := by unfold components; simp [splitChar]
      rw [this, resolveDots_snoc _ hg.2.2.1]
      rfl
    unfold FileSystem.folderAt
    rw [hother s hss]
    rw [hroot]
    intro hm
    rw [List.map_map] at hm
    obtain ⟨e', he', heq⟩ := List.mem_map.1 hm
    rw [calibrationFiles_eq] at he'
    have hg' := calibrationFiles_good he'
    have := pathString_injective (l := cwd ++ [e'.1]) (m := [] ++ [e.1]) (by
        intro x hx
        rcases List.mem_append.1 hx with hx | hx
        · exact ⟨(hcwd x hx).1, (hcwd x hx).2.1, (hcwd x hx).2.2.2⟩
        · rw [List.mem_singleton.1 hx]; exact ⟨hg'.1, hg'.2.1, hg'.2.2.2⟩) (by
        intro x hx
        rw [List.mem_singleton.1 hx]; exact ⟨hg.1, hg.2.1, hg.2.2.2⟩) heq
    have := congrArg List.length this
    simp only [List.length_append, List.length_cons, List.length_nil] at this
    exact hne (List.length_eq_zero_iff.1 (by omega))
  have hr : readChen (fun _ => s.folderAt cwd []) data.h data.w = readChen (fun _ => fs.folderAt cwd []) data.h data.w := by
    have k1 : ∀ i j : Fin 4, readLive (s.folderAt cwd []) (cName i j) = readLive (fs.folderAt cwd []) (cName i j) := by
      intro i j
      unfold readLive
      rw [key (cName i j, C i j) (List.mem_of_getElem? (chenWrites_matrix C d i j))]
    have k2 : readLive (s.folderAt cwd []) dijName = readLive (fs.folderAt cwd []) dijName := by
      unfold readLive
      rw [key (dijName, d) (by unfold chenWrites; simp)]
    unfold readChen
    simp only [k1, k2]
  unfold chenApply applyChen
  rw [hr]

/-! ## The hypotheses are met -/

/-- The files of the calibration of an ideal sensor in the root directory; there is no other folder. -/
noncomputable def exChenDisk : FileSystem where
  file p := if p.length = 2 then (exChenFs p.tail).map Content.fits else none
  dir p := p = ['/']

theorem exChenDisk_rooted : Rooted exChenDisk := by
  intro l hl
  have hl : pathString l = ['/'] := hl
  show pathString l.dropLast = ['/']
  cases l with
  | nil => rfl
  | cons x l =>
    cases l with
    | nil => rfl
    | cons y l => unfold pathString at hl; rw [joinChar_cons (by simp)] at hl; simp at hl

theorem exChenDisk_calculated : ∃ C d, calculateChen exChenEnv (exChenDisk.images []) exChenArgs = .ok (C, d) ∧
    ∀ i j, (C i j).SameShape (Img.const 2 2 (1 : ℝ)) := by
  have him : ∀ c : Char, c ≠ '/' → c ≠ '.' → exChenDisk.images [] [c] = exChenFs [c] := by
    intro c h1 h2
    have : abspath [] [c] = ['/', c] := by
      unfold abspath absComponents components
      simp [splitChar, h1, h2, resolveDots, pathString, joinChar]
    unfold FileSystem.images
    rw [this]
    show (match (exChenFs [c]).map Content.fits with | some (.fits d) => some d | _ => none) = _
    cases exChenFs [c] <;> rfl
  have h : ChenReadable (exChenDisk.images []) exChenArgs 2 2 exChenFrames none (Img.const 2 2 1) 1 id := by
    refine { exChen_readable with frames := ?_, dark := Or.inl ⟨rfl, rfl⟩, flat := ⟨['f'], by decide, rfl, ?_, rfl, rfl⟩ }
    · intro n hn
      refine ⟨?_, rfl, rfl⟩
      have hn' : n ∈ [['a'], ['b'], ['c'], ['d']] := hn
      have := (exChen_readable.frames n hn).1
      simp only [List.mem_cons, List.not_mem_nil, or_false] at hn'
      rcases hn' with rfl | rfl | rfl | rfl <;> rw [him _ (by decide) (by decide)] <;> exact this
    · rw [him _ (by decide) (by decide)]; rfl
  exact ⟨_, _, calculateChen_ok exChenEnv_correct h, fun _ _ => ⟨rfl, rfl⟩⟩

/-- The full claim is false: the folder `cal.1` is not made, and the calibration is lost, although the same call with the name `cal`
saves it. -/
theorem C138_full_claim_false :
    ∃ (env : ChenEnv) (fs : FileSystem) (a : ChenArgs), Rooted fs ∧
      (chenCall env [] fs a "cal".toList).result = .ok () ∧
      (chenCall env [] fs a "cal.1".toList).result = .error .fileNotFoundError := by
  obtain ⟨C, d, h, -⟩ := exChenDisk_calculated
  refine ⟨exChenEnv, exChenDisk, exChenArgs, exChenDisk_rooted, ?_, ?_⟩
  · refine (chenCall_ok (dir := "cal".toList) (by simp) exChenDisk_rooted (by simp) h (Or.inr ⟨?_, rfl, rfl, rfl⟩)).1
    show ¬ (abspath [] "cal".toList = ['/'])
    decide
  · refine (C138_lost (dir := "cal.1".toList) (by simp) h ?_).1
    rintro (h | ⟨-, -, -, h⟩)
    · revert h
      show ¬ (abspath [] "cal.1".toList = ['/'])
      decide
    · revert h
      decide

/-- A folder that can be made, one that is there, and a calculation that raises. -/
example : CanBeMade [] exChenDisk "cal".toList ∧ IsFolder [] exChenDisk ".".toList ∧
    calculateChen exChenEnv (exChenDisk.images []) { exChenArgs with filenames := [] } = .error .valueError := by
  refine ⟨⟨?_, rfl, rfl, rfl⟩, rfl, rfl⟩
  show ¬ (abspath [] "cal".toList = ['/'])
  decide

/-- The image of the example is calibrated from the new folder, also under the name `./x/../cal`. -/
example : ∃ C d, calculateChen exChenEnv (exChenDisk.images []) exChenArgs = .ok (C, d) ∧ ∃ final, (chenCall exChenEnv [] exChenDisk exChenArgs "cal".toList).Final final ∧
      chenApply [] final "./x/../cal".toList (Img.const 2 2 1) = chenWanLiang C d (Img.const 2 2 1) := by
  obtain ⟨C, d, h, hC⟩ := exChenDisk_calculated
  refine ⟨C, d, h, ?_⟩
  obtain ⟨-, final, h1, h2⟩ := C138_saved_partial (dir := "cal".toList) (by simp) exChenDisk_rooted (by simp) h
    (Or.inr ⟨by show ¬ (abspath [] "cal".toList = ['/']); decide, rfl, rfl, rfl⟩)
  exact ⟨final, h1, h2 [] _ (by simp) (by simp) (by decide) _ hC⟩

end Micropol
