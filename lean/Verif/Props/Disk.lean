import Verif.Lemmas.Disk
import Verif.Props.Load
import Verif.Props.Save
import Verif.Props.ObjectStokes
import Verif.Props.Superposition
import Verif.Props.PilRotate

/-!
# C103: images on the disk

The statements use `diskRun` (a history of session calls, saves, loads, restarts and crashes during saves), `saveAsFits` (the modelled
`save_as_fits`, see C71), `limited` (the limits of `fixto`), `dataStokes` (theoretical Stokes maps, see C17) and the vocabulary of
`Verif/Spec/Disk.lean`.
-/

set_option autoImplicit false

namespace Micropol

noncomputable section

variable {cwd : List Name} {c : Clock} {fs : FileSystem}

/-! ## Auxiliary facts -/

theorem load_one {fs : FileSystem} {dates : FoundDates} {arg : LoadArg} {name : Name} {d : Img ℝ} (harg : arg.names = [name])
    (hraw : name ≠ rawExt) (hd : ReadableDate c (dates name)) (hf : fs.file (abspath cwd name) = some (.fits d)) (average : Bool) :
    ∃ r, loadImage (fitsOpen cwd fs dates) c arg average = .ok r ∧ r.data = d := by
  obtain ⟨t, ht⟩ := hd
  have hg : GoodFiles (fitsOpen cwd fs dates) c [name] d.h d.w (fun _ => d) (fun _ => t) := by
    refine ⟨by simpa using Ne.symm hraw, ?_⟩
    intro n hn
    rw [List.mem_singleton.1 hn]
    refine ⟨⟨rfl, rfl⟩, ⟨some d, (dates name).1, (dates name).2⟩, ?_, rfl, ht⟩
    unfold fitsOpen
    rw [hf]
  cases arg with
  | list l =>
    have e : l = [name] := harg
    subst e
    obtain ⟨r, h1, -, h2, -⟩ := C68_list_partial average hg
    exact ⟨r, h1, h2⟩
  | single s =>
    have e : s = name := by simpa [FilesArg.names] using harg
    subst e
    obtain ⟨r, h1, h2, -⟩ := C68_string average hg
    exact ⟨r, h1, h2⟩

/-- What a load leaves in the new image. -/
theorem load_gives {p : Program} {arg : LoadArg} {dic : Option AngleDic} {average : Bool} {dates : FoundDates} {junk : Nat → Nat → ℝ}
    {r : LoadedImage} (hr : loadImage (fitsOpen cwd p.files dates) c arg average = .ok r) {n : Nat}
    (hn : (diskStep cwd c p (.load arg dic none none average dates junk)).mem.images = p.mem.images ++ [n]) :
    (diskStep cwd c p (.load arg dic none none average dates junk)).mem.data n = r.data ∧
    (diskStep cwd c p (.load arg dic none none average dates junk)).mem.dic n = dicVal dic p.mem.heap ∧
    dataStokes r.data (dicVal dic p.mem.heap) =
      .ok ((diskStep cwd c p (.load arg dic none none average dates junk)).mem.stokes n) := by
  unfold diskStep loadObj at hn ⊢
  dsimp only at hn ⊢
  rw [hr] at hn ⊢
  dsimp only at hn ⊢
  cases hS : dataStokes r.data (dicVal dic p.mem.heap) with
  | ok S =>
    rw [step_fromArray r.data dic junk hS] at hn ⊢
    have e : p.mem.heap.objs.size = n := by
      have := List.append_cancel_left hn
      simpa using this
    subst e
    refine ⟨congrArg ImgView.data (arrayHeap_view r.data S dic p.mem.heap), congrArg ImgView.dic (arrayHeap_view r.data S dic p.mem.heap), ?_⟩
    exact congrArg Except.ok (congrArg (fun v => v.stokes.planes) (arrayHeap_view r.data S dic p.mem.heap)).symm
  | error e =>
    exfalso
    have hrun := newFromArray_run r.data dic p.mem.heap
    rw [hS] at hrun
    dsimp only at hrun
    unfold step exec at hn
    dsimp only at hn
    rw [run_namedOpt_none, run_namedOpt_none, run_of_err hrun] at hn
    have := congrArg List.length hn
    simp at this

theorem load_returns {p : Program} {arg : LoadArg} {dic : Option AngleDic} {average : Bool} {dates : FoundDates} {junk : Nat → Nat → ℝ}
    {r : LoadedImage} (hr : loadImage (fitsOpen cwd p.files dates) c arg average = .ok r) {S : Fin 3 → Img ℝ}
    (hS : dataStokes r.data (dicVal dic p.mem.heap) = .ok S) :
    ∃ n, (diskStep cwd c p (.load arg dic none none average dates junk)).mem.images = p.mem.images ++ [n] := by
  unfold diskStep loadObj
  dsimp only
  rw [hr]
  dsimp only
  rw [step_fromArray r.data dic junk hS]
  exact ⟨_, rfl⟩

/-! ## The claims -/

/-- C103: an image that was saved is what every later load of the file finds: whatever calls, saves to other files, loads, restarts
and crashes (of saves to other files) came in between, under whatever name the file is given, the pixels are those that the image had
when it was saved, with the limits of `fixto`. -/
theorem C103_pixels (hcwd : ∀ x ∈ cwd, GoodComp x) (pre post : List DiskOp) {i k : Nat} {name : Name} {fixto : Option (ℝ × ℝ)}
    (hs : CanSave cwd c fs pre i k name fixto) (hpost : ∀ o ∈ post, o.target cwd ≠ some (abspath cwd name))
    {arg : LoadArg} {name' : Name} (harg : arg.names = [name']) (hname : abspath cwd name' = abspath cwd name) (hraw : name' ≠ rawExt)
    {dic : Option AngleDic} {average : Bool} {dates : FoundDates} {junk : Nat → Nat → ℝ} (hd : ReadableDate c (dates name')) {n : Nat}
    (hn : GivesImage cwd c fs (pre ++ [.save i name fixto] ++ post) (.load arg dic none none average dates junk) n) :
    (diskRun cwd c fs (pre ++ [.save i name fixto] ++ post ++ [.load arg dic none none average dates junk])).mem.data n =
      limited fixto ((diskRun cwd c fs pre).mem.data k) := by
  have hf := diskRun_frame (c := c) (fs := fs) hcwd (pre ++ [.save i name fixto]) post hpost
  rw [saved_file hcwd hs, ← hname] at hf
  obtain ⟨r, hr, hrd⟩ := load_one harg hraw hd hf average
  unfold GivesImage at hn
  rw [diskRun_snoc] at hn ⊢
  rw [(load_gives hr hn).1, hrd]

/-- C103: and the load succeeds, with any dictionary for the four orientations (or without one if the default is such a one). -/
theorem C103_loads (hcwd : ∀ x ∈ cwd, GoodComp x) (pre post : List DiskOp) {i k : Nat} {name : Name} {fixto : Option (ℝ × ℝ)}
    (hs : CanSave cwd c fs pre i k name fixto) (hpost : ∀ o ∈ post, o.target cwd ≠ some (abspath cwd name))
    {arg : LoadArg} {name' : Name} (harg : arg.names = [name']) (hname : abspath cwd name' = abspath cwd name) (hraw : name' ≠ rawExt)
    {dic : Option AngleDic} (average : Bool) {dates : FoundDates} (junk : Nat → Nat → ℝ) (hd : ReadableDate c (dates name'))
    (hdic : ∀ d, dic = some d → ∃ L : Layout, L.Describes d)
    (hdefault : ∀ d, (diskRun cwd c fs (pre ++ [.save i name fixto] ++ post)).mem.heap.defaultDic = some d → ∃ L : Layout, L.Describes d) :
    ∃ n, GivesImage cwd c fs (pre ++ [.save i name fixto] ++ post) (.load arg dic none none average dates junk) n := by
  have hf := diskRun_frame (c := c) (fs := fs) hcwd (pre ++ [.save i name fixto]) post hpost
  rw [saved_file hcwd hs, ← hname] at hf
  obtain ⟨r, hr, hrd⟩ := load_one harg hraw hd hf average
  have heven : r.data.h % 2 = 0 ∧ r.data.w % 2 = 0 := by
    obtain ⟨ops', h1, -⟩ := mem_run (cwd := cwd) (c := c) (fs := fs) pre
    have := C44_even ops' k (by rw [← h1]; exact List.mem_of_getElem? hs.1)
    rw [← h1] at this
    rw [hrd]
    cases fixto with
    | none => exact this
    | some lh =>
      unfold limited fixData
      dsimp only
      split_ifs
      · exact this
      · exact this
  obtain ⟨L, hL⟩ : ∃ L : Layout, L.Describes (dicVal dic (diskRun cwd c fs (pre ++ [.save i name fixto] ++ post)).mem.heap) := by
    unfold dicVal
    cases hx : dic with
    | some d => exact hdic d hx
    | none =>
      dsimp only
      cases hy : (diskRun cwd c fs (pre ++ [.save i name fixto] ++ post)).mem.heap.defaultDic with
      | some d => exact hdefault d hy
      | none => exact ⟨_, C02_polarCam.1⟩
  obtain ⟨S, hS, -⟩ := C17_stokes r.data heven.1 heven.2 L _ hL
  obtain ⟨n, hn⟩ := load_returns (dic := dic) (junk := junk) hr hS
  refine ⟨n, ?_⟩
  unfold GivesImage
  rw [diskRun_snoc]
  exact hn

/-- C103: I, Q and U come back as well, if the image had theoretical ones and it is loaded with the dictionary that it had. -/
theorem C103_stokes_partial (hcwd : ∀ x ∈ cwd, GoodComp x) (pre post : List DiskOp) (htheo : ∀ o ∈ pre, o.theoretical = true) {i k : Nat}
    {name : Name} (hs : CanSave cwd c fs pre i k name none) (hpost : ∀ o ∈ post, o.target cwd ≠ some (abspath cwd name))
    {arg : LoadArg} {name' : Name} (harg : arg.names = [name']) (hname : abspath cwd name' = abspath cwd name) (hraw : name' ≠ rawExt)
    {dic : Option AngleDic} {average : Bool} {dates : FoundDates} {junk : Nat → Nat → ℝ} (hd : ReadableDate c (dates name')) {n : Nat}
    (hn : GivesImage cwd c fs (pre ++ [.save i name none] ++ post) (.load arg dic none none average dates junk) n)
    (hdic : (diskRun cwd c fs (pre ++ [.save i name none] ++ post ++ [.load arg dic none none average dates junk])).mem.dic n =
      (diskRun cwd c fs pre).mem.dic k) :
    (diskRun cwd c fs (pre ++ [.save i name none] ++ post ++ [.load arg dic none none average dates junk])).mem.stokes n =
      (diskRun cwd c fs pre).mem.stokes k := by
  have hf := diskRun_frame (c := c) (fs := fs) hcwd (pre ++ [.save i name none]) post hpost
  rw [saved_file hcwd hs, ← hname] at hf
  obtain ⟨r, hr, hrd⟩ := load_one harg hraw hd hf average
  unfold GivesImage at hn
  rw [diskRun_snoc] at hn hdic ⊢
  obtain ⟨-, h2, h3⟩ := load_gives hr hn
  obtain ⟨ops', h4, h5⟩ := mem_run (cwd := cwd) (c := c) (fs := fs) pre
  have h6 := C42_theoretical ops' (h5 htheo) k (by rw [← h4]; exact List.mem_of_getElem? hs.1)
  rw [← h4] at h6
  rw [← h2, hdic, hrd] at h3
  exact Except.ok.inj (h3.symm.trans h6)

/-- C103: whatever the image was, the loaded one has the theoretical I, Q and U of the saved pixels and of the dictionary with which it is
loaded. -/
theorem C103_reloaded_stokes (hcwd : ∀ x ∈ cwd, GoodComp x) (pre post : List DiskOp) {i k : Nat} {name : Name} {fixto : Option (ℝ × ℝ)}
    (hs : CanSave cwd c fs pre i k name fixto) (hpost : ∀ o ∈ post, o.target cwd ≠ some (abspath cwd name))
    {arg : LoadArg} {name' : Name} (harg : arg.names = [name']) (hname : abspath cwd name' = abspath cwd name) (hraw : name' ≠ rawExt)
    {dic : AngleDic} {average : Bool} {dates : FoundDates} {junk : Nat → Nat → ℝ} (hd : ReadableDate c (dates name')) {n : Nat}
    (hn : GivesImage cwd c fs (pre ++ [.save i name fixto] ++ post) (.load arg (some dic) none none average dates junk) n) :
    dataStokes (limited fixto ((diskRun cwd c fs pre).mem.data k)) dic = .ok
      ((diskRun cwd c fs (pre ++ [.save i name fixto] ++ post ++ [.load arg (some dic) none none average dates junk])).mem.stokes n) := by
  have hf := diskRun_frame (c := c) (fs := fs) hcwd (pre ++ [.save i name fixto]) post hpost
  rw [saved_file hcwd hs, ← hname] at hf
  obtain ⟨r, hr, hrd⟩ := load_one harg hraw hd hf average
  unfold GivesImage at hn
  rw [diskRun_snoc] at hn ⊢
  obtain ⟨-, -, h3⟩ := load_gives hr hn
  rw [hrd] at h3
  exact h3

/-- C103: a program that dies in a save never leaves a mixture: if the file can be loaded afterwards, it is the complete new image, or
the complete file that was there before. -/
theorem C103_crash (hcwd : ∀ x ∈ cwd, GoodComp x) (pre post : List DiskOp) {i k : Nat} {name : Name} {fixto : Option (ℝ × ℝ)}
    (moment : Nat) (hk : (diskRun cwd c fs pre).mem.images[i]? = some k) (hpost : ∀ o ∈ post, o.target cwd ≠ some (abspath cwd name))
    {arg : LoadArg} {name' : Name} (harg : arg.names = [name']) (hname : abspath cwd name' = abspath cwd name) (hraw : name' ≠ rawExt)
    {dic : Option AngleDic} {average : Bool} {dates : FoundDates} {junk : Nat → Nat → ℝ} (hd : ReadableDate c (dates name')) {n : Nat}
    (hn : GivesImage cwd c fs (pre ++ [.crash i name fixto moment] ++ post) (.load arg dic none none average dates junk) n) :
    let after := (diskRun cwd c fs (pre ++ [.crash i name fixto moment] ++ post ++ [.load arg dic none none average dates junk])).mem.data n
    after = limited fixto ((diskRun cwd c fs pre).mem.data k) ∨
      (diskRun cwd c fs pre).files.file (abspath cwd name) = some (.fits after) := by
  have hf := diskRun_frame (c := c) (fs := fs) hcwd (pre ++ [.crash i name fixto moment]) post hpost
  obtain ⟨file, hfile⟩ : ∃ f, f = (diskRun cwd c fs (pre ++ [.crash i name fixto moment])).files.file (abspath cwd name) := ⟨_, rfl⟩
  rw [← hfile, ← hname] at hf
  have hcase : file = (diskRun cwd c fs pre).files.file (abspath cwd name) ∨ file = none ∨ file = some .incomplete ∨
      file = some (.fits (limited fixto ((diskRun cwd c fs pre).mem.data k))) := by
    rw [hfile, diskRun_snoc]
    unfold diskStep saving
    dsimp only
    rw [hk]
    dsimp only
    rw [show (diskRun cwd c fs pre).mem.heap.dataOf k = (diskRun cwd c fs pre).mem.data k from rfl]
    cases hm : (saveAsFits cwd (diskRun cwd c fs pre).files ((diskRun cwd c fs pre).mem.data k) fixto name).states[moment]? with
    | none => exact Or.inl rfl
    | some s =>
      have hmem := List.mem_of_getElem? hm
      rcases save_cases (fs := (diskRun cwd c fs pre).files) hcwd ((diskRun cwd c fs pre).mem.data k) fixto name with ⟨-, h⟩ | ⟨fs', hf', h⟩
      · exact Or.inl (congrFun (h s hmem) _)
      · rw [h] at hmem
        simp only [List.mem_cons, List.not_mem_nil, or_false] at hmem
        rcases hmem with rfl | rfl | rfl | rfl | rfl
        · exact Or.inl rfl
        · exact Or.inl (congrFun hf' _)
        · exact Or.inr (Or.inl (by simp [FileSystem.put]))
        · exact Or.inr (Or.inr (Or.inl (by simp [FileSystem.put])))
        · exact Or.inr (Or.inr (Or.inr (by simp [FileSystem.put])))
  unfold GivesImage at hn
  have hfits : ∃ d, file = some (.fits d) := by
    by_contra hne
    rw [diskRun_snoc] at hn
    obtain ⟨e, he⟩ : ∃ e, loadImage (fitsOpen cwd (diskRun cwd c fs (pre ++ [.crash i name fixto moment] ++ post)).files dates) c arg average =
        .error e := by
      have ho : fitsOpen cwd (diskRun cwd c fs (pre ++ [.crash i name fixto moment] ++ post)).files dates name' = none := by
        unfold fitsOpen
        rw [hf]
        cases hx : file with
        | none => rfl
        | some v =>
          cases v with
          | fits d => exact absurd ⟨d, hx⟩ hne
          | raw b => rfl
          | incomplete => rfl
      refine ⟨.fileNotFoundError, ?_⟩
      unfold loadImage
      rw [harg]
      dsimp only
      rw [if_neg (by simp)]
      have : forList [name'] ({ combined := none, header := none, dates := [] } : OpenState)
          (openBody (fitsOpen cwd (diskRun cwd c fs (pre ++ [.crash i name fixto moment] ++ post)).files dates) c [name']
            (1 + average.toNat * ([name'].length - 1))) = .error .fileNotFoundError := by
        unfold forList
        rw [List.foldlM_cons]
        unfold openBody
        rw [if_neg (by simpa using Ne.symm hraw), ho]
        rfl
      rw [this]
      rfl
    unfold diskStep loadObj at hn
    dsimp only at hn
    rw [he] at hn
    have := congrArg List.length hn
    simp at this
  obtain ⟨d, hdd⟩ := hfits
  rw [hdd] at hf
  obtain ⟨r, hr, hrd⟩ := load_one harg hraw hd hf average
  rw [diskRun_snoc] at hn
  have hval := (load_gives hr hn).1
  dsimp only
  rw [diskRun_snoc, hval, hrd]
  rcases hcase with h | h | h | h
  · exact Or.inr (by rw [← h, hdd])
  · rw [hdd] at h; cases h
  · rw [hdd] at h; cases h
  · left
    rw [hdd] at h
    injection h with h
    injection h

/-- Several files of one size, loaded as a list, are averaged. -/
theorem load_mean (fs : FileSystem) {m : Nat} (names : Fin (m + 1) → Name) (img : Fin (m + 1) → Img ℝ) {h w : Nat}
    (hraw : ∀ j, names j ≠ rawExt) (hinj : Function.Injective names)
    (hfile : ∀ j, fs.file (abspath cwd (names j)) = some (.fits (img j)) ∧ (img j).HasShape h w)
    {dates : FoundDates} (hd : ∀ j, ReadableDate c (dates (names j))) :
    ∃ r, loadImage (fitsOpen cwd fs dates) c (.list (List.ofFn names)) true = .ok r ∧ r.data.HasShape h w ∧
      r.data.IsMixOf (fun _ => 1 / ((m + 1 : Nat) : ℝ)) img := by
  choose t ht using hd
  obtain ⟨im, him⟩ : ∃ im : Name → Img ℝ, ∀ j, im (names j) = img j :=
    ⟨fun x => Function.extend names img (fun _ => Img.zeros 0 0) x, fun j => hinj.extend_apply _ _ _⟩
  obtain ⟨da, hda⟩ : ∃ da : Name → Option ℕ, ∀ j, da (names j) = t j :=
    ⟨fun x => Function.extend names t (fun _ => none) x, fun j => hinj.extend_apply _ _ _⟩
  have hlist : List.ofFn names = names 0 :: List.ofFn (fun j => names (Fin.succ j)) := List.ofFn_succ
  have hg : GoodFiles (fitsOpen cwd fs dates) c (List.ofFn names) h w im da := by
    refine ⟨?_, ?_⟩
    · rw [List.mem_ofFn]
      rintro ⟨j, hj⟩
      exact hraw j hj
    · intro x hx
      rw [List.mem_ofFn] at hx
      obtain ⟨j, rfl⟩ := hx
      rw [him, hda]
      refine ⟨(hfile j).2, ⟨some (img j), (dates (names j)).1, (dates (names j)).2⟩, ?_, rfl, ht j⟩
      unfold fitsOpen
      rw [(hfile j).1]
  have hg' := hg
  rw [hlist] at hg'
  obtain ⟨r, hr, hsh, hpx, -⟩ := C67_average hg'
  rw [← hlist] at hr hpx
  have hmix : r.data.IsMixOf (fun _ => 1 / ((m + 1 : Nat) : ℝ)) img := by
    refine ⟨fun j => ⟨(hfile j).2.1.trans hsh.1.symm, (hfile j).2.2.trans hsh.2.symm⟩, ?_⟩
    intro y x hy hx
    have := hpx y x (hsh.1 ▸ hy) (hsh.2 ▸ hx)
    rw [List.length_ofFn, List.map_ofFn, List.sum_ofFn] at this
    have hne : ((m + 1 : Nat) : ℝ) ≠ 0 := by positivity
    rw [← Finset.mul_sum]
    simp only [Function.comp, him] at this
    rw [← this]
    field_simp
  exact ⟨r, hr, hsh, hmix⟩

/-- C103: several files of one size: with `averageimages` (the default) the pixels, and I, Q, U, are the means of those of the single
files. -/
theorem C103_mean (ops : List DiskOp) {m : Nat} (names : Fin (m + 1) → Name) (img : Fin (m + 1) → Img ℝ) {h w : Nat}
    (hraw : ∀ j, names j ≠ rawExt) (hinj : Function.Injective names)
    (hfile : ∀ j, (diskRun cwd c fs ops).files.file (abspath cwd (names j)) = some (.fits (img j)) ∧ (img j).HasShape h w)
    (heven : h % 2 = 0 ∧ w % 2 = 0) {dates : FoundDates} {junk : Nat → Nat → ℝ} (hd : ∀ j, ReadableDate c (dates (names j)))
    {L : Layout} {dic : AngleDic} (hL : L.Describes dic) :
    ∃ (n : Nat) (T : Fin (m + 1) → Fin 3 → Img ℝ),
      GivesImage cwd c fs ops (.load (.list (List.ofFn names)) (some dic) none none true dates junk) n ∧
      (∀ j, dataStokes (img j) dic = .ok (T j)) ∧
      let p := diskRun cwd c fs (ops ++ [.load (.list (List.ofFn names)) (some dic) none none true dates junk])
      (p.mem.data n).IsMixOf (fun _ => 1 / ((m + 1 : Nat) : ℝ)) img ∧
      ∀ q, (p.mem.stokes n q).IsMixOf (fun _ => 1 / ((m + 1 : Nat) : ℝ)) (fun j => T j q) := by
  obtain ⟨r, hr, hsh, hmix⟩ := load_mean (diskRun cwd c fs ops).files names img hraw hinj hfile hd
  obtain ⟨S, T, hS, hT, hST⟩ := C93_stokes hmix (by rw [hsh.1]; exact heven.1) (by rw [hsh.2]; exact heven.2) hL
  obtain ⟨n, hn⟩ := load_returns (p := diskRun cwd c fs ops) (dic := some dic) (junk := junk) hr hS
  refine ⟨n, T, ?_, hT, ?_⟩
  · unfold GivesImage
    rw [diskRun_snoc]
    exact hn
  · dsimp only
    rw [diskRun_snoc]
    obtain ⟨h1, -, h3⟩ := load_gives hr hn
    rw [h1]
    refine ⟨hmix, ?_⟩
    have e : S = _ := Except.ok.inj (hS.symm.trans h3)
    rw [← e]
    exact hST

/-- C103: `save_single_pol_images` and loading its four files: the images of the files, put at the positions of their orientations, merge
to the image that was saved. -/
theorem C103_polarizations {data : Img ℝ} {dic : AngleDic} {q stem : Name} (hcwd : ∀ x ∈ cwd, GoodComp x)
    (hq : q = [] ∨ q.getLast? = some '/') (hs : '/' ∉ stem) (hne : stem ≠ []) (hdot : stem ≠ ['.'])
    (hfree : FreeWay cwd fs (q ++ (stem ++ fitsExt))) (hh : data.h % 2 = 0) (hw : data.w % 2 = 0) (pos : Fin 4 → Fin 4)
    (hpos : ∀ j, dic (![0, 45, 90, -45] j) = some ((pos j).val : Int)) (hproper : Function.Injective pos) (dates : FoundDates)
    (average : Bool)
    (name : Fin 4 → Name) (hname : ∀ j, name j = q ++ (stem ++ (['P', 'O', 'L'] ++ ![['0'], ['4', '5'], ['9', '0'], ['-', '4', '5']] j ++ fitsExt)))
    (hd : ∀ j, ReadableDate c (dates (name j))) :
    ∃ (final : FileSystem) (r : Fin 4 → LoadedImage) (s : Fin 4 → Img ℝ), (saveSinglePol cwd fs data dic none (q ++ (stem ++ fitsExt))).result = .ok () ∧
      (saveSinglePol cwd fs data dic none (q ++ (stem ++ fitsExt))).states.getLast? = some final ∧
      (∀ j, loadImage (fitsOpen cwd final dates) c (.list [name j]) average = .ok (r j)) ∧
      (∀ j, s (pos j) = (r j).data) ∧ mergePolarizations s = .ok data := by
  have hfam : ∀ i : Fin 4, polFamily data dic (![0, 45, 90, -45] i) = .ok (Img.ofFn (data.h / 2) (data.w / 2)
      (fun y x => data.px (2 * y + (pos i).val / 2) (2 * x + (pos i).val % 2))) := by
    intro i
    unfold polFamily AngleDic.get
    rw [split_ok hh hw, Py.ok_bind, hpos i]
    dsimp only
    rw [Py.ok_bind]
    unfold sub4
    have h4 := (pos i).isLt
    have : Img.resolve 4 ((pos i).val : Int) = some (pos i).val := by
      unfold Img.resolve
      rw [if_pos (by omega), if_pos (by omega), Int.toNat_natCast]
    rw [this]
    dsimp only
    rw [dif_pos h4]
  obtain ⟨h1, -, ⟨final, h2, h3⟩, -⟩ := C71_single_pol_partial (fixto := none) hcwd hq hs hne hdot hfree (hfam 0) (hfam 1) (hfam 2) (hfam 3)
  have hload : ∀ j, ∃ r, loadImage (fitsOpen cwd final dates) c (.list [name j]) average = .ok r ∧ r.data =
      Img.ofFn (data.h / 2) (data.w / 2) (fun y x => data.px (2 * y + (pos j).val / 2) (2 * x + (pos j).val % 2)) := by
    intro j
    have hl : 5 ≤ (name j).length := by
      rw [hname j]
      simp only [List.length_append, show fitsExt.length = 5 from rfl]
      omega
    refine load_one rfl (fun e => ?_) (hd j) ?_ average
    · rw [e] at hl
      exact absurd hl (by decide)
    · rw [hname j]
      refine h3 _ _ ?_
      fin_cases j <;> simp [limited]
  choose r hr hrd using hload
  have hbij : Function.Bijective pos := Finite.injective_iff_bijective.1 hproper
  refine ⟨final, r, fun k => Img.ofFn (data.h / 2) (data.w / 2) (fun y x => data.px (2 * y + k.val / 2) (2 * x + k.val % 2)), h1, h2, hr,
    fun j => (hrd j).symm, ?_⟩
  have := C01_merge_split data hh hw
  rw [split_ok hh hw, Py.ok_bind] at this
  exact this

/-! ## What does not hold -/

/-- C103, violation: replacing a file is not safe.  Whatever was at that place, there is a moment of the save in which a crash leaves
no file at all, neither the old nor the new one. -/
theorem C103_crash_loses (hcwd : ∀ x ∈ cwd, GoodComp x) (pre : List DiskOp) {i k : Nat} {name : Name} {fixto : Option (ℝ × ℝ)}
    (hs : CanSave cwd c fs pre i k name fixto) :
    ∃ moment, (diskRun cwd c fs (pre ++ [.crash i name fixto moment])).files.file (abspath cwd name) = none := by
  obtain ⟨hk, hr⟩ := hs
  refine ⟨2, ?_⟩
  rw [diskRun_snoc]
  unfold diskStep saving
  dsimp only
  rw [hk]
  dsimp only
  rcases save_cases (fs := (diskRun cwd c fs pre).files) hcwd ((diskRun cwd c fs pre).mem.data k) fixto name with ⟨⟨e, h⟩, -⟩ | ⟨fs', hf, h⟩
  · rw [h] at hr; cases hr
  · rw [show (diskRun cwd c fs pre).mem.heap.dataOf k = (diskRun cwd c fs pre).mem.data k from rfl, h]
    simp [FileSystem.put]

/-! ## Concrete histories -/

/-- An empty disk. -/
def emptyDisk : FileSystem := ⟨fun _ => none, fun p => p = ['/']⟩

/-- The name `a.fits`. -/
def aFits : Name := ['a', '.', 'f', 'i', 't', 's']

/-- A clock that reads nothing. -/
def noClock : Clock := ⟨fun _ => none, fun _ => none, fun _ => []⟩

theorem save_to_empty (data : Img ℝ) (fixto : Option (ℝ × ℝ)) : (saveAsFits [] emptyDisk data fixto aFits).result = .ok () :=
  (C71_save_as_fits (cwd := []) (fs := emptyDisk) (q := []) (stem := ['a']) (data := data) (fixto := fixto) (by simp) (Or.inl rfl) (by decide)
    (by decide) (fun _ _ => rfl)).1

/-- The events of a session without saves. -/
theorem diskRun_calls (ops : List Op) : diskRun cwd c fs (ops.map .call) = ⟨runOps ops, fs⟩ := by
  induction ops using List.reverseRecOn with
  | nil => rfl
  | append_singleton ops o ih => rw [List.map_append, List.map_singleton, diskRun_snoc, ih, runOps_snoc]; rfl

theorem canSave_calls {ops : List Op} {i k : Nat} (hk : (runOps ops).images[i]? = some k) :
    CanSave [] noClock emptyDisk (ops.map .call) i k aFits none := by
  refine ⟨?_, ?_⟩
  · rw [diskRun_calls]; exact hk
  · rw [diskRun_calls]; exact save_to_empty _ _

/-- Saving, ending the program, starting it again, and loading. -/
theorem reload (ops : List Op) (i k : Nat) (hk : (runOps ops).images[i]? = some k) : ∃ n,
    GivesImage [] noClock emptyDisk (ops.map .call ++ [.save i aFits none] ++ [.restart])
      (.load (.single aFits) (some polarCamAngles) none none true (fun _ => (none, none)) fun _ _ => 0) n ∧
    (diskRun [] noClock emptyDisk (ops.map .call ++ [.save i aFits none] ++ [.restart] ++
      [.load (.single aFits) (some polarCamAngles) none none true (fun _ => (none, none)) fun _ _ => 0])).mem.data n = (runOps ops).data k ∧
    dataStokes ((runOps ops).data k) polarCamAngles = .ok ((diskRun [] noClock emptyDisk (ops.map .call ++ [.save i aFits none] ++ [.restart] ++
      [.load (.single aFits) (some polarCamAngles) none none true (fun _ => (none, none)) fun _ _ => 0])).mem.stokes n) := by
  have hs := canSave_calls hk
  have hd : ReadableDate noClock (none, none) := ⟨none, rfl⟩
  have hpost : ∀ o ∈ [DiskOp.restart], o.target [] ≠ some (abspath [] aFits) := by
    intro o ho
    rw [List.mem_singleton.1 ho]
    exact fun e => by cases e
  obtain ⟨n, hn⟩ := C103_loads (by simp) _ [.restart] hs hpost (arg := .single aFits) (name' := aFits) rfl rfl (by decide)
    (dic := some polarCamAngles) true (dates := fun _ => (none, none)) (fun _ _ => 0) hd
    (fun d e => ⟨⟨0, 1, 2, 3⟩, by rw [← Option.some.inj e]; exact C02_polarCam.1⟩)
    (fun d e => by rw [diskRun_snoc] at e; cases e)
  refine ⟨n, hn, ?_, ?_⟩
  · rw [C103_pixels (by simp) _ [.restart] hs hpost rfl rfl (by decide) hd hn, diskRun_calls]
    rfl
  · have := C103_reloaded_stokes (by simp) _ [.restart] hs hpost rfl rfl (by decide) hd hn
    rw [diskRun_calls] at this
    exact this

/-- The example image survives the end of the program. -/
example : ∃ n, GivesImage [] noClock emptyDisk (oneImage.map .call ++ [.save 0 aFits none] ++ [.restart])
      (.load (.single aFits) (some polarCamAngles) none none true (fun _ => (none, none)) fun _ _ => 0) n ∧
    (diskRun [] noClock emptyDisk (oneImage.map .call ++ [.save 0 aFits none] ++ [.restart] ++
      [.load (.single aFits) (some polarCamAngles) none none true (fun _ => (none, none)) fun _ _ => 0])).mem.data n = darkBright := by
  obtain ⟨h1, h2, -⟩ := oneImage_facts
  obtain ⟨n, hn, hd, -⟩ := reload oneImage 0 0 h1
  exact ⟨n, hn, by rw [hd, h2]⟩

/-- C103, violation: the Stokes vector of a demodulated image does not survive saving and loading. -/
theorem C103_demodulation_lost : ∃ (ops : List Op) (i k n : Nat), (runOps ops).images[i]? = some k ∧
    CanSave [] noClock emptyDisk (ops.map .call) i k aFits none ∧
    GivesImage [] noClock emptyDisk (ops.map .call ++ [.save i aFits none] ++ [.restart])
      (.load (.single aFits) (some polarCamAngles) none none true (fun _ => (none, none)) fun _ _ => 0) n ∧
    ((runOps ops).stokes k 0).px 0 1 = 4 ∧
    ((diskRun [] noClock emptyDisk (ops.map .call ++ [.save i aFits none] ++ [.restart] ++
      [.load (.single aFits) (some polarCamAngles) none none true (fun _ => (none, none)) fun _ _ => 0])).mem.stokes n 0).px 0 1 = 2 := by
  obtain ⟨h1, h2, h3⟩ := oneImage_facts
  obtain ⟨S, hS, hsh, -, hp, -⟩ := darkBright_run
  obtain ⟨t1, -⟩ := C77_theoretical_return oneImage h3 0 0 h1
  have hD : Demodulator.Fits ⟨fun _ _ => Img.const 1 2 (1 : ℝ), some (Img.const 1 2 1)⟩ ((runOps oneImage).data 0) := by
    rw [h2]
    refine ⟨fun _ _ => ⟨rfl, rfl⟩, fun f hf => ?_⟩
    rw [← Option.some.inj hf]
    exact ⟨rfl, rfl⟩
  obtain ⟨m, hm⟩ := t1 ⟨fun _ _ => Img.const 1 2 1, some (Img.const 1 2 1)⟩ hD
  have hst : ∀ q, ((runOps oneImage).stokes 0 q).HasShape (((runOps oneImage).data 0).h / 2) (((runOps oneImage).data 0).w / 2) := by
    have := C42_theoretical oneImage h3 0 (List.mem_of_getElem? h1)
    exact fun q => dataStokes_half this q
  obtain ⟨e1, e2⟩ := C77_demodulate oneImage 0 0 m _ _ rfl h1 hm hD hst
  have hidx : (runOps (oneImage ++ [.demodulate 0 ⟨fun _ _ => Img.const 1 2 1, some (Img.const 1 2 1)⟩ false])).images[1]? = some m := by
    have hlen : (runOps oneImage).images = [0] := by
      obtain ⟨S, -, -, -, -, hrun⟩ := darkBright_run
      unfold oneImage
      rw [hrun]
    unfold Returns at hm
    rw [hm, hlen]
    rfl
  obtain ⟨n, hn, -, hnS⟩ := reload _ 1 m hidx
  refine ⟨_, 1, m, n, hidx, canSave_calls hidx, hn, ?_, ?_⟩
  · rw [(e2 0).2 0 1 (by rw [h2]; decide) (by rw [h2]; decide), h2]
    have hc : ∀ y x, y < 1 → x < 2 → (Img.const 1 2 (1 : ℝ)).px y x = 1 := fun y x hy hx => Img.ofFn_px hy hx
    rw [if_pos (hc 0 1 (by decide) (by decide))]
    dsimp only
    rw [hc 0 1 (by decide) (by decide)]
    norm_num [darkBright, Img.ofFn_px']
  · rw [e1, h2, hS] at hnS
    rw [← Except.ok.inj hnS]
    exact hp

/-- One bright pixel in a superpixel. -/
def brightCorner : Img ℝ := Img.ofFn 2 2 (fun y x => if y = 0 ∧ x = 0 then 1 else 0)

/-- The orientations of PolarCam the other way round. -/
def reversedAngles : AngleDic := fun a => (polarCamAngles a).map (fun p => 3 - p)

/-- C103, violation: the orientations of the polarizers are not in the file.  An image that was made with another dictionary than the
default one has the opposite Q after saving and loading. -/
theorem C103_dictionary_lost : ∃ (ops : List Op) (n : Nat), (runOps ops).images[0]? = some 0 ∧ (∀ o ∈ ops, o.theoretical = true) ∧
    CanSave [] noClock emptyDisk (ops.map .call) 0 0 aFits none ∧
    GivesImage [] noClock emptyDisk (ops.map .call ++ [.save 0 aFits none] ++ [.restart])
      (.load (.single aFits) none none none true (fun _ => (none, none)) fun _ _ => 0) n ∧
    ((runOps ops).stokes 0 1).px 0 0 = -1 ∧
    ((diskRun [] noClock emptyDisk (ops.map .call ++ [.save 0 aFits none] ++ [.restart] ++
      [.load (.single aFits) none none none true (fun _ => (none, none)) fun _ _ => 0])).mem.stokes n 1).px 0 0 = 1 := by
  have hrev : Layout.Describes ⟨3, 2, 1, 0⟩ reversedAngles := by
    refine ⟨?_, ?_, ?_, ?_⟩ <;> rfl
  obtain ⟨S, h1, -, hp⟩ := C17_stokes brightCorner rfl rfl ⟨3, 2, 1, 0⟩ reversedAngles hrev
  obtain ⟨T, g1, -, gp⟩ := C17_stokes brightCorner rfl rfl ⟨0, 1, 2, 3⟩ polarCamAngles C02_polarCam.1
  have hrun : runOps [.fromArray brightCorner (some reversedAngles) none none fun _ _ => 0] =
      ⟨arrayHeap brightCorner S (some reversedAngles) initState.heap, [0]⟩ :=
    (runOps_snoc [] _).trans (step_fromArray (s := initState) brightCorner (some reversedAngles) (fun _ _ => 0) h1)
  have hk : (runOps [.fromArray brightCorner (some reversedAngles) none none fun _ _ => 0]).images[0]? = some 0 := by rw [hrun]; rfl
  have hdat : (runOps [.fromArray brightCorner (some reversedAngles) none none fun _ _ => 0]).data 0 = brightCorner := by
    rw [hrun]
    exact congrArg ImgView.data (arrayHeap_view brightCorner S (some reversedAngles) initState.heap)
  have hsto : (runOps [.fromArray brightCorner (some reversedAngles) none none fun _ _ => 0]).stokes 0 = S := by
    rw [hrun]
    exact congrArg (fun v => v.stokes.planes) (arrayHeap_view brightCorner S (some reversedAngles) initState.heap)
  have hs := canSave_calls hk
  have hd : ReadableDate noClock (none, none) := ⟨none, rfl⟩
  have hpost : ∀ o ∈ [DiskOp.restart], o.target [] ≠ some (abspath [] aFits) := by
    intro o ho
    rw [List.mem_singleton.1 ho]
    exact fun e => by cases e
  have hf := diskRun_frame (c := noClock) (fs := emptyDisk) (cwd := []) (by simp)
    ([Op.fromArray brightCorner (some reversedAngles) none none fun _ _ => 0].map .call ++ [.save 0 aFits none]) [.restart] hpost
  rw [saved_file (by simp) hs] at hf
  obtain ⟨r, hr, hrd⟩ := load_one (arg := .single aFits) rfl (by decide) (dates := fun _ => (none, none)) hd hf true
  rw [diskRun_calls] at hrd
  have hrd' : r.data = brightCorner := hrd.trans hdat
  have hdv : dicVal none (diskRun [] noClock emptyDisk ([Op.fromArray brightCorner (some reversedAngles) none none fun _ _ => 0].map .call ++
      [.save 0 aFits none] ++ [.restart])).mem.heap = polarCamAngles := by
    rw [diskRun_snoc]
    rfl
  have hT : dataStokes r.data (dicVal none (diskRun [] noClock emptyDisk ([Op.fromArray brightCorner (some reversedAngles) none none fun _ _ => 0].map .call ++
      [.save 0 aFits none] ++ [.restart])).mem.heap) = .ok T := by
    rw [hdv, hrd', g1]
  obtain ⟨n, hn⟩ := load_returns (dic := none) (junk := fun _ _ => 0) hr hT
  refine ⟨_, n, hk, ?_, hs, ?_, ?_, ?_⟩
  · intro o ho
    rw [List.mem_singleton.1 ho]
    rfl
  · unfold GivesImage
    rw [diskRun_snoc]
    exact hn
  · rw [hsto, (hp 0 0 (by decide) (by decide)).2.1]
    norm_num [brightCorner, Img.ofFn_px']
  · have h3 := (load_gives hr hn).2.2
    rw [hT] at h3
    rw [diskRun_snoc, ← Except.ok.inj h3, (gp 0 0 (by decide) (by decide)).2.1]
    norm_num [brightCorner, Img.ofFn_px']

end

end Micropol
