import Verif.Lemmas.ConvertPath
import Verif.Props.Convert

/-!
# C52, C53, C54: merging, saving and converting raw files

`cwd` are the components of the current directory, `fs` the files before the call.  A name is resolved by `abspath cwd`.
-/

set_option autoImplicit false

namespace Micropol

noncomputable section

/-! ## Helper facts -/

theorem fits_checks (cwd : List Name) {n : Name} (h : fitsExt <:+ n) :
    (splitChar '.' (absoluteName cwd n)).getLast? = some ['f', 'i', 't', 's'] ∧
    (splitChar '.' (abspath cwd n)).getLast? = some ['f', 'i', 't', 's'] := by
  obtain ⟨q, x, rfl, hq, hx⟩ := last_slash n
  have hs : fitsExt <:+ x := by
    rcases hq with rfl | hq
    · simpa using h
    · exact (suffix_of_slash hq (by decide)).1 h
  have hl : 5 ≤ x.length := hs.length_le
  have k : ∀ y : Name, y.length < 5 → x ≠ y := fun y hy e => by rw [e] at hl; omega
  exact ⟨(absoluteName_fits cwd hq hx (k _ (by decide)) (k _ (by decide))).2 hs,
    (abspath_fits cwd hq hx (k _ (by decide)) (k _ (by decide)) (k _ (by decide))).2 hs⟩

theorem put_self (fs : FileSystem) (p : Name) (c : Option Content) : (fs.put p c).file p = c := by
  simp [FileSystem.put]

theorem put_other (fs : FileSystem) {p q : Name} (c : Option Content) (h : q ≠ p) : (fs.put p c).file q = fs.file q := by
  simp [FileSystem.put, h]

theorem writeFits_ok {fs : FileSystem} {d p : Name} (img : Img ℝ) (h : fs.dir d) :
    writeFits fs d p img = .ok [fs.put p none, fs.put p (some .incomplete), fs.put p (some (.fits img))] := by
  unfold writeFits
  rw [if_pos h]

theorem wrote_of {fs : FileSystem} {p : Name} {img : Img ℝ} :
    (⟨.ok (), fs :: [fs.put p none, fs.put p (some .incomplete), fs.put p (some (.fits img))]⟩ : Trace).Wrote fs p img :=
  ⟨rfl, _, rfl, put_self .., fun _ hq => put_other _ _ hq⟩

/-! ## C52: merging raw files -/

/-- With any mode but "average" the file that is written holds at each pixel the sum of the numbers of the raw files. -/
theorem C52_sum {cwd : List Name} {fs : FileSystem} {files : FilesArg} {newName : Name} {h w : Nat} {mode : String}
    {bytes : Name → List Nat} (hname : fitsExt <:+ newName) (hdir : fs.dir (dirName cwd newName))
    (hl : ∀ n ∈ files.names, fs.file (abspath cwd n) = some (.raw (bytes n)) ∧ 2 * (h * w) ≤ (bytes n).length)
    (hmode : mode ≠ "average") :
    ∃ img : Img ℝ, (mergeRawfiles cwd fs files newName h w mode).Wrote fs (abspath cwd newName) img ∧ img.h = h ∧ img.w = w ∧
      ∀ y x, y < h → x < w → img.px y x = (files.names.map (fun n => (u2At w (bytes n) y x : ℝ))).sum := by
  refine ⟨Img.ofFn h w (fun y x => (files.names.map (fun n => (u2At w (bytes n) y x : ℝ))).sum), ?_, rfl, rfl,
    fun y x hy hx => Img.ofFn_px hy hx⟩
  unfold mergeRawfiles
  rw [if_neg (not_not.2 (fits_checks cwd hname).1), zeros_ofFn, rawMerge_ok hl]
  dsimp only
  rw [if_neg (fun h => hmode h.1), if_neg hmode, writeFits_ok _ hdir]
  simp only [zero_add]
  exact wrote_of

/-- With mode "average" and at least one file: the mean. -/
theorem C52_average {cwd : List Name} {fs : FileSystem} {files : FilesArg} {newName : Name} {h w : Nat}
    {bytes : Name → List Nat} (hname : fitsExt <:+ newName) (hdir : fs.dir (dirName cwd newName))
    (hl : ∀ n ∈ files.names, fs.file (abspath cwd n) = some (.raw (bytes n)) ∧ 2 * (h * w) ≤ (bytes n).length)
    (hne : files.names ≠ []) :
    ∃ img : Img ℝ, (averageRawfiles cwd fs files newName h w).Wrote fs (abspath cwd newName) img ∧ img.h = h ∧ img.w = w ∧
      ∀ y x, y < h → x < w →
        img.px y x = (files.names.map (fun n => (u2At w (bytes n) y x : ℝ))).sum / (files.names.length : ℝ) := by
  refine ⟨Img.ofFn h w (fun y x => (files.names.map (fun n => (u2At w (bytes n) y x : ℝ))).sum / (files.names.length : ℝ)), ?_,
    rfl, rfl, fun y x hy hx => Img.ofFn_px hy hx⟩
  unfold averageRawfiles mergeRawfiles
  rw [if_neg (not_not.2 (fits_checks cwd hname).1), zeros_ofFn, rawMerge_ok hl]
  dsimp only
  rw [if_neg (fun h => hne (List.length_eq_zero_iff.1 h.2)), if_pos rfl, writeFits_ok _ hdir]
  have : (Img.ofFn h w fun y x => (0 : ℝ) + (files.names.map (fun n => (u2At w (bytes n) y x : ℝ))).sum).map
      (fun v => v / (files.names.length : ℝ)) =
      Img.ofFn h w (fun y x => (files.names.map (fun n => (u2At w (bytes n) y x : ℝ))).sum / (files.names.length : ℝ)) := by
    refine Img.ofFn_congr fun y x hy hx => ?_
    show (Img.ofFn h w _).px y x / _ = _
    rw [Img.ofFn_px (h := h) (w := w) hy hx, zero_add]
  rw [this]
  exact wrote_of

/-- The order of the files does not matter: the same states of the file system, success in the same cases. -/
theorem C52_order {cwd : List Name} {fs : FileSystem} {l l' : List Name} (hp : l.Perm l') (newName : Name) (h w : Nat) (mode : String) :
    (mergeRawfiles cwd fs (.list l) newName h w mode).states = (mergeRawfiles cwd fs (.list l') newName h w mode).states ∧
    ((mergeRawfiles cwd fs (.list l) newName h w mode).result = .ok () ↔
      (mergeRawfiles cwd fs (.list l') newName h w mode).result = .ok ()) := by
  by_cases hg : ∀ n ∈ l, ∃ b, fs.file (abspath cwd n) = some (.raw b) ∧ 2 * (h * w) ≤ b.length
  · have hb : ∃ bytes : Name → List Nat, ∀ n ∈ l, fs.file (abspath cwd n) = some (.raw (bytes n)) ∧ 2 * (h * w) ≤ (bytes n).length := by
      classical
      refine ⟨fun n => if hn : n ∈ l then (hg n hn).choose else [], fun n hn => ?_⟩
      simp only [hn, dif_pos]
      exact (hg n hn).choose_spec
    obtain ⟨bytes, hb⟩ := hb
    have hb' : ∀ n ∈ l', fs.file (abspath cwd n) = some (.raw (bytes n)) ∧ 2 * (h * w) ≤ (bytes n).length :=
      fun n hn => hb n (hp.mem_iff.2 hn)
    have e : forList l (Img.zeros h w) (mergeBody cwd fs h w) = forList l' (Img.zeros h w) (mergeBody cwd fs h w) := by
      rw [zeros_ofFn, rawMerge_ok hb, rawMerge_ok hb']
      refine congrArg Except.ok (Img.ofFn_congr fun y x _ _ => ?_)
      rw [(hp.map _).sum_eq]
    have : mergeRawfiles cwd fs (.list l) newName h w mode = mergeRawfiles cwd fs (.list l') newName h w mode := by
      have e' : forList (FilesArg.list l).names (Img.zeros h w) (mergeBody cwd fs h w) =
        forList (FilesArg.list l').names (Img.zeros h w) (mergeBody cwd fs h w) := e
      have hlen : (FilesArg.list l).names.length = (FilesArg.list l').names.length := hp.length_eq
      unfold mergeRawfiles
      rw [e', hlen]
    rw [this]
    exact ⟨rfl, Iff.rfl⟩
  · have hg' : ¬ ∀ n ∈ l', ∃ b, fs.file (abspath cwd n) = some (.raw b) ∧ 2 * (h * w) ≤ b.length :=
      fun h1 => hg fun n hn => h1 n (hp.mem_iff.1 hn)
    have key : ∀ m : List Name, (¬ ∀ n ∈ m, ∃ b, fs.file (abspath cwd n) = some (.raw b) ∧ 2 * (h * w) ≤ b.length) →
        ∃ e, mergeRawfiles cwd fs (.list m) newName h w mode = ⟨.error e, [fs]⟩ := by
      intro m hm
      unfold mergeRawfiles
      simp only [FilesArg.names]
      split
      · exact ⟨_, rfl⟩
      · split
        · exact ⟨_, rfl⟩
        · rename_i a ha
          exact absurd (rawMerge_inv ha) hm
    obtain ⟨e, he⟩ := key l hg
    obtain ⟨e', he'⟩ := key l' hg'
    rw [he, he']
    exact ⟨rfl, by simp⟩

/-- A single name is treated as a list of one name. -/
theorem C52_single (cwd : List Name) (fs : FileSystem) (n newName : Name) (h w : Nat) (mode : String) :
    mergeRawfiles cwd fs (.single n) newName h w mode = mergeRawfiles cwd fs (.list [n]) newName h w mode := rfl

/-- If one of the files is too short (and all exist), `TypeError`, and nothing is written. -/
theorem C52_short {cwd : List Name} {fs : FileSystem} {files : FilesArg} {newName : Name} {h w : Nat} {mode : String}
    {bytes : Name → List Nat} (hname : fitsExt <:+ newName)
    (hl : ∀ n ∈ files.names, fs.file (abspath cwd n) = some (.raw (bytes n)))
    (hs : ∃ n ∈ files.names, (bytes n).length < 2 * (h * w)) :
    (mergeRawfiles cwd fs files newName h w mode).FailedClean fs .typeError := by
  unfold mergeRawfiles
  rw [if_neg (not_not.2 (fits_checks cwd hname).1), rawMerge_short hl hs]
  exact ⟨rfl, rfl⟩

/-- A new name whose last component does not end in `.fits`: `ValueError`, and nothing is written, whatever the files are.
(The names `d/` and `d/.` stand for the directory `d` itself and are not covered.) -/
theorem C52_bad_name (cwd : List Name) (fs : FileSystem) (files : FilesArg) {q x : Name} (h w : Nat) (mode : String)
    (hq : q = [] ∨ q.getLast? = some '/') (hx : '/' ∉ x) (h1 : x ≠ []) (h2 : x ≠ ['.']) (hbad : ¬ fitsExt <:+ x) :
    (mergeRawfiles cwd fs files (q ++ x) h w mode).FailedClean fs .valueError := by
  unfold mergeRawfiles
  rw [if_pos (fun e => hbad ((absoluteName_fits cwd hq hx h1 h2).1 e))]
  exact ⟨rfl, rfl⟩

/-- Whatever happens, in every state (also if the machine stops) every file but the new one is as before; and when an
error is reported nothing at all has changed. -/
theorem C52_others_kept (cwd : List Name) (fs : FileSystem) (files : FilesArg) (newName : Name) (h w : Nat) (mode : String) :
    (∀ s ∈ (mergeRawfiles cwd fs files newName h w mode).states, ∀ q, q ≠ abspath cwd newName → s.file q = fs.file q) ∧
    (∀ e, (mergeRawfiles cwd fs files newName h w mode).result = .error e →
      (mergeRawfiles cwd fs files newName h w mode).states = [fs]) := by
  have one : ∀ s ∈ [fs], ∀ q, q ≠ abspath cwd newName → s.file q = fs.file q := by
    intro s hs q _
    rw [List.mem_singleton] at hs
    rw [hs]
  unfold mergeRawfiles
  split
  · exact ⟨one, fun _ _ => rfl⟩
  · split
    · exact ⟨one, fun _ _ => rfl⟩
    · split
      · exact ⟨one, fun _ _ => rfl⟩
      · by_cases hd : fs.dir (dirName cwd newName)
        · simp only
          rw [writeFits_ok _ hd]
          refine ⟨?_, fun e he => by cases he⟩
          intro s hs q hq
          simp only [List.mem_cons, List.not_mem_nil, or_false] at hs
          rcases hs with rfl | rfl | rfl | rfl
          · rfl
          · exact put_other _ _ hq
          · exact put_other _ _ hq
          · exact put_other _ _ hq
        · simp only [writeFits, if_neg hd]
          exact ⟨one, fun _ _ => by trivial⟩

/-- A file system with two raw files of 2 × 1 pixels. -/
def twoRaw : FileSystem :=
  { file := fun q => if q = "/d/a.raw".toList then some (.raw [1, 0, 0, 1]) else
      if q = "/d/b.raw".toList then some (.raw [5, 1, 7, 0]) else none
    dir := fun q => q = "/d".toList }

theorem twoRaw_ok : ∀ n ∈ (FilesArg.list ["a.raw".toList, "/d/b.raw".toList]).names,
    twoRaw.file (abspath ["d".toList] n) = some (.raw (if n = "a.raw".toList then [1, 0, 0, 1] else [5, 1, 7, 0])) ∧
    2 * (2 * 1) ≤ (if n = "a.raw".toList then [1, 0, 0, 1] else [5, 1, 7, 0] : List Nat).length := by
  intro n hn
  simp only [FilesArg.names, List.mem_cons, List.not_mem_nil, or_false] at hn
  rcases hn with rfl | rfl
  · refine ⟨?_, by decide⟩
    have e : abspath ["d".toList] "a.raw".toList = "/d/a.raw".toList := by decide
    rw [e]
    rfl
  · refine ⟨?_, by decide⟩
    have e : abspath ["d".toList] "/d/b.raw".toList = "/d/b.raw".toList := by decide
    rw [e]
    have h1 : ¬ "/d/b.raw".toList = "a.raw".toList := by decide
    have h2 : ¬ "/d/b.raw".toList = "/d/a.raw".toList := by decide
    unfold twoRaw
    simp only [h1, h2, if_false, if_true]

/-- The hypotheses are met: the sum of two files, in the directory `/d`, is written to `/d/s.fits`, pixel (1, 0) is
256 + 7. -/
example : ∃ img : Img ℝ, (mergeRawfiles ["d".toList] twoRaw (.list ["a.raw".toList, "/d/b.raw".toList]) "s.fits".toList 2 1 "sum").Wrote
    twoRaw "/d/s.fits".toList img ∧ img.px 1 0 = 263 := by
  have e : abspath ["d".toList] "s.fits".toList = "/d/s.fits".toList := by decide
  obtain ⟨img, h1, _, _, h2⟩ := C52_sum (cwd := ["d".toList]) (fs := twoRaw) (newName := "s.fits".toList) (mode := "sum")
    (by decide) (by show _ = _; decide) twoRaw_ok (by decide)
  refine ⟨img, e ▸ h1, ?_⟩
  rw [h2 1 0 (by norm_num) (by norm_num)]
  simp only [FilesArg.names, List.map_cons, List.map_nil, List.sum_cons, List.sum_nil, if_true]
  rw [if_neg (by decide)]
  norm_num [u2At]

example : ∃ img : Img ℝ, (averageRawfiles ["d".toList] twoRaw (.list ["a.raw".toList, "/d/b.raw".toList]) "s.fits".toList 2 1).Wrote
    twoRaw (abspath ["d".toList] "s.fits".toList) img :=
  let ⟨img, h1, _⟩ := C52_average (cwd := ["d".toList]) (fs := twoRaw) (newName := "s.fits".toList)
    (by decide) (by show _ = _; decide) twoRaw_ok (by decide)
  ⟨img, h1⟩

example : (mergeRawfiles ["d".toList] twoRaw (.list ["a.raw".toList, "/d/b.raw".toList]) "s.fits".toList 3 1 "sum").FailedClean
    twoRaw .typeError :=
  C52_short (by decide) (fun n hn => (twoRaw_ok n hn).1) ⟨"a.raw".toList, by decide, by decide⟩

example : (mergeRawfiles ["d.fits".toList] twoRaw (.single "a.raw".toList) ("x.fits/".toList ++ "s.raw".toList) 3 1 "sum").FailedClean
    twoRaw .valueError :=
  C52_bad_name _ _ _ _ _ _ (.inr (by decide)) (by decide) (by decide) (by decide) (by decide)

/-! ### Sets of PolarCam files -/

theorem set_ok {cwd : List Name} {fs : FileSystem} {k : Nat} {bytes : Name → List Nat} {imgs : Name → Img ℝ} {l : List Name}
    (hl : ∀ n ∈ l, fs.file (abspath cwd n) = some (.raw (bytes n)) ∧ nparrFromBinary (bytes n) = .ok (imgs n) ∧
      (imgs n).h = 1952 ∧ (imgs n).w = 1952) (f : Nat → Nat → ℝ) :
    forList l (Img.ofFn 1952 1952 f) (convertSetBody cwd fs k) =
      .ok (Img.ofFn 1952 1952 (fun y x => f y x + (l.map (fun n => (imgs n).px y x / (k : ℝ))).sum)) := by
  induction l generalizing f with
  | nil => simp [forList]
  | cons n l ih =>
    obtain ⟨h1, h2, h3, h4⟩ := hl n (by simp)
    unfold forList at ih ⊢
    rw [List.foldlM_cons]
    have : convertSetBody cwd fs k n (Img.ofFn 1952 1952 f) = .ok (Img.ofFn 1952 1952 (fun y x => f y x + (imgs n).px y x / (k : ℝ))) := by
      unfold convertSetBody FileSystem.readRaw
      rw [h1]
      dsimp only
      rw [Py.ok_bind, h2, Py.ok_bind, if_pos ⟨h3.symm, h4.symm⟩]
      refine congrArg Except.ok (Img.ofFn_congr fun y x hy hx => ?_)
      rw [Img.ofFn_px (h := 1952) (w := 1952) hy hx]
    rw [this, Py.ok_bind, ih fun m hm => hl m (by simp [hm])]
    refine congrArg Except.ok (Img.ofFn_congr fun y x hy hx => ?_)
    simp [add_assoc]

/-- `convert_set` writes the mean of the images of the PolarCam files. -/
theorem C52_set_mean {cwd : List Name} {fs : FileSystem} {files : FilesArg} {newName : Name}
    {bytes : Name → List Nat} {imgs : Name → Img ℝ} (hname : fitsExt <:+ newName) (hdir : fs.dir (dirName cwd newName))
    (hl : ∀ n ∈ files.names, fs.file (abspath cwd n) = some (.raw (bytes n)) ∧ nparrFromBinary (bytes n) = .ok (imgs n) ∧
      (imgs n).h = 1952 ∧ (imgs n).w = 1952) :
    ∃ img : Img ℝ, (convertSet cwd fs files newName 1952 1952).Wrote fs (abspath cwd newName) img ∧ img.h = 1952 ∧ img.w = 1952 ∧
      ∀ y x, y < 1952 → x < 1952 → img.px y x = (files.names.map (fun n => (imgs n).px y x)).sum / (files.names.length : ℝ) := by
  refine ⟨Img.ofFn 1952 1952 (fun y x => (files.names.map (fun n => (imgs n).px y x)).sum / (files.names.length : ℝ)), ?_, rfl, rfl,
    fun y x hy hx => Img.ofFn_px hy hx⟩
  unfold convertSet
  rw [if_neg (not_not.2 (fits_checks cwd hname).2), zeros_ofFn, set_ok hl]
  dsimp only
  rw [writeFits_ok _ hdir]
  have : (Img.ofFn 1952 1952 fun y x => (0 : ℝ) + (files.names.map (fun n => (imgs n).px y x / (files.names.length : ℝ))).sum) =
      Img.ofFn 1952 1952 (fun y x => (files.names.map (fun n => (imgs n).px y x)).sum / (files.names.length : ℝ)) := by
    refine Img.ofFn_congr fun y x hy hx => ?_
    rw [zero_add, div_eq_mul_inv, ← List.sum_map_mul_right]
    simp only [div_eq_mul_inv]
  rw [this]
  exact wrote_of

/-- The hypotheses are met: one PolarCam file. -/
example : ∃ (fs : FileSystem) (img : Img ℝ),
    (convertSet ["d".toList] fs (.single "a.bin".toList) "s.fits".toList 1952 1952).Wrote fs (abspath ["d".toList] "s.fits".toList) img := by
  obtain ⟨im, h1, h2, h3, _⟩ := C51_read_partial (v := fun y x => (y + x) % 4000 + 16) (fun y x _ _ => by omega) (fun i _ => by omega)
  refine ⟨{ file := fun q => some (.raw (polarcamFile (fun y x => (y + x) % 4000 + 16))), dir := fun _ => True }, ?_⟩
  obtain ⟨img, h, _⟩ := C52_set_mean (cwd := ["d".toList]) (files := .single "a.bin".toList) (newName := "s.fits".toList)
    (fs := { file := fun q => some (.raw (polarcamFile (fun y x => (y + x) % 4000 + 16))), dir := fun _ => True })
    (bytes := fun _ => polarcamFile (fun y x => (y + x) % 4000 + 16)) (imgs := fun _ => im) (by decide) trivial
    (fun n _ => ⟨rfl, h1, h2, h3⟩)
  exact ⟨img, h⟩

/-- `convert_set`: in every state every file but the new one is as before; an error leaves everything as it was; and a
new name that does not end in `.fits` is such an error. -/
theorem C52_set_others_kept (cwd : List Name) (fs : FileSystem) (files : FilesArg) (newName : Name) (h w : Nat) :
    (∀ s ∈ (convertSet cwd fs files newName h w).states, ∀ q, q ≠ abspath cwd newName → s.file q = fs.file q) ∧
    (∀ e, (convertSet cwd fs files newName h w).result = .error e → (convertSet cwd fs files newName h w).states = [fs]) ∧
    (∀ q x, newName = q ++ x → (q = [] ∨ q.getLast? = some '/') → '/' ∉ x → x ≠ [] → x ≠ ['.'] → x ≠ ['.', '.'] → ¬ fitsExt <:+ x →
      (convertSet cwd fs files newName h w).FailedClean fs .valueError) := by
  have one : ∀ s ∈ [fs], ∀ q, q ≠ abspath cwd newName → s.file q = fs.file q := by
    intro s hs q _
    rw [List.mem_singleton] at hs
    rw [hs]
  have third : ∀ q x, newName = q ++ x → (q = [] ∨ q.getLast? = some '/') → '/' ∉ x → x ≠ [] → x ≠ ['.'] → x ≠ ['.', '.'] →
      ¬ fitsExt <:+ x → (convertSet cwd fs files newName h w).FailedClean fs .valueError := by
    rintro q x rfl hq hx h1 h2 h3 hbad
    unfold convertSet
    rw [if_pos (fun e => hbad ((abspath_fits cwd hq hx h1 h2 h3).1 e))]
    exact ⟨rfl, rfl⟩
  rw [← and_assoc]
  refine ⟨?_, third⟩
  clear third
  unfold convertSet
  split
  · exact ⟨one, fun _ _ => rfl⟩
  · split
    · exact ⟨one, fun _ _ => rfl⟩
    · by_cases hd : fs.dir (dirName cwd newName)
      · rw [writeFits_ok _ hd]
        refine ⟨?_, fun e he => by cases he⟩
        intro s hs q hq
        simp only [List.mem_cons, List.not_mem_nil, or_false] at hs
        rcases hs with rfl | rfl | rfl | rfl
        · rfl
        · exact put_other _ _ hq
        · exact put_other _ _ hq
        · exact put_other _ _ hq
      · simp only [writeFits, if_neg hd]
        exact ⟨one, fun _ _ => by trivial⟩

/-- An image size other than 1952 × 1952 is an error as soon as there is a file. -/
theorem C52_set_size (cwd : List Name) (fs : FileSystem) (files : FilesArg) (newName : Name) {h w : Nat}
    (hne : files.names ≠ []) (hhw : h ≠ 1952 ∨ w ≠ 1952) : ∃ e, (convertSet cwd fs files newName h w).FailedClean fs e := by
  unfold convertSet
  split
  · exact ⟨_, rfl, rfl⟩
  · cases hf : forList files.names (Img.zeros h w) (convertSetBody cwd fs files.names.length) with
    | error e => exact ⟨e, rfl, rfl⟩
    | ok arr =>
      exfalso
      cases hn : files.names with
      | nil => exact hne hn
      | cons n l =>
        rw [hn] at hf
        unfold forList at hf
        rw [List.foldlM_cons, Py.bind_eq_ok] at hf
        obtain ⟨a, h1, _⟩ := hf
        unfold convertSetBody at h1
        rw [Py.bind_eq_ok] at h1
        obtain ⟨b, _, h2⟩ := h1
        rw [Py.bind_eq_ok] at h2
        obtain ⟨d, h3, h4⟩ := h2
        have hd : d.h = 1952 ∧ d.w = 1952 := by
          unfold nparrFromBinary nparrFromBinaryN at h3
          split at h3
          · cases h3
          · rw [Py.bind_eq_ok] at h3
            obtain ⟨r, _, h3⟩ := h3
            split at h3
            · cases h3
            · split at h3
              · cases h3
              · cases h3
                exact ⟨rfl, rfl⟩
        split at h4
        · rename_i he
          rw [hd.1, hd.2] at he
          rcases hhw with hh | hh
          · exact hh he.1
          · exact hh he.2
        · cases h4

end

end Micropol
