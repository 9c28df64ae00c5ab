import Verif.Props.Keywords
import Verif.Props.Failed

/-!
# C122: keywords of loaded images, and what does not hold

The statements use `archive`, and from `Verif/Spec/Keywords.lean`: `LoadedFrom` (the keywords a loaded image should have) and
`exposures` (the number of exposures in a file, by its keywords); `GoodFiles` (the files exist, have the same shape and readable dates),
`IsEarliest` and `IsLatest` are those of C67.
-/

set_option autoImplicit false

namespace Micropol

noncomputable section

variable {clock : Clock} {disk : Name → Option Hdu}

/-! ## Auxiliary facts -/

theorem loadImage_counts {fs : Name → Option FitsFile} {arg : LoadArg} {average : Bool} {r : LoadedImage}
    (h : loadImage fs clock arg average = .ok r) :
    (1 < arg.names.length → r.sumOf = some arg.names.length) ∧
    (arg.names.length ≤ 1 → r.sumOf = none ∧ r.strtObs = none ∧ r.endObs = none) := by
  unfold loadImage at h
  dsimp only at h
  split at h
  · cases h
  · obtain ⟨st, -, h⟩ := Py.bind_eq_ok.1 h
    split at h
    · split at h
      · rename_i hn
        cases h
        exact ⟨fun _ => rfl, fun h => absurd hn (by omega)⟩
      · rename_i hn
        cases h
        exact ⟨fun h => absurd h hn, fun _ => ⟨rfl, rfl, rfl⟩⟩
    · cases h

theorem loadedCards_other (first : Cards) (r : LoadedImage) {k : Keyword} (h1 : k ≠ .sumOf) (h2 : k ≠ .strtObs) (h3 : k ≠ .endObs) :
    loadedCards first r k = first k := by
  unfold loadedCards
  cases r.sumOf <;> cases r.strtObs <;> cases r.endObs <;> simp only [Cards.set, h1, h2, h3, if_false]

theorem loadedCards_sumOf (first : Cards) (r : LoadedImage) :
    loadedCards first r .sumOf = match r.sumOf with | some n => some (.number n) | none => first .sumOf := by
  unfold loadedCards
  cases r.sumOf <;> cases r.strtObs <;> cases r.endObs <;> simp [Cards.set]

theorem loadedCards_strtObs (first : Cards) (r : LoadedImage) :
    loadedCards first r .strtObs = match r.strtObs with | some t => some (.text t) | none => first .strtObs := by
  unfold loadedCards
  cases r.sumOf <;> cases r.strtObs <;> cases r.endObs <;> simp [Cards.set]

theorem loadedCards_endObs (first : Cards) (r : LoadedImage) :
    loadedCards first r .endObs = match r.endObs with | some t => some (.text t) | none => first .endObs := by
  unfold loadedCards
  cases r.sumOf <;> cases r.strtObs <;> cases r.endObs <;> simp [Cards.set]

/-- What a load does. -/
theorem load_stmt {s : Archive} {arg : LoadArg} {average : Bool} {dic : Option AngleDic} {dark flat : Option Nat}
    {junk : Nat → Nat → ℝ} {n : Nat}
    (hn : (s.stmt clock (.load arg average dic dark flat junk)).images = s.images ++ [n]) :
    ∃ r f, loadImage (fun n => (s.disk n).map Hdu.opened) clock arg average = .ok r ∧ arg.names.head?.bind s.disk = some f ∧
      (step s.mem (.fromArray r.data dic dark flat junk)).images = s.mem.images ++ [n] ∧
      (s.stmt clock (.load arg average dic dark flat junk)).mem = step s.mem (.fromArray r.data dic dark flat junk) ∧
      (s.stmt clock (.load arg average dic dark flat junk)).cardsOf n = loadedCards f.cards r := by
  unfold Archive.stmt at hn ⊢
  dsimp only at hn ⊢
  split at hn
  · rename_i r f hr hf
    rw [hr, hf]
    rw [show (s.constructed _ _).images = _ from congrArg State.images (constructed_mem ..)] at hn
    refine ⟨r, f, rfl, rfl, hn, constructed_mem .., ?_⟩
    rw [constructed_new hn]
    exact Function.update_self ..
  · have := congrArg List.length hn
    simp [Archive.images] at this

/-- The memory of a session with files is that of a session without. -/
theorem archive_run (l : List Stmt) : ∃ ops, (archive clock disk l).mem = runOps ops := by
  induction l using List.reverseRecOn with
  | nil => exact ⟨[], rfl⟩
  | append_singleton l st ih =>
    obtain ⟨ops, h⟩ := ih
    rw [archive_snoc]
    have call : ∀ o, (archive clock disk l).stmt clock st = (archive clock disk l).stmt clock (.call o) →
        ∃ ops, ((archive clock disk l).stmt clock st).mem = runOps ops := by
      intro o e
      refine ⟨ops ++ [o], ?_⟩
      rw [runOps_snoc, ← h, e]
      cases o <;> first | rfl | exact constructed_mem ..
    cases st with
    | call o => exact call o rfl
    | setCard i key v =>
      refine ⟨ops, ?_⟩
      rw [← h]
      unfold Archive.stmt
      dsimp only
      split <;> rfl
    | load arg average dic dark flat junk =>
      unfold Archive.stmt
      dsimp only
      split
      · rename_i r f hr hf
        exact ⟨ops ++ [.fromArray r.data dic dark flat junk], by rw [runOps_snoc, ← h, constructed_mem]⟩
      · refine ⟨ops ++ [.fromArray (Img.zeros 1 1) dic none none junk], ?_⟩
        rw [runOps_snoc, ← h]
        have hrun := newFromArray_run (Img.zeros 1 1) dic (archive clock disk l).mem.heap
        have hno : ∃ e, dataStokes (Img.zeros 1 1 : Img ℝ) (dicVal dic (archive clock disk l).mem.heap) = .error e := by
          cases hh : dataStokes (Img.zeros 1 1 : Img ℝ) (dicVal dic (archive clock disk l).mem.heap) with
          | error e => exact ⟨e, rfl⟩
          | ok S => exact absurd (dataStokes_even hh).1 (by decide)
        obtain ⟨e', he⟩ := hno
        rw [he] at hrun
        dsimp only at hrun
        unfold step exec
        dsimp only
        rw [run_namedOpt_none, run_namedOpt_none, run_of_err hrun]
        rfl
    | _ => exact ⟨ops, h⟩

theorem archive_calls (ops : List Op) : (archive clock disk (ops.map .call)).mem = runOps ops := by
  induction ops using List.reverseRecOn with
  | nil => rfl
  | append_singleton ops o ih =>
    rw [List.map_append, List.map_singleton, archive_snoc, runOps_snoc, ← ih]
    cases o <;> first | rfl | exact constructed_mem ..

/-! ## The claims -/

/-- C122: an image loaded from files has the keywords of the first file; for several files `SUMOF` is their number. -/
theorem C122_loaded (l : List Stmt) (arg : LoadArg) (average : Bool) (dic : Option AngleDic) (dark flat : Option Nat)
    (junk : Nat → Nat → ℝ) {n : Nat}
    (hn : (archive clock disk (l ++ [.load arg average dic dark flat junk])).images = (archive clock disk l).images ++ [n]) :
    ∃ first f, arg.names.head? = some first ∧ (archive clock disk l).disk first = some f ∧
      LoadedFrom f.cards ((archive clock disk (l ++ [.load arg average dic dark flat junk])).cardsOf n) arg.names.length := by
  rw [archive_snoc] at hn ⊢
  obtain ⟨r, f, hr, hf, -, -, hc⟩ := load_stmt hn
  obtain ⟨h1, h2⟩ := loadImage_counts hr
  obtain ⟨first, hfirst, hff⟩ := Option.bind_eq_some_iff.1 hf
  refine ⟨first, f, hfirst, hff, ?_⟩
  rw [hc]
  refine ⟨?_, fun k a b c => loadedCards_other _ _ a b c, fun hle => ?_⟩
  · rw [loadedCards_sumOf]
    by_cases h : 1 < arg.names.length
    · rw [h1 h, if_pos h]
    · rw [(h2 (by omega)).1, if_neg h]
  · obtain ⟨a, b, c⟩ := h2 hle
    unfold loadedCards
    rw [a, b, c]

/-- C122: `STRT-OBS` and `END-OBS` of an image loaded from several files are the earliest and the latest date of the files; if the files
have no dates they are those of the first file. -/
theorem C122_loaded_dates (l : List Stmt) {a b : Name} {names : List Name} {h w : ℕ} {img : Name → Img ℝ} {date : Name → Option ℕ}
    (hg : GoodFiles (fun n => ((archive clock disk l).disk n).map Hdu.opened) clock (a :: b :: names) h w img date)
    (average : Bool) (dic : Option AngleDic) (dark flat : Option Nat) (junk : Nat → Nat → ℝ) {n : Nat}
    (hn : (archive clock disk (l ++ [.load (.list (a :: b :: names)) average dic dark flat junk])).images =
      (archive clock disk l).images ++ [n]) :
    ∃ s e f, IsEarliest clock ((a :: b :: names).map date) s ∧ IsLatest clock ((a :: b :: names).map date) e ∧
      (archive clock disk l).disk a = some f ∧
      (archive clock disk (l ++ [.load (.list (a :: b :: names)) average dic dark flat junk])).cardsOf n .strtObs =
        (s.map .text <|> f.cards .strtObs) ∧
      (archive clock disk (l ++ [.load (.list (a :: b :: names)) average dic dark flat junk])).cardsOf n .endObs =
        (e.map .text <|> f.cards .endObs) := by
  obtain ⟨r', hr', hs, he⟩ := C67_dates average hg
  rw [archive_snoc] at hn ⊢
  obtain ⟨r, f, hr, hf, -, -, hc⟩ := load_stmt hn
  have e : r = r' := by rw [hr] at hr'; exact Except.ok.inj hr'
  subst e
  refine ⟨_, _, f, hs, he, hf, ?_, ?_⟩
  · rw [hc, loadedCards_strtObs]; cases r.strtObs <;> rfl
  · rw [hc, loadedCards_endObs]; cases r.endObs <;> rfl

/-- C122: the header of a loaded image states its size. -/
theorem C122_loaded_size (l : List Stmt) (arg : LoadArg) (average : Bool) (dic : Option AngleDic) (dark flat : Option Nat)
    (junk : Nat → Nat → ℝ) {n : Nat}
    (hn : (archive clock disk (l ++ [.load arg average dic dark flat junk])).images = (archive clock disk l).images ++ [n]) :
    (archive clock disk (l ++ [.load arg average dic dark flat junk])).mem.HeaderRight n := by
  rw [archive_snoc] at hn ⊢
  obtain ⟨r, f, -, -, hi, hm, -⟩ := load_stmt hn
  obtain ⟨ops, hops⟩ := archive_run (clock := clock) (disk := disk) l
  rw [hm]
  rw [hops] at hi ⊢
  have := C43_right_when_set_partial ops (.fromArray r.data dic dark flat junk) rfl n (by rw [runOps_snoc]; exact hi)
  rw [runOps_snoc] at this
  exact this

/-- C122: what was saved comes back: an image loaded from a file that `save_as_fits` wrote has the keywords which the saved image had when
it was saved, whatever happened in between, as long as nothing else was saved to that file. -/
theorem C122_round_trip (pre post : List Stmt) {i k : Nat} (hk : (archive clock disk pre).images[i]? = some k) (name : Name)
    (fixto : Option (ℝ × ℝ))
    (hpost : ∀ a st b, post = a ++ st :: b →
      name ∉ (st.writes (archive clock disk (pre ++ [.save i name fixto] ++ a))).map Prod.fst)
    (arg : LoadArg) (harg : arg.names = [name]) (average : Bool) (dic : Option AngleDic) (dark flat : Option Nat)
    (junk : Nat → Nat → ℝ) {n : Nat}
    (hn : (archive clock disk (pre ++ [.save i name fixto] ++ post ++ [.load arg average dic dark flat junk])).images =
      (archive clock disk (pre ++ [.save i name fixto] ++ post)).images ++ [n]) :
    (archive clock disk (pre ++ [.save i name fixto] ++ post ++ [.load arg average dic dark flat junk])).cardsOf n =
      (archive clock disk pre).cardsOf k := by
  obtain ⟨f, hf, -, -, -, hc⟩ := C122_save pre hk name fixto
  have keep : ∀ a b, post = a ++ b → (archive clock disk (pre ++ [.save i name fixto] ++ a)).disk name = some f := by
    intro a
    induction a using List.reverseRecOn with
    | nil => intro b _; rw [List.append_nil]; exact hf
    | append_singleton a st ih =>
      intro b hb
      have hb' : post = a ++ st :: b := by rw [hb, List.append_assoc]; rfl
      rw [← List.append_assoc, C122_other_files _ st name (.inr (hpost a st b hb'))]
      exact ih _ hb'
  obtain ⟨first, f', h1, h2, -, -, h3⟩ := C122_loaded _ arg average dic dark flat junk hn
  rw [harg] at h1 h3
  cases h1
  rw [keep post [] (by simp)] at h2
  cases h2
  rw [h3 le_rfl]
  funext key
  exact hc key (by simp)

/-- C122 (what is left of "`SUMOF` is the number of exposures in the image"): it holds if the files are single exposures, or if there is
only one file. -/
theorem C122_sumof_partial (l : List Stmt) (arg : LoadArg) (average : Bool) (dic : Option AngleDic) (dark flat : Option Nat)
    (junk : Nat → Nat → ℝ) {n : Nat}
    (hn : (archive clock disk (l ++ [.load arg average dic dark flat junk])).images = (archive clock disk l).images ++ [n])
    (files : List Hdu) (hfiles : arg.names.map (archive clock disk l).disk = files.map some)
    (hone : (∀ f ∈ files, exposures f.cards = 1) ∨ arg.names.length = 1) :
    exposures ((archive clock disk (l ++ [.load arg average dic dark flat junk])).cardsOf n) = (files.map fun f => exposures f.cards).sum := by
  obtain ⟨first, f, h1, h2, h3, -, h5⟩ := C122_loaded l arg average dic dark flat junk hn
  have hlen : arg.names.length = files.length := by simpa using congrArg List.length hfiles
  cases hl : arg.names with
  | nil => rw [hl] at h1; cases h1
  | cons a names =>
    rw [hl] at h1 hfiles
    cases h1
    cases files with
    | nil => cases hfiles
    | cons g files =>
      rw [List.map_cons, List.map_cons] at hfiles
      obtain ⟨hg, hrest⟩ := List.cons.inj hfiles
      rw [h2] at hg
      cases hg
      have single : files = [] → exposures ((archive clock disk (l ++ [.load arg average dic dark flat junk])).cardsOf n) =
          ((f :: files).map fun f => exposures f.cards).sum := by
        rintro rfl
        rw [h5 (by rw [hlen]; exact le_rfl)]
        simp
      rcases hone with hone | hone
      · by_cases hnil : files = []
        · exact single hnil
        · have hpos : 0 < files.length := List.length_pos_of_ne_nil hnil
          have hs : ((f :: files).map fun f => exposures f.cards).sum = ((f :: files).length : Int) := by
            have key : ∀ L : List Hdu, (∀ f ∈ L, exposures f.cards = 1) → (L.map fun f => exposures f.cards).sum = (L.length : Int) := by
              intro L
              induction L with
              | nil => intro _; rfl
              | cons x L ih =>
                intro h
                rw [List.map_cons, List.sum_cons, h x List.mem_cons_self, ih fun y hy => h y (List.mem_cons_of_mem _ hy), List.length_cons]
                push_cast
                ring
            exact key _ hone
          rw [hs]
          unfold exposures
          rw [h3, if_pos (by rw [hlen, List.length_cons]; omega)]
          dsimp only
          rw [hlen]
      · refine single (List.length_eq_zero_iff.1 ?_)
        rw [hlen, List.length_cons] at hone
        omega

/-! ## What does not hold -/

/-- `image = MicropolImage(flat44); small = image.rebin(2)`. -/
def imageAndRebinned : List Stmt := rebinned.map .call

theorem imageAndRebinned_facts : (archive clock disk imageAndRebinned).images = [0, 1] :=
  (congrArg State.images (archive_calls rebinned)).trans rebinned_facts.1

/-- C122: "a keyword written to an image shows in that image only" does not hold: `small.header["OBSERVER"] = "X"` also sets it in the
image that `small` was made from. -/
theorem C122_shared_keywords (clock : Clock) (disk : Name → Option Hdu) : ¬ ∀ (l : List Stmt) (i k m : Nat) (key : Keyword) (v : CardValue),
    (archive clock disk l).images[i]? = some k → m ∈ (archive clock disk l).images → m ≠ k →
    (archive clock disk (l ++ [.setCard i key v])).cardsOf m = (archive clock disk l).cardsOf m := by
  intro hall
  have him : (archive clock disk imageAndRebinned).images = [0, 1] := imageAndRebinned_facts
  have h := hall imageAndRebinned 1 1 0 (.other "OBSERVER".toList) (.text ['X']) (by rw [him]; rfl) (by rw [him]; decide) (by decide)
  have hw := (C122_written imageAndRebinned (i := 1) (k := 1) (by rw [him]; rfl) (.other "OBSERVER".toList) (.text ['X'])).1
  have hfst : (archive clock disk [.call (.fromArray flat44 none none none fun _ _ => 0)]).images = [0] :=
    (congrArg State.images (archive_calls (clock := clock) (disk := disk) [.fromArray flat44 none none none fun _ _ => 0])).trans
      flat44_rebin.1
  have hs : (archive clock disk imageAndRebinned).ref 1 = (archive clock disk imageAndRebinned).ref 0 := by
    unfold Archive.ref
    rw [show (archive clock disk imageAndRebinned).mem = runOps rebinned from archive_calls rebinned]
    exact C43_shared [.fromArray flat44 none none none fun _ _ => 0] (.rebin 0 2) rfl 0 ⟨0, rfl, by rw [flat44_rebin.1]; rfl⟩ 1
      (by rw [flat44_rebin.1]; exact rebinned_facts.1)
  have hsame : ∀ key v, (archive clock disk (imageAndRebinned ++ [.setCard 1 key v])).cardsOf 0 =
      (archive clock disk (imageAndRebinned ++ [.setCard 1 key v])).cardsOf 1 := by
    intro key v
    have hm : (archive clock disk (imageAndRebinned ++ [.setCard 1 key v])).mem = (archive clock disk imageAndRebinned).mem := by
      rw [archive_snoc]
      unfold Archive.stmt
      dsimp only
      split <;> rfl
    rw [cardsOf_ref, cardsOf_ref]
    unfold Archive.ref at hs ⊢
    rw [hm, hs]
  rw [← hsame, h] at hw
  have hnone : (archive clock disk imageAndRebinned).cardsOf 0 = fun _ => none := by
    have e : imageAndRebinned = [.call (.fromArray flat44 none none none fun _ _ => 0)] ++ [.call (.rebin 0 2)] := rfl
    rw [e, C122_calls_keep _ _ 0 (by rw [hfst]; exact List.mem_cons_self)]
    exact C122_array [] flat44 none none none (fun _ _ => 0) hfst
  rw [hnone] at hw
  cases hw

/-- A file with a 2 × 2 exposure without keywords. -/
def oneExposure : Hdu := primaryHdu (Img.zeros 2 2) fun _ => none

/-- `both = MicropolImage(["a", "b"]); both.save_as_fits("c")`. -/
def savedSum : List Stmt :=
  [.load (.list [['a'], ['b']]) true (some polarCamAngles) none none fun _ _ => 0, .save 0 ['c'] none]

/-- Loading good files of even size gives an image. -/
theorem load_gives_image {l : List Stmt} {a : Name} {names : List Name} {h w : ℕ} {img : Name → Img ℝ} {date : Name → Option ℕ}
    (hg : GoodFiles (fun n => ((archive clock disk l).disk n).map Hdu.opened) clock (a :: names) h w img date) (hh : h % 2 = 0)
    (hw : w % 2 = 0) (average : Bool) (junk : Nat → Nat → ℝ) :
    ∃ n r, (archive clock disk (l ++ [.load (.list (a :: names)) average (some polarCamAngles) none none junk])).images =
      (archive clock disk l).images ++ [n] ∧ r.h = h ∧ r.w = w ∧
      (archive clock disk (l ++ [.load (.list (a :: names)) average (some polarCamAngles) none none junk])).mem.data n = r := by
  obtain ⟨f, -, hr⟩ := loadImage_ok average hg
  obtain ⟨-, f', hf', -, -⟩ := hg.2 a List.mem_cons_self
  obtain ⟨g, hgd, -⟩ := Option.map_eq_some_iff.1 hf'
  obtain ⟨S, hS, -⟩ := C17_stokes (Img.ofFn h w (fun y x => ((a :: names).map (fun n => (img n).px y x)).sum /
    ((1 + average.toNat * names.length : ℕ) : ℝ))) hh hw ⟨0, 1, 2, 3⟩ polarCamAngles C02_polarCam.1
  have hst := step_fromArray (s := (archive clock disk l).mem) (Img.ofFn h w (fun y x => ((a :: names).map (fun n => (img n).px y x)).sum /
    ((1 + average.toNat * names.length : ℕ) : ℝ))) (some polarCamAngles) junk hS
  rw [archive_snoc]
  unfold Archive.stmt
  dsimp only
  rw [hr, show (FilesArg.names (.list (a :: names))).head?.bind (archive clock disk l).disk = some g from hgd]
  dsimp only
  unfold Archive.images State.data
  rw [constructed_mem, hst]
  exact ⟨_, _, rfl, rfl, rfl, congrArg ImgView.data (arrayHeap_view _ S (some polarCamAngles) (archive clock disk l).mem.heap)⟩

theorem good_plain {l : List Stmt} {names : List Name} (hraw : rawExt ∉ names)
    (h : ∀ n ∈ names, ∃ f, (archive clock disk l).disk n = some f ∧ f.cards .dateObs = none ∧ f.data.HasShape 2 2) :
    ∃ img, GoodFiles (fun n => ((archive clock disk l).disk n).map Hdu.opened) clock names 2 2 img fun _ => none := by
  refine ⟨fun n => (((archive clock disk l).disk n).map Hdu.data).getD (Img.zeros 2 2), hraw, fun n hn => ?_⟩
  obtain ⟨f, hf, hd, hs⟩ := h n hn
  dsimp only
  rw [hf]
  refine ⟨hs, ⟨some f.data, none, none⟩, ?_, rfl, rfl⟩
  unfold Hdu.opened
  simp only [Option.map_some, hd]

/-- C122: "`SUMOF` is the number of exposures in the image" does not hold: the mean of two exposures is saved, and then loaded together
with a third exposure; `SUMOF` of the result is 2. -/
theorem C122_sumof_wrong (clock : Clock) : ¬ ∀ (disk : Name → Option Hdu) (l : List Stmt) (arg : LoadArg) (average : Bool)
    (dic : Option AngleDic) (dark flat : Option Nat) (junk : Nat → Nat → ℝ) (n : Nat) (files : List Hdu),
    (∀ n f, disk n = some f → exposures f.cards = 1) →
    (archive clock disk (l ++ [.load arg average dic dark flat junk])).images = (archive clock disk l).images ++ [n] →
    arg.names.map (archive clock disk l).disk = files.map some →
    exposures ((archive clock disk (l ++ [.load arg average dic dark flat junk])).cardsOf n) =
      (files.map fun f => exposures f.cards).sum := by
  intro hall
  obtain ⟨img1, hg1⟩ := good_plain (clock := clock) (disk := fun _ => some oneExposure) (l := []) (names := [['a'], ['b']]) (by decide)
    (fun n _ => ⟨oneExposure, rfl, rfl, rfl, rfl⟩)
  obtain ⟨n1, r, hn1, hrh, hrw, hdat⟩ := load_gives_image hg1 rfl rfl true fun _ _ => 0
  have hn1' : (archive clock (fun _ => some oneExposure) ([] ++ [.load (.list [['a'], ['b']]) true (some polarCamAngles) none none fun _ _ => 0])).images[0]? =
      some n1 := by rw [hn1]; rfl
  obtain ⟨f1, f1', e1, e2, hl1⟩ := C122_loaded _ _ _ _ _ _ _ hn1
  cases e1
  cases e2
  obtain ⟨g, hg, hgd, -, -, hgc⟩ := C122_save _ hn1' ['c'] none
  have hga : (archive clock (fun _ => some oneExposure) savedSum).disk ['a'] = some oneExposure := by
    have := C122_other_files (clock := clock) (disk := fun _ => some oneExposure)
      ([] ++ [.load (.list [['a'], ['b']]) true (some polarCamAngles) none none fun _ _ => 0]) (.save 0 ['c'] none) ['a'] (.inr (by
        unfold Stmt.writes
        dsimp only
        split <;> simp))
    refine this.trans ?_
    rw [C122_other_files _ _ _ (.inl rfl)]
    rfl
  have hgc' : (archive clock (fun _ => some oneExposure) savedSum).disk ['c'] = some g := hg
  have hsum : g.cards .sumOf = some (.number 2) := by
    rw [hgc _ (by simp), hl1.1]
    rfl
  have hdate : g.cards .dateObs = none := by
    rw [hgc _ (by simp), hl1.2.1 _ (by decide) (by decide) (by decide)]
    rfl
  obtain ⟨img2, hg2⟩ := good_plain (clock := clock) (disk := fun _ => some oneExposure) (l := savedSum) (names := [['c'], ['a']]) (by decide) (by
    intro n hn
    rcases List.mem_cons.1 hn with rfl | hn
    · refine ⟨g, hgc', hdate, ?_⟩
      rw [hgd, hdat]
      exact ⟨hrh, hrw⟩
    · rw [List.mem_singleton.1 hn]
      exact ⟨oneExposure, hga, rfl, rfl, rfl⟩)
  obtain ⟨n2, -, hn2, -⟩ := load_gives_image hg2 rfl rfl true fun _ _ => 0
  have h := hall (fun _ => some oneExposure) savedSum _ _ _ _ _ _ n2 [g, oneExposure]
    (fun n f hf => by cases hf; rfl) hn2 (by
      show [(archive clock (fun _ => some oneExposure) savedSum).disk ['c'], (archive clock (fun _ => some oneExposure) savedSum).disk ['a']] = _
      rw [hga, hgc']
      rfl)
  obtain ⟨f2, f2', e1, e2, hl2⟩ := C122_loaded _ _ _ _ _ _ _ hn2
  have hleft : ∀ c : Cards, c .sumOf = some (.number 2) → exposures c = 2 := by
    intro c hc
    unfold exposures
    rw [hc]
  rw [hleft _ hl2.1] at h
  have h1 : exposures g.cards = 2 := hleft _ hsum
  have h2 : exposures oneExposure.cards = 1 := rfl
  rw [List.map_cons, List.map_cons, List.map_nil, h1, h2] at h
  revert h
  decide

/-- The hypotheses of the round trip are met: the mean of two exposures is saved and loaded again; it still is the mean of two. -/
example (clock : Clock) : ∃ n k, (archive clock (fun _ => some oneExposure)
      (savedSum ++ [.load (.list [['c']]) true (some polarCamAngles) none none fun _ _ => 0])).images = [k, n] ∧
    (archive clock (fun _ => some oneExposure)
      (savedSum ++ [.load (.list [['c']]) true (some polarCamAngles) none none fun _ _ => 0])).cardsOf n .sumOf = some (.number 2) := by
  obtain ⟨img1, hg1⟩ := good_plain (clock := clock) (disk := fun _ => some oneExposure) (l := []) (names := [['a'], ['b']]) (by decide)
    (fun n _ => ⟨oneExposure, rfl, rfl, rfl, rfl⟩)
  obtain ⟨k, r, hk, hrh, hrw, hdat⟩ := load_gives_image hg1 rfl rfl true fun _ _ => 0
  have hk' : (archive clock (fun _ => some oneExposure) [.load (.list [['a'], ['b']]) true (some polarCamAngles) none none fun _ _ => 0]).images[0]? =
      some k := by rw [show (archive clock _ [_]).images = _ from hk]; rfl
  obtain ⟨f1, f1', e1, e2, hl1⟩ := C122_loaded _ _ _ _ _ _ _ hk
  cases e1
  cases e2
  obtain ⟨g, hg, hgd, -, -, hgc⟩ := C122_save _ hk' ['c'] none
  have hdate : g.cards .dateObs = none := by
    rw [hgc _ (by simp)]
    exact hl1.2.1 _ (by decide) (by decide) (by decide)
  obtain ⟨img2, hg2⟩ := good_plain (clock := clock) (disk := fun _ => some oneExposure) (l := savedSum) (names := [['c']]) (by decide) (by
    intro n hn
    rw [List.mem_singleton.1 hn]
    refine ⟨g, hg, hdate, ?_⟩
    rw [hgd, show (archive clock _ [_]).mem.data k = _ from hdat]
    exact ⟨hrh, hrw⟩)
  obtain ⟨n, -, hn, -⟩ := load_gives_image hg2 rfl rfl true fun _ _ => 0
  have hold : (archive clock (fun _ => some oneExposure) savedSum).images = [k] := by
    have := (C122_saving_keeps (clock := clock) (disk := fun _ => some oneExposure)
      [.load (.list [['a'], ['b']]) true (some polarCamAngles) none none fun _ _ => 0] (.save 0 ['c'] none) rfl).1
    exact (congrArg State.images this).trans hk
  refine ⟨n, k, ?_, ?_⟩
  · rw [hn, hold]; rfl
  · have := C122_round_trip (clock := clock) (disk := fun _ => some oneExposure)
      [.load (.list [['a'], ['b']]) true (some polarCamAngles) none none fun _ _ => 0] [] hk' ['c'] none
      (fun a st b h => by simp at h) (.list [['c']]) rfl true (some polarCamAngles) none none (fun _ _ => 0) hn
    exact (congrFun this _).trans hl1.1

/-- The hypotheses of `C122_demosaiced` are met. -/
example (clock : Clock) (disk : Name → Option Hdu) : ∃ (l : List Stmt) (im : Fin 4 → Img ℝ), (archive clock disk l).images[0]? = some 0 ∧
    (archive clock disk l).mem.isDemosaiced 0 = true ∧ ((archive clock disk l).mem.heap.objs.cell 0).demosaicedImages = some im := by
  obtain ⟨S, hS, -, -⟩ := C17_stokes flat44 rfl rfl ⟨0, 1, 2, 3⟩ polarCamAngles C02_polarCam.1
  have hrun : runOps [.fromArray flat44 none none none fun _ _ => 0] = ⟨arrayHeap flat44 S none initState.heap, [0]⟩ :=
    (runOps_snoc [] _).trans (step_fromArray (s := initState) flat44 none (fun _ _ => 0) hS)
  have hi : (runOps [.fromArray flat44 none none none fun _ _ => 0]).images[0]? = some 0 := by rw [hrun]; rfl
  have hv0 : (runOps [.fromArray flat44 none none none fun _ _ => 0]).heap.view 0 = freshView flat44 S polarCamAngles := by
    rw [hrun]
    exact arrayHeap_view flat44 S none initState.heap
  obtain ⟨r, hr, -⟩ := C13_mean flat44 _ (split_ok rfl rfl)
  have e1 := runOps_snoc [.fromArray flat44 none none none fun _ _ => 0] (.demosaic 0 "mean")
  have hv1 : (runOps ([.fromArray flat44 none none none fun _ _ => 0] ++ [.demosaic 0 "mean"])).heap.view 0 =
      { freshView flat44 S polarCamAngles with
        stokes := ⟨stokesClosed r ⟨0, 1, 2, 3⟩, false⟩, demosaicedImages := some r, isDemosaiced := true } := by
    rw [e1, step_place_view (o := .demosaic 0 "mean") rfl hi rfl, hv0]
    show (demosaicV "mean" (freshView flat44 S polarCamAngles)).2 = _
    unfold demosaicV
    rw [show (freshView flat44 S polarCamAngles).data = flat44 from rfl, hr]
    unfold withVal updateStokesV theoV
    dsimp only
    rw [if_pos rfl, show (freshView flat44 S polarCamAngles).dic = polarCamAngles from rfl, theoStokes_ok r C02_polarCam.1]
    rfl
  refine ⟨([Op.fromArray flat44 none none none fun _ _ => 0] ++ [Op.demosaic 0 "mean"]).map .call, r, ?_, ?_, ?_⟩
  · unfold Archive.images
    rw [archive_calls, e1]
    exact getElem?_step _ hi
  · rw [archive_calls]
    exact congrArg ImgView.isDemosaiced hv1
  · rw [archive_calls]
    exact congrArg ImgView.demosaicedImages hv1

/-- A session with an image and one made from it. -/
example (clock : Clock) (disk : Name → Option Hdu) :
    ((described clock disk imageAndRebinned).map Described.cards) = [fun _ => none, fun _ => none] := by
  rw [← C122_images]
  have hfst : (archive clock disk [.call (.fromArray flat44 none none none fun _ _ => 0)]).images = [0] :=
    (congrArg State.images (archive_calls (clock := clock) (disk := disk) [.fromArray flat44 none none none fun _ _ => 0])).trans
      flat44_rebin.1
  have h0 := C122_array (clock := clock) (disk := disk) [] flat44 none none none (fun _ _ => 0) hfst
  have e : imageAndRebinned = [.call (.fromArray flat44 none none none fun _ _ => 0)] ++ [.call (.rebin 0 2)] := rfl
  have h1 : (archive clock disk imageAndRebinned).cardsOf 1 = fun _ => none := by
    rw [e, C122_derived (i := 0) (k := 0) (n := 1) _ _ rfl (by rw [hfst]; rfl) (by rw [hfst, ← e]; exact imageAndRebinned_facts)]
    exact h0
  have h2 : (archive clock disk imageAndRebinned).cardsOf 0 = fun _ => none := by
    rw [e, C122_calls_keep _ _ 0 (by rw [hfst]; exact List.mem_cons_self)]
    exact h0
  unfold Archive.keywords
  rw [imageAndRebinned_facts, List.map_cons, List.map_cons, List.map_nil, h1, h2]

end

end Micropol
