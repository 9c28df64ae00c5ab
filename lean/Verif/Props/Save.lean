import Verif.Lemmas.Save

/-!
# C71: the files written by the saving methods

`q` is the directory part of the name as the caller writes it (empty, or ending in a slash), `stem` the rest without the
extension.  `SavedExactly` (`Verif/Spec/Save.lean`): the call succeeds, the listed files hold the listed images at the end, and
no other file is touched at any moment.  `FreeWay`: no regular file stands where a directory is needed.
-/

set_option autoImplicit false

namespace Micropol

noncomputable section

theorem fixTo_limited (fixto : Option (ℝ × ℝ)) (d : Img ℝ) : fixTo fixto d = limited fixto d := by
  cases fixto <;> rfl

variable {cwd : List Name} {fs : FileSystem} {q stem : Name}

/-- C71: `save_all_pol_params_as_fits("dir/stem.fits")` writes `dir/stem_I.fits`, …, `dir/stem_DoLP.fits`: six different files with
the six parameters, whatever is on the disk and whether or not the directory exists. -/
theorem C71_all_params_partial {S : Fin 3 → Img ℝ} {dolp : Img ℝ} (hcwd : ∀ x ∈ cwd, GoodComp x)
    (hq : q = [] ∨ q.getLast? = some '/') (hs : '/' ∉ stem) (hne : stem ≠ []) (hdot : stem ≠ ['.'])
    (hfree : FreeWay cwd fs (q ++ (stem ++ fitsExt))) (hd : DoLP S = .ok dolp) :
    let name (id : Name) := abspath cwd (q ++ (stem ++ (['_'] ++ id ++ fitsExt)))
    let files := [(name ['I'], S 0), (name ['Q'], S 1), (name ['U'], S 2), (name ['p', 'B'], pB S),
      (name ['A', 'o', 'L', 'P'], AoLP S), (name ['D', 'o', 'L', 'P'], dolp)]
    SavedExactly fs (saveAllParams cwd fs S (q ++ (stem ++ fitsExt))) files := by
  intro name files
  obtain ⟨path, fs', h1, h2, h3, h4, h5, h6⟩ := group_saved (ext := ['f', 'i', 't', 's']) hcwd hq hs hne hdot (by decide) (by decide)
    (by decide) hfree
  have h7 := h6 [(['_'] ++ ['I'] ++ fitsExt, S 0), (['_'] ++ ['Q'] ++ fitsExt, S 1), (['_'] ++ ['U'] ++ fitsExt, S 2),
    (['_'] ++ ['p', 'B'] ++ fitsExt, pB S), (['_'] ++ ['A', 'o', 'L', 'P'] ++ fitsExt, AoLP S),
    (['_'] ++ ['D', 'o', 'L', 'P'] ++ fitsExt, dolp)] (by
      intro t ht
      simp only [List.mem_cons, List.not_mem_nil, or_false] at ht
      rcases ht with rfl | rfl | rfl | rfl | rfl | rfl <;> exact ⟨by dsimp only; decide, by dsimp only; decide⟩) (by simp only [List.map_cons, List.map_nil]; decide)
  unfold saveAllParams
  rw [if_neg (by rw [not_not]; exact h3), show q ++ (stem ++ fitsExt) = q ++ (stem ++ '.' :: ['f', 'i', 't', 's']) from rfl, h1]
  dsimp only
  unfold polparamList
  rw [hd, Py.ok_bind]
  dsimp only [pure, Except.pure]
  rw [h5]
  simp only [List.map_cons, List.map_nil] at h7 ⊢
  simp only [List.append_assoc] at h7 ⊢
  exact h7

/-- C71: `save_single_pol_images("dir/stem.fits")` writes `dir/stemPOL0.fits`, …, with the sub-images of the four orientations. -/
theorem C71_single_pol_partial {data p0 p45 p90 pm45 : Img ℝ} {dic : AngleDic} {fixto : Option (ℝ × ℝ)}
    (hcwd : ∀ x ∈ cwd, GoodComp x) (hq : q = [] ∨ q.getLast? = some '/') (hs : '/' ∉ stem) (hne : stem ≠ []) (hdot : stem ≠ ['.'])
    (hfree : FreeWay cwd fs (q ++ (stem ++ fitsExt))) (e0 : polFamily data dic 0 = .ok p0) (e45 : polFamily data dic 45 = .ok p45)
    (e90 : polFamily data dic 90 = .ok p90) (em45 : polFamily data dic (-45) = .ok pm45) :
    let name (id : Name) := abspath cwd (q ++ (stem ++ (['P', 'O', 'L'] ++ id ++ fitsExt)))
    SavedExactly fs (saveSinglePol cwd fs data dic fixto (q ++ (stem ++ fitsExt)))
      [(name ['0'], limited fixto p0), (name ['4', '5'], limited fixto p45), (name ['9', '0'], limited fixto p90),
        (name ['-', '4', '5'], limited fixto pm45)] := by
  intro name
  obtain ⟨path, fs', h1, h2, h3, h4, h5, h6⟩ := group_saved (ext := ['f', 'i', 't', 's']) hcwd hq hs hne hdot (by decide) (by decide)
    (by decide) hfree
  have h7 := h6 [(['P', 'O', 'L'] ++ ['0'] ++ fitsExt, limited fixto p0), (['P', 'O', 'L'] ++ ['4', '5'] ++ fitsExt, limited fixto p45),
    (['P', 'O', 'L'] ++ ['9', '0'] ++ fitsExt, limited fixto p90), (['P', 'O', 'L'] ++ ['-', '4', '5'] ++ fitsExt, limited fixto pm45)] (by
      intro t ht
      simp only [List.mem_cons, List.not_mem_nil, or_false] at ht
      rcases ht with rfl | rfl | rfl | rfl <;> exact ⟨by dsimp only; decide, by dsimp only; decide⟩) (by simp only [List.map_cons, List.map_nil]; decide)
  unfold saveSinglePol
  rw [e0, e45, e90, em45]
  simp only [Py.ok_bind]
  dsimp only [pure, Except.pure]
  rw [show q ++ (stem ++ fitsExt) = q ++ (stem ++ '.' :: ['f', 'i', 't', 's']) from rfl, h1]
  dsimp only
  rw [if_neg (by rw [not_not]; exact h2), h5]
  simp only [List.map_cons, List.map_nil] at h7 ⊢
  simp only [List.append_assoc] at h7 ⊢
  exact h7

/-- C71: `save_param_as_fits(id, "dir/stem.fits")` writes that parameter to `dir/stem_id.fits`. -/
theorem C71_param_partial {S : Fin 3 → Img ℝ} {id : Name} {d : Img ℝ} {fixto : Option (ℝ × ℝ)} (hcwd : ∀ x ∈ cwd, GoodComp x)
    (hq : q = [] ∨ q.getLast? = some '/') (hs : '/' ∉ stem) (hne : stem ≠ []) (hdot : stem ≠ ['.'])
    (hfree : FreeWay cwd fs (q ++ (stem ++ fitsExt)))
    (hd : (id, (Except.ok d : Py (Img ℝ))) ∈ [(['I'], .ok (S 0)), (['Q'], .ok (S 1)), (['U'], .ok (S 2)), (['p', 'B'], .ok (pB S)),
      (['A', 'o', 'L', 'P'], .ok (AoLP S)), (['D', 'o', 'L', 'P'], DoLP S)]) :
    SavedExactly fs (saveParam cwd fs S id fixto (q ++ (stem ++ fitsExt)))
      [(abspath cwd (q ++ (stem ++ (['_'] ++ id ++ fitsExt))), limited fixto d)] := by
  obtain ⟨path, fs', h1, h2, h3, h4, h5, h6⟩ := group_saved (ext := ['f', 'i', 't', 's']) hcwd hq hs hne hdot (by decide) (by decide)
    (by decide) hfree
  have hg : getParam S id = .ok d ∧ '/' ∉ id := by
    simp only [List.mem_cons, List.not_mem_nil, or_false, Prod.mk.injEq] at hd
    rcases hd with ⟨rfl, h⟩ | ⟨rfl, h⟩ | ⟨rfl, h⟩ | ⟨rfl, h⟩ | ⟨rfl, h⟩ | ⟨rfl, h⟩
    · exact ⟨h.symm, by decide⟩
    · exact ⟨h.symm, by decide⟩
    · exact ⟨h.symm, by decide⟩
    · exact ⟨h.symm, by decide⟩
    · exact ⟨h.symm, by decide⟩
    · exact ⟨h.symm, by decide⟩
  have h7 := h6 [(['_'] ++ id ++ fitsExt, limited fixto d)] (by
      intro t ht
      rw [List.mem_singleton] at ht
      subst ht
      refine ⟨?_, ?_⟩
      · simp only [List.mem_append, not_or]
        exact ⟨⟨by decide, hg.2⟩, by decide⟩
      · simp only [List.length_append, show fitsExt.length = 5 from rfl]
        omega) (by simp)
  unfold saveParam
  rw [hg.1]
  dsimp only
  rw [show q ++ (stem ++ fitsExt) = q ++ (stem ++ '.' :: ['f', 'i', 't', 's']) from rfl, h1]
  dsimp only
  rw [if_neg (by rw [not_not]; exact h2), h4]
  simp only [List.map_cons, List.map_nil] at h7 ⊢
  rw [pathString_append] at h7
  simp only [List.append_assoc] at h7 ⊢
  exact h7

/-- C71: `save_demosaiced_images_as_fits("dir/stem.ext")`, for any non-empty extension and any order of the entries of the
orientation dictionary, writes the image at position `i` to `dir/stem_POL<angle of position i>.fits`. -/
theorem C71_demosaiced_partial {im : Fin 4 → Img ℝ} {angle : Fin 4 → Int} {entries : List (Int × Int)} {fixto : Option (ℝ × ℝ)}
    {ext : Name} (hcwd : ∀ x ∈ cwd, GoodComp x) (hq : q = [] ∨ q.getLast? = some '/') (hs : '/' ∉ stem) (hne : stem ≠ [])
    (hdot : stem ≠ ['.']) (he : ext ≠ []) (hdx : '.' ∉ ext) (hse : '/' ∉ ext) (hfree : FreeWay cwd fs (q ++ (stem ++ '.' :: ext)))
    (hent : entries.Perm [(angle 0, 0), (angle 1, 1), (angle 2, 2), (angle 3, 3)]) (hinj : Function.Injective angle) :
    let name (i : Fin 4) := abspath cwd (q ++ (stem ++ (['_', 'P', 'O', 'L'] ++ intStr (angle i) ++ fitsExt)))
    SavedExactly fs (saveDemosaiced cwd fs (some im) entries fixto (q ++ (stem ++ '.' :: ext)))
      [(name 0, limited fixto (im 0)), (name 1, limited fixto (im 1)), (name 2, limited fixto (im 2)), (name 3, limited fixto (im 3))] := by
  intro name
  obtain ⟨path, fs', h1, h2, h3, h4, h5, h6⟩ := group_saved hcwd hq hs hne hdot he hdx hse hfree
  have hid : ∀ i : Fin 4, polId entries (i : Int) = .ok (angle i) := by
    intro i
    have hmem : ∀ e ∈ entries, e.2 = (i : Int) → e.1 = angle i := by
      intro e hm h
      have hm := hent.mem_iff.1 hm
      simp only [List.mem_cons, List.not_mem_nil, or_false] at hm
      rcases hm with rfl | rfl | rfl | rfl <;> fin_cases i <;> simp at h <;> rfl
    unfold polId
    cases hf : entries.find? (fun e => e.2 == (i : Int)) with
    | none =>
      have := List.find?_eq_none.1 hf (angle i, (i : Int)) (hent.mem_iff.2 (by fin_cases i <;> simp))
      simp at this
    | some e =>
      dsimp only
      have h8 := List.find?_some hf
      rw [hmem e (List.mem_of_find?_eq_some hf) (by simpa using h8)]
  have i0 := hid 0
  have i1 := hid 1
  have i2 := hid 2
  have i3 := hid 3
  have h7 := h6 [(['_', 'P', 'O', 'L'] ++ intStr (angle 0) ++ fitsExt, limited fixto (im 0)),
    (['_', 'P', 'O', 'L'] ++ intStr (angle 1) ++ fitsExt, limited fixto (im 1)),
    (['_', 'P', 'O', 'L'] ++ intStr (angle 2) ++ fitsExt, limited fixto (im 2)),
    (['_', 'P', 'O', 'L'] ++ intStr (angle 3) ++ fitsExt, limited fixto (im 3))] (by
      have key : ∀ i, '/' ∉ ['_', 'P', 'O', 'L'] ++ intStr (angle i) ++ fitsExt ∧
          3 ≤ (['_', 'P', 'O', 'L'] ++ intStr (angle i) ++ fitsExt).length := by
        intro i
        refine ⟨?_, ?_⟩
        · simp only [List.mem_append, not_or]
          exact ⟨⟨by decide, intStr_slash _⟩, by decide⟩
        · simp only [List.length_append, show fitsExt.length = 5 from rfl]
          omega
      intro t ht
      simp only [List.mem_cons, List.not_mem_nil, or_false] at ht
      rcases ht with rfl | rfl | rfl | rfl <;> exact key _) (by
      have e : ([(['_', 'P', 'O', 'L'] ++ intStr (angle 0) ++ fitsExt, limited fixto (im 0)),
          (['_', 'P', 'O', 'L'] ++ intStr (angle 1) ++ fitsExt, limited fixto (im 1)),
          (['_', 'P', 'O', 'L'] ++ intStr (angle 2) ++ fitsExt, limited fixto (im 2)),
          (['_', 'P', 'O', 'L'] ++ intStr (angle 3) ++ fitsExt, limited fixto (im 3))] : List (Name × Img ℝ)).map Prod.fst =
          ([0, 1, 2, 3] : List (Fin 4)).map (fun i => ['_', 'P', 'O', 'L'] ++ intStr (angle i) ++ fitsExt) := rfl
      rw [e]
      refine List.Nodup.map ?_ (by decide)
      intro i j hij
      have hij : ['_', 'P', 'O', 'L'] ++ intStr (angle i) ++ fitsExt = ['_', 'P', 'O', 'L'] ++ intStr (angle j) ++ fitsExt := hij
      have hij := List.append_cancel_right hij
      have hij := List.append_cancel_left hij
      exact hinj (intStr_inj hij))
  unfold saveDemosaiced
  dsimp only
  rw [if_neg (by rw [h3]; simp), h1]
  dsimp only
  have hfiles : demosaicedFiles entries (groupName path) fixto 0 [im 0, im 1, im 2, im 3] =
      ([(groupName path ++ ['_', 'P', 'O', 'L'] ++ intStr (angle 0) ++ fitsExt, limited fixto (im 0)),
        (groupName path ++ ['_', 'P', 'O', 'L'] ++ intStr (angle 1) ++ fitsExt, limited fixto (im 1)),
        (groupName path ++ ['_', 'P', 'O', 'L'] ++ intStr (angle 2) ++ fitsExt, limited fixto (im 2)),
        (groupName path ++ ['_', 'P', 'O', 'L'] ++ intStr (angle 3) ++ fitsExt, limited fixto (im 3))], .ok ()) := by
    simp only [demosaicedFiles]
    rw [show polId entries 0 = .ok (angle 0) from i0, show polId entries (0 + 1) = .ok (angle 1) from i1,
      show polId entries (0 + 1 + 1) = .ok (angle 2) from i2, show polId entries (0 + 1 + 1 + 1) = .ok (angle 3) from i3]
    simp only [fixTo_limited]
  rw [hfiles, h5]
  simp only [List.map_cons, List.map_nil] at h7
  simp only [List.append_assoc] at h7 ⊢
  obtain ⟨a, b, c⟩ := h7
  refine ⟨?_, b, c⟩
  dsimp only at a ⊢
  rw [a]
  rfl

/-- C71: the angles appear in the usual decimal notation, with the sign. -/
theorem C71_angle_names : intStr 0 = ['0'] ∧ intStr 45 = ['4', '5'] ∧ intStr (-45) = ['-', '4', '5'] ∧ intStr 90 = ['9', '0'] := by
  refine ⟨rfl, ?_, ?_, ?_⟩ <;> simp [intStr, natStr, Nat.digitChar]

/-- C71: `save_as_fits("dir/stem.fits")` writes the image there and nothing else. -/
theorem C71_save_as_fits {data : Img ℝ} {fixto : Option (ℝ × ℝ)} (hcwd : ∀ x ∈ cwd, GoodComp x)
    (hq : q = [] ∨ q.getLast? = some '/') (hs : '/' ∉ stem) (hne : stem ≠ []) (hfree : FreeWay cwd fs (q ++ (stem ++ fitsExt))) :
    SavedExactly fs (saveAsFits cwd fs data fixto (q ++ (stem ++ fitsExt))) [(abspath cwd (q ++ (stem ++ fitsExt)), limited fixto data)] := by
  obtain ⟨D, hD, hc⟩ := comps_dir cwd hcwd hq
  have hx : '/' ∉ stem ++ fitsExt := by simp only [List.mem_append, not_or]; exact ⟨hs, by decide⟩
  have hlen : 3 ≤ (stem ++ fitsExt).length := by simp only [List.length_append, show fitsExt.length = 5 from rfl]; omega
  have n1 : stem ++ fitsExt ≠ [] := by intro e; rw [e] at hlen; simp at hlen
  have n2 : stem ++ fitsExt ≠ ['.'] := by intro e; rw [e] at hlen; simp at hlen
  have n3 : stem ++ fitsExt ≠ ['.', '.'] := by intro e; rw [e] at hlen; simp at hlen
  have hcx := hc _ hx n1 n2
  obtain ⟨l, hl⟩ := components_last hq hx n1 n2
  unfold saveAsFits
  rw [if_neg (by rw [not_not]; exact pathSuffix_of (ext := ['f', 'i', 't', 's']) hl hne (by decide) (by decide)), hcx, List.dropLast_concat]
  unfold FileSystem.mkParents
  rw [if_neg]
  · dsimp only
    have ha : absoluteName cwd (q ++ (stem ++ fitsExt)) = pathString (D ++ [stem ++ fitsExt]) := by
      unfold absoluteName
      rw [hcx]
    obtain ⟨a1, a2⟩ := abspath_in hD hx hlen
    have hab : abspath cwd (q ++ (stem ++ fitsExt)) = pathString (resolveDots D ++ [stem ++ fitsExt]) := by
      unfold abspath
      rw [hcx, resolveDots_snoc _ n3]
    obtain ⟨w1, w2, w3, final, w4, w5⟩ := writeMany_ok (l := [(absoluteName cwd (q ++ (stem ++ fitsExt)), limited fixto data)])
      (fs := { fs with dir := fun p => fs.dir p ∨ ∃ a, a <+: resolveDots D ∧ p = pathString a }) (by
        intro p hp
        rw [List.mem_singleton] at hp
        subst hp
        dsimp only
        rw [ha, a2]
        exact Or.inr ⟨_, List.prefix_refl _, rfl⟩)
    rw [fixTo_limited]
    refine ⟨w1, by simp, ⟨final, ?_, ?_⟩, ?_⟩
    · dsimp only
      rw [List.getLast?_cons, w4]
      rfl
    · intro p d hpd
      rw [List.mem_singleton] at hpd
      obtain ⟨rfl, rfl⟩ := Prod.mk.inj hpd
      have := w5 (by simp) _ (List.mem_singleton.2 rfl)
      dsimp only at this
      rw [ha, a1] at this
      rw [hab]
      exact this
    · intro s hs2 q' hq'
      rcases List.mem_cons.1 hs2 with e | e
      · rw [e]
      · refine w2 s e q' ?_
        simp only [List.map_cons, List.map_nil] at hq' ⊢
        rw [ha, a1, ← hab]
        exact hq'
  · rintro ⟨a, h1, h2⟩
    refine h2 (hfree a ?_)
    rw [hcx, resolveDots_snoc _ n3, List.dropLast_concat]
    exact h1

/-! ## Other names -/

/-- C71: `save_all_pol_params_as_fits` and `save_as_fits` reject a name that is not `….fits` before touching anything. -/
theorem C71_rejects {x : Name} {S : Fin 3 → Img ℝ} {data : Img ℝ} {fixto : Option (ℝ × ℝ)} (hq : q = [] ∨ q.getLast? = some '/')
    (hx : '/' ∉ x) (h1 : x ≠ []) (h2 : x ≠ ['.']) (hfits : ¬ ∃ stem, stem ≠ [] ∧ x = stem ++ fitsExt) :
    saveAllParams cwd fs S (q ++ x) = ⟨.error .valueError, [fs]⟩ ∧ saveAsFits cwd fs data fixto (q ++ x) = ⟨.error .valueError, [fs]⟩ := by
  obtain ⟨l, hl⟩ := components_last hq hx h1 h2
  have : pathSuffix (q ++ x) ≠ fitsExt := fun h => hfits (suffix_fits hl h)
  unfold saveAllParams saveAsFits
  rw [if_pos this, if_pos this]
  exact ⟨rfl, rfl⟩

/-- C71: `save_single_pol_images` and `save_param_as_fits` reject such a name without touching a file.  (They may have made a
directory by then: `C71_single_pol_makes_directory`.) -/
theorem C71_rejects_files {x : Name} {S : Fin 3 → Img ℝ} {id : Name} {data : Img ℝ} {dic : AngleDic} {fixto : Option (ℝ × ℝ)}
    (hcwd : ∀ x ∈ cwd, GoodComp x) (hq : q = [] ∨ q.getLast? = some '/')
    (hx : '/' ∉ x) (h1 : x ≠ []) (h2 : x ≠ ['.']) (hfits : ¬ ∃ stem, stem ≠ [] ∧ x = stem ++ fitsExt) :
    ((saveSinglePol cwd fs data dic fixto (q ++ x)).result ≠ .ok () ∧
      ∀ s ∈ (saveSinglePol cwd fs data dic fixto (q ++ x)).states, s.file = fs.file) ∧
    ((saveParam cwd fs S id fixto (q ++ x)).result ≠ .ok () ∧
      ∀ s ∈ (saveParam cwd fs S id fixto (q ++ x)).states, s.file = fs.file) := by
  obtain ⟨D, hD, hc⟩ := comps_dir cwd hcwd hq
  have hcx := hc x hx h1 h2
  have hgood : ∀ y ∈ D ++ [x], y ≠ [] ∧ y ≠ ['.'] ∧ '/' ∉ y := by
    intro y h
    rcases List.mem_append.1 h with h | h
    · exact hD y h
    · rw [List.mem_singleton] at h
      subst h
      exact ⟨h1, h2, hx⟩
  have hsuf : pathSuffix (pathString (D ++ [x])) ≠ fitsExt := fun h => hfits (suffix_fits (components_pathString hgood) h)
  constructor
  · unfold saveSinglePol
    split
    · exact ⟨by simp, by simp⟩
    · cases hm : makeAbsAndCreateDir cwd fs (q ++ x) with
      | error e => exact ⟨by simp, by simp⟩
      | ok r =>
        obtain ⟨path, fs'⟩ := r
        obtain ⟨m1, m2⟩ := makeAbs_file hm
        dsimp only
        rw [m2, hcx, if_pos hsuf]
        refine ⟨by simp, ?_⟩
        intro s hs
        simp only [List.mem_cons, List.not_mem_nil, or_false] at hs
        rcases hs with rfl | rfl
        · rfl
        · exact m1
  · unfold saveParam
    split
    · exact ⟨by simp, by simp⟩
    · cases hm : makeAbsAndCreateDir cwd fs (q ++ x) with
      | error e => exact ⟨by simp, by simp⟩
      | ok r =>
        obtain ⟨path, fs'⟩ := r
        obtain ⟨m1, m2⟩ := makeAbs_file hm
        dsimp only
        rw [m2, hcx, if_pos hsuf]
        refine ⟨by simp, ?_⟩
        intro s hs
        simp only [List.mem_cons, List.not_mem_nil, or_false] at hs
        rcases hs with rfl | rfl
        · rfl
        · exact m1

/-- C71: images that are not demosaiced are not saved; a name without extension is rejected with nothing touched. -/
theorem C71_demosaiced_rejects {x : Name} {im : Fin 4 → Img ℝ} {entries : List (Int × Int)} {fixto : Option (ℝ × ℝ)} :
    saveDemosaiced cwd fs none entries fixto x = ⟨.error .valueError, [fs]⟩ ∧
    ((hq : q = [] ∨ q.getLast? = some '/') → '/' ∉ stem → '.' ∉ stem → stem ≠ [] →
      saveDemosaiced cwd fs (some im) entries fixto (q ++ stem) = ⟨.error .valueError, [fs]⟩) := by
  refine ⟨rfl, ?_⟩
  intro hq hs hd hne
  obtain ⟨l, hl⟩ := components_last hq hs hne (by rintro rfl; simp at hd)
  have : pathSuffix (q ++ stem) = [] := by
    unfold pathSuffix
    rw [hl, List.getLast?_concat]
    dsimp only
    rw [if_pos]
    left
    rw [takeWhile_all, List.length_reverse]
    intro a ha
    simp only [decide_eq_true_eq]
    rintro rfl
    exact hd (List.mem_reverse.1 ha)
  unfold saveDemosaiced
  dsimp only
  rw [if_pos this]

/-! ## Violations -/

/-- C71, violated: `save_single_pol_images` given a name without extension makes a directory of that name before it raises. -/
theorem C71_single_pol_makes_directory {data p0 p45 p90 pm45 : Img ℝ} {dic : AngleDic} {fixto : Option (ℝ × ℝ)}
    (hcwd : ∀ x ∈ cwd, GoodComp x) (hq : q = [] ∨ q.getLast? = some '/') (hs : '/' ∉ stem) (hd : '.' ∉ stem) (hne : stem ≠ [])
    (hparent : fs.dir (dirName cwd (q ++ stem))) (hnew : ¬ fs.there (abspath cwd (q ++ stem)))
    (e0 : polFamily data dic 0 = .ok p0) (e45 : polFamily data dic 45 = .ok p45)
    (e90 : polFamily data dic 90 = .ok p90) (em45 : polFamily data dic (-45) = .ok pm45) :
    let t := saveSinglePol cwd fs data dic fixto (q ++ stem)
    t.result = .error .valueError ∧ ∃ final, t.states.getLast? = some final ∧ final.dir (abspath cwd (q ++ stem)) ∧
      ¬ fs.dir (abspath cwd (q ++ stem)) := by
  intro t
  obtain ⟨D, hD, hc⟩ := comps_dir cwd hcwd hq
  have n2 : stem ≠ ['.'] := by rintro rfl; simp at hd
  have hcx := hc stem hs hne n2
  have hgood : ∀ y ∈ D ++ [stem], y ≠ [] ∧ y ≠ ['.'] ∧ '/' ∉ y := by
    intro y h
    rcases List.mem_append.1 h with h | h
    · exact hD y h
    · rw [List.mem_singleton] at h
      subst h
      exact ⟨hne, n2, hs⟩
  have hsuf : pathSuffix (pathString (D ++ [stem])) = [] := by
    unfold pathSuffix
    rw [components_pathString hgood, List.getLast?_concat]
    dsimp only
    rw [if_pos]
    left
    rw [takeWhile_all, List.length_reverse]
    intro a ha
    simp only [decide_eq_true_eq]
    rintro rfl
    exact hd (List.mem_reverse.1 ha)
  have hm : makeAbsAndCreateDir cwd fs (q ++ stem) = .ok (D ++ [stem],
      { fs with dir := fun p => fs.dir p ∨ p = abspath cwd (q ++ stem) }) := by
    unfold abspath at hnew ⊢
    unfold dirName at hparent
    unfold makeAbsAndCreateDir
    rw [hcx] at hnew hparent ⊢
    dsimp only
    rw [if_neg (by rw [hsuf]; simp), if_neg hnew]
    unfold FileSystem.mkOne
    rw [if_pos hparent, Py.ok_bind]
    rfl
  have ht : t = ⟨.error .valueError, [fs, { fs with dir := fun p => fs.dir p ∨ p = abspath cwd (q ++ stem) }]⟩ := by
    show saveSinglePol cwd fs data dic fixto (q ++ stem) = _
    unfold saveSinglePol
    rw [e0, e45, e90, em45]
    simp only [Py.ok_bind]
    dsimp only [pure, Except.pure]
    rw [hm]
    dsimp only
    rw [hsuf, if_pos (by decide)]
  rw [ht]
  exact ⟨rfl, _, rfl, Or.inr rfl, fun h => hnew (Or.inl h)⟩

/-- C71, violated: the stem `.` is lost: `save_all_pol_params_as_fits("/d/..fits")` writes `/d_I.fits`, …, outside the directory `/d`. -/
theorem C71_dot_stem {S : Fin 3 → Img ℝ} {dolp : Img ℝ} {d : Name} (hg : GoodComp d) (hroot : fs.dir ['/'])
    (hd : fs.dir ('/' :: d)) (hdolp : DoLP S = .ok dolp) :
    let t := saveAllParams cwd fs S (('/' :: d ++ ['/', '.']) ++ fitsExt)
    t.result = .ok () ∧ ∃ final, t.states.getLast? = some final ∧ final.file ('/' :: d ++ ['_', 'I'] ++ fitsExt) = some (.fits (S 0)) ∧
      ∀ x, final.file ('/' :: d ++ '/' :: x) = fs.file ('/' :: d ++ '/' :: x) := by
  intro t
  have hx : '/' ∉ ['.'] ++ fitsExt := by decide
  have hcomp : components (('/' :: d ++ ['/', '.']) ++ fitsExt) = [d] ++ [['.'] ++ fitsExt] := by
    have e : ('/' :: d ++ ['/', '.']) ++ fitsExt = pathString ([d] ++ [['.'] ++ fitsExt]) := by
      simp [pathString, joinChar]
    rw [e, components_pathString]
    intro y hy
    simp only [List.cons_append, List.nil_append, List.mem_cons, List.not_mem_nil, or_false] at hy
    rcases hy with rfl | rfl
    · exact ⟨hg.1, hg.2.1, hg.2.2.2⟩
    · exact ⟨by decide, by decide, by decide⟩
  have hgood : ∀ y ∈ [d] ++ [['.'] ++ '.' :: ['f', 'i', 't', 's']], y ≠ [] ∧ y ≠ ['.'] ∧ '/' ∉ y := by
    intro y hy
    simp only [List.cons_append, List.nil_append, List.mem_cons, List.not_mem_nil, or_false] at hy
    rcases hy with rfl | rfl
    · exact ⟨hg.1, hg.2.1, hg.2.2.2⟩
    · exact ⟨by decide, by decide, by decide⟩
  have habs : absComponents cwd (('/' :: d ++ ['/', '.']) ++ fitsExt) = [d] ++ [['.'] ++ '.' :: ['f', 'i', 't', 's']] := by
    unfold absComponents
    rw [if_pos (by rfl), hcomp]
    rfl
  have hres : resolveDots [d] = [d] := resolveDots_id (by intro y hy; rw [List.mem_singleton] at hy; rw [hy]; exact hg.2.2.1)
  have hm : makeAbsAndCreateDir cwd fs (('/' :: d ++ ['/', '.']) ++ fitsExt) = .ok ([d] ++ [['.'] ++ '.' :: ['f', 'i', 't', 's']], fs) := by
    unfold makeAbsAndCreateDir
    rw [habs]
    dsimp only
    rw [if_pos (by rw [pathSuffix_of (components_pathString hgood) (by decide) (by decide) (by decide)]; decide), List.dropLast_concat, hres,
      if_pos (show fs.there (pathString [d]) from Or.inl hd)]
  have hgroup : groupName ([d] ++ [['.'] ++ '.' :: ['f', 'i', 't', 's']]) = '/' :: d := by
    unfold groupName
    rw [pathStem_of hgood (by decide) (by decide) (by decide), List.dropLast_concat]
    have : components ['.'] = [] := by decide
    rw [this]
    simp [pathString, joinChar]
  have hpath : ∀ e, '/' ∉ e → 3 ≤ (d ++ e).length → abspath [] ('/' :: d ++ e) = '/' :: d ++ e ∧ dirName [] ('/' :: d ++ e) = ['/'] := by
    intro e he hl
    have h0 : '/' :: d ++ e = pathString ([] ++ [d ++ e]) := by simp [pathString, joinChar]
    obtain ⟨a, b⟩ := abspath_in (D := []) (by simp) (x := d ++ e) (by simp [hg.2.2.2, he]) hl
    rw [h0]
    exact ⟨a, b⟩
  obtain ⟨files, hfiles⟩ : ∃ files : List (Name × Img ℝ), files = [(['_'] ++ ['I'] ++ fitsExt, S 0), (['_'] ++ ['Q'] ++ fitsExt, S 1),
    (['_'] ++ ['U'] ++ fitsExt, S 2), (['_'] ++ ['p', 'B'] ++ fitsExt, pB S), (['_'] ++ ['A', 'o', 'L', 'P'] ++ fitsExt, AoLP S),
    (['_'] ++ ['D', 'o', 'L', 'P'] ++ fitsExt, dolp)] := ⟨_, rfl⟩
  have hok : ∀ f ∈ files, '/' ∉ f.1 ∧ 3 ≤ f.1.length := by
    intro f hf
    rw [hfiles] at hf
    simp only [List.mem_cons, List.not_mem_nil, or_false] at hf
    rcases hf with rfl | rfl | rfl | rfl | rfl | rfl <;> exact ⟨by dsimp only; decide, by dsimp only; decide⟩
  have hok2 : ∀ f ∈ files, abspath [] ('/' :: d ++ f.1) = '/' :: d ++ f.1 ∧ dirName [] ('/' :: d ++ f.1) = ['/'] := by
    intro f hf
    exact hpath f.1 (hok f hf).1 (by rw [List.length_append]; have := (hok f hf).2; omega)
  have hnames : ((files.map (fun f => ('/' :: d ++ f.1, f.2))).map (fun p => abspath [] p.1)) = files.map (fun f => '/' :: d ++ f.1) := by
    rw [List.map_map]
    refine List.map_congr_left ?_
    intro f hf
    exact (hok2 f hf).1
  obtain ⟨w1, w2, w3, final, w4, w5⟩ := writeMany_ok (l := files.map (fun f => ('/' :: d ++ f.1, f.2))) (fs := fs) (by
    intro p hp
    obtain ⟨f, hf, rfl⟩ := List.mem_map.1 hp
    rw [(hok2 f hf).2]
    exact hroot)
  have ht : t = ⟨(writeMany fs (files.map (fun f => ('/' :: d ++ f.1, f.2)))).result,
      fs :: (writeMany fs (files.map (fun f => ('/' :: d ++ f.1, f.2)))).states⟩ := by
    show saveAllParams cwd fs S (('/' :: d ++ ['/', '.']) ++ fitsExt) = _
    unfold saveAllParams
    rw [if_neg (by
      rw [not_not]
      exact pathSuffix_of (l := [d]) (stem := ['.']) (ext := ['f', 'i', 't', 's']) hcomp (by decide) (by decide) (by decide)), hm]
    dsimp only
    unfold polparamList
    rw [hdolp, Py.ok_bind]
    dsimp only [pure, Except.pure]
    rw [hgroup, hfiles]
    simp only [List.map_cons, List.map_nil, List.append_assoc]
  rw [ht]
  refine ⟨w1, final, ?_, ?_, ?_⟩
  · dsimp only
    rw [List.getLast?_cons, w4]
    rfl
  · have hnd : (files.map (fun f => '/' :: d ++ f.1)).Nodup := by
      have : (files.map Prod.fst).Nodup := by rw [hfiles]; simp only [List.map_cons, List.map_nil]; decide
      have e : files.map (fun f => '/' :: d ++ f.1) = (files.map Prod.fst).map (fun n => '/' :: d ++ n) := by
        rw [List.map_map]; rfl
      rw [e]
      exact this.map (fun a b h => by simpa using h)
    have h5 := w5 (by rw [hnames]; exact hnd) ('/' :: d ++ (['_'] ++ ['I'] ++ fitsExt), S 0) (List.mem_map.2
      ⟨(['_'] ++ ['I'] ++ fitsExt, S 0), by rw [hfiles]; simp, rfl⟩)
    dsimp only at h5
    rw [(hok2 (['_'] ++ ['I'] ++ fitsExt, S 0) (by rw [hfiles]; simp)).1] at h5
    rw [show '/' :: d ++ ['_', 'I'] ++ fitsExt = '/' :: d ++ (['_'] ++ ['I'] ++ fitsExt) by simp]
    exact h5
  · intro x
    have hmem : final ∈ (writeMany fs (files.map (fun f => ('/' :: d ++ f.1, f.2)))).states := List.mem_of_getLast? w4
    refine w2 final hmem _ ?_
    rw [hnames]
    intro hm2
    obtain ⟨f, hf, e⟩ := List.mem_map.1 hm2
    have e : f.1 = '/' :: x := by simpa using e
    exact (hok f hf).1 (by rw [e]; simp)

/-! ## The hypotheses are met -/

example : FreeWay [['h']] ⟨fun _ => none, fun p => p = ['/']⟩ (['n', '/'] ++ (['x', '.', 'y'] ++ fitsExt)) := fun _ _ => rfl

example : ∀ x ∈ [['h']], GoodComp x := by
  intro x hx
  rw [List.mem_singleton] at hx
  rw [hx]
  refine ⟨by decide, by decide, by decide, by decide⟩

example : ([(90, 3), (0, 0), (-45, 2), (45, 1)] : List (Int × Int)).Perm [((![0, 45, -45, 90] : Fin 4 → Int) 0, 0),
    ((![0, 45, -45, 90] : Fin 4 → Int) 1, 1), ((![0, 45, -45, 90] : Fin 4 → Int) 2, 2), ((![0, 45, -45, 90] : Fin 4 → Int) 3, 3)] := by
  decide

example : Function.Injective (![0, 45, -45, 90] : Fin 4 → Int) := by decide

example : polFamily (Img.const 2 4 (3 : ℝ)) polarCamAngles (-45) = .ok (Img.ofFn 1 2 (fun y x => (Img.const 2 4 (3 : ℝ)).px (2 * y + 1) (2 * x))) := by
  rfl

end

end Micropol
