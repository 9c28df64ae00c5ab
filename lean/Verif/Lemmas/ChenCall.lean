import Verif.Spec.ChenCall
import Verif.Lemmas.Save
import Verif.Lemmas.ChenFolder

/-! # Lemmas for `Props/ChenCall` -/

set_option autoImplicit false

namespace Micropol

/-- A file name that is an ordinary path component. -/
theorem components_slash (p : Name) {n : Name} (hn : GoodComp n) : components (p ++ '/' :: n) = components p ++ [n] := by
  unfold components
  rw [splitChar_append, List.filter_append, splitChar_none hn.2.2.2, List.filter_cons, if_pos, List.filter_nil]
  simp only [decide_eq_true_eq]
  exact ⟨hn.1, hn.2.1⟩

theorem absComponents_slash (cwd : List Name) {p n : Name} (hp : p ≠ []) (hn : GoodComp n) :
    absComponents cwd (p ++ '/' :: n) = absComponents cwd p ++ [n] := by
  unfold absComponents
  rw [components_slash p hn]
  have hh : (p ++ '/' :: n).head? = p.head? := by
    cases p with
    | nil => exact absurd rfl hp
    | cons c p => rfl
  by_cases h : p.head? = some '/'
  · rw [if_pos h, if_pos (hh.trans h)]
  · rw [if_neg h, if_neg (fun h' => h (hh.symm.trans h')), List.append_assoc]

theorem abspath_slash (cwd : List Name) {p n : Name} (hp : p ≠ []) (hn : GoodComp n) :
    abspath cwd (p ++ '/' :: n) = pathString (resolveDots (absComponents cwd p) ++ [n]) ∧
    dirName cwd (p ++ '/' :: n) = pathString (resolveDots (absComponents cwd p)) := by
  unfold abspath dirName
  rw [absComponents_slash cwd hp hn, resolveDots_snoc _ hn.2.2.1, List.dropLast_concat]
  exact ⟨rfl, rfl⟩

theorem chenComps_good (p : Name) : ∀ x ∈ components p, x ≠ [] ∧ x ≠ ['.'] ∧ '/' ∉ x := by
  intro x hx
  unfold components at hx
  rw [List.mem_filter] at hx
  simp only [decide_eq_true_eq] at hx
  exact ⟨hx.2.1, hx.2.2, splitChar_mem x hx.1⟩

theorem chenAbs_good {cwd : List Name} (hcwd : ∀ x ∈ cwd, GoodComp x) (p : Name) :
    ∀ x ∈ absComponents cwd p, x ≠ [] ∧ x ≠ ['.'] ∧ '/' ∉ x := by
  intro x hx
  unfold absComponents at hx
  split_ifs at hx
  · exact chenComps_good p x hx
  · rcases List.mem_append.1 hx with h | h
    · exact ⟨(hcwd x h).1, (hcwd x h).2.1, (hcwd x h).2.2.2⟩
    · exact chenComps_good p x h

theorem absComponents_string {l : List Name} (h : ∀ x ∈ l, x ≠ [] ∧ x ≠ ['.'] ∧ '/' ∉ x) :
    absComponents [] (pathString l) = l := by
  unfold absComponents
  rw [if_pos (show (pathString l).head? = some '/' from rfl), components_pathString h]

/-- Two paths with the same string are equal. -/
theorem pathString_injective {l m : List Name} (hl : ∀ x ∈ l, x ≠ [] ∧ x ≠ ['.'] ∧ '/' ∉ x)
    (hm : ∀ x ∈ m, x ≠ [] ∧ x ≠ ['.'] ∧ '/' ∉ x) (h : pathString l = pathString m) : l = m := by
  rw [← components_pathString hl, h, components_pathString hm]

/-- A name with a suffix does not end in `..`. -/
theorem suffix_last {l : List Name} (hl : ∀ x ∈ l, x ≠ [] ∧ x ≠ ['.'] ∧ '/' ∉ x) (h : pathSuffix (pathString l) ≠ []) :
    ∃ D x, l = D ++ [x] ∧ x ≠ ['.', '.'] := by
  unfold pathSuffix at h
  rw [components_pathString hl] at h
  rcases List.eq_nil_or_concat l with rfl | ⟨D, x, rfl⟩
  · exact absurd rfl h
  · refine ⟨D, x, by simp, ?_⟩
    rintro rfl
    apply h
    simp

theorem calibrationFiles_eq (C : Fin 4 → Fin 4 → Img ℝ) (d : Img ℝ) : calibrationFiles C d = chenWrites C d := by
  unfold calibrationFiles chenWrites
  simp [List.finRange_succ, matrixFile_eq, offsetFile_eq]

theorem calibrationFiles_good {C : Fin 4 → Fin 4 → Img ℝ} {d : Img ℝ} {e : Name × Img ℝ} (he : e ∈ chenWrites C d) : GoodComp e.1 := by
  have : e.1 ∈ (chenWrites C d).map Prod.fst := List.mem_map.2 ⟨e, he, rfl⟩
  rw [chenWrites_names] at this
  simp only [List.mem_cons, List.not_mem_nil, or_false] at this
  rcases this with h | h | h | h | h | h | h | h | h | h | h | h | h | h | h | h | h <;> rw [h] <;> unfold GoodComp <;> decide

variable {cwd : List Name} {fs fs' : FileSystem} {dir : Name} {path : List Name} {C : Fin 4 → Fin 4 → Img ℝ} {d : Img ℝ}

/-- The seventeen writes to a folder that is there. -/
theorem chen_written (hcwd : ∀ x ∈ cwd, GoodComp x) (hdir : dir ≠ []) (hfile : fs'.file = fs.file)
    (h : fs'.dir (abspath cwd dir)) :
    SavedExactly fs ⟨(writeMany fs' ((chenWrites C d).map fun e => (pathString (absComponents cwd dir) ++ '/' :: e.1, e.2))).result,
      fs :: (writeMany fs' ((chenWrites C d).map fun e => (pathString (absComponents cwd dir) ++ '/' :: e.1, e.2))).states⟩
      ((calibrationFiles C d).map fun e => (fileIn cwd dir e.1, e.2)) := by
  have hgood := chenAbs_good hcwd dir
  have hne : pathString (absComponents cwd dir) ≠ [] := by unfold pathString; simp
  have key : ∀ e ∈ chenWrites C d, abspath [] (pathString (absComponents cwd dir) ++ '/' :: e.1) = fileIn cwd dir e.1 ∧
      dirName [] (pathString (absComponents cwd dir) ++ '/' :: e.1) = abspath cwd dir := by
    intro e he
    have hg := calibrationFiles_good he
    obtain ⟨a1, a2⟩ := abspath_slash [] hne hg
    rw [absComponents_string hgood] at a1 a2
    refine ⟨?_, a2⟩
    unfold fileIn
    rw [a1, (abspath_slash cwd hdir hg).1]
  have hd' : ∀ p ∈ (chenWrites C d).map fun e => (pathString (absComponents cwd dir) ++ '/' :: e.1, e.2), fs'.dir (dirName [] p.1) := by
    intro p hp
    obtain ⟨e, he, rfl⟩ := List.mem_map.1 hp
    dsimp only
    rw [(key e he).2]
    exact h
  obtain ⟨w1, w2, w3, final, w4, w5⟩ := writeMany_ok hd'
  have hnames : ((chenWrites C d).map fun e => (pathString (absComponents cwd dir) ++ '/' :: e.1, e.2)).map (fun p => abspath [] p.1) =
      ((calibrationFiles C d).map fun e => (fileIn cwd dir e.1, e.2)).map Prod.fst := by
    rw [calibrationFiles_eq, List.map_map, List.map_map]
    exact List.map_congr_left fun e he => (key e he).1
  have hnd : (((calibrationFiles C d).map fun e => (fileIn cwd dir e.1, e.2)).map Prod.fst).Nodup := by
    rw [calibrationFiles_eq, List.map_map]
    refine List.Nodup.map_on ?_ (List.Nodup.of_map _ (chenWrites_nodup C d))
    intro a ha b hb hab
    have hab : fileIn cwd dir a.1 = fileIn cwd dir b.1 := hab
    unfold fileIn at hab
    rw [(abspath_slash cwd hdir (calibrationFiles_good ha)).1, (abspath_slash cwd hdir (calibrationFiles_good hb)).1] at hab
    exact List.inj_on_of_nodup_map (chenWrites_nodup C d) ha hb (pathString_inj hab)
  refine ⟨w1, hnd, ⟨final, ?_, ?_⟩, ?_⟩
  · dsimp only
    rw [List.getLast?_cons, w4]
    rfl
  · intro p v hpv
    obtain ⟨e, he, h'⟩ := List.mem_map.1 hpv
    obtain ⟨rfl, rfl⟩ := Prod.mk.inj h'
    rw [calibrationFiles_eq] at he
    have := w5 (by rw [hnames]; exact hnd) _ (List.mem_map.2 ⟨e, he, rfl⟩)
    dsimp only at this
    rw [(key e he).1] at this
    exact this
  · intro s hs q hq
    rcases List.mem_cons.1 hs with h' | h'
    · rw [h']
    · rw [w2 s h' q (by rw [hnames]; exact hq), hfile]

/-- The first write to a folder that is not there. -/
theorem chen_refused (hcwd : ∀ x ∈ cwd, GoodComp x) (h : ¬ fs'.dir (abspath cwd dir)) :
    writeMany fs' ((chenWrites C d).map fun e => (pathString (absComponents cwd dir) ++ '/' :: e.1, e.2)) =
      ⟨.error .fileNotFoundError, [fs']⟩ := by
  have hgood := chenAbs_good hcwd dir
  have hne : pathString (absComponents cwd dir) ≠ [] := by unfold pathString; simp
  have hg : GoodComp (cName 0 0) := calibrationFiles_good (C := C) (d := d) (e := (cName 0 0, C 0 0)) (by unfold chenWrites; simp)
  have a2 := (abspath_slash [] hne hg).2
  rw [absComponents_string hgood] at a2
  unfold chenWrites
  rw [List.map_cons, writeMany]
  unfold writeFits
  rw [if_neg (by rw [a2]; exact h)]

/-- When the folder is there in the end. -/
theorem makeAbs_folder (hcwd : ∀ x ∈ cwd, GoodComp x) (hw : Rooted fs) (h : IsFolder cwd fs dir ∨ CanBeMade cwd fs dir) :
    ∃ fs', makeAbsAndCreateDir cwd fs dir = .ok (absComponents cwd dir, fs') ∧ fs'.file = fs.file ∧ fs'.dir (abspath cwd dir) := by
  have hgood := chenAbs_good hcwd dir
  unfold makeAbsAndCreateDir
  dsimp only
  rcases h with h | ⟨h1, h2, h3, h4⟩
  · by_cases hs : pathSuffix (pathString (absComponents cwd dir)) = []
    · rw [if_neg (not_not.2 hs), if_pos (show fs.there (pathString (resolveDots (absComponents cwd dir))) from Or.inl h)]
      exact ⟨fs, rfl, rfl, h⟩
    · rw [if_pos hs, if_pos]
      · exact ⟨fs, rfl, rfl, h⟩
      · obtain ⟨D, x, hD, hx⟩ := suffix_last hgood hs
        have h' := h
        unfold IsFolder abspath at h'
        rw [hD, resolveDots_snoc _ hx] at h'
        have := hw _ h'
        rw [List.dropLast_concat] at this
        rw [hD, List.dropLast_concat]
        exact Or.inl this
  · have h4' : pathSuffix (pathString (absComponents cwd dir)) = [] := h4
    rw [if_neg (not_not.2 h4'), if_neg]
    · unfold FileSystem.mkOne
      rw [if_pos (show fs.dir (pathString (resolveDots (absComponents cwd dir)).dropLast) from h3), Py.ok_bind]
      exact ⟨_, rfl, rfl, Or.inr rfl⟩
    · rintro (h | h)
      · exact h1 h
      · exact h h2

/-- When it is not. -/
theorem makeAbs_nofolder (hcwd : ∀ x ∈ cwd, GoodComp x) (h : ¬ (IsFolder cwd fs dir ∨ CanBeMade cwd fs dir)) :
    makeAbsAndCreateDir cwd fs dir = .error .fileNotFoundError ∨
    ∃ fs', makeAbsAndCreateDir cwd fs dir = .ok (absComponents cwd dir, fs') ∧ fs'.file = fs.file ∧ ¬ fs'.dir (abspath cwd dir) := by
  have hgood := chenAbs_good hcwd dir
  rw [not_or] at h
  obtain ⟨h1, h2⟩ := h
  unfold makeAbsAndCreateDir
  dsimp only
  by_cases hs : pathSuffix (pathString (absComponents cwd dir)) = []
  · rw [if_neg (not_not.2 hs)]
    by_cases ht : fs.there (pathString (resolveDots (absComponents cwd dir)))
    · rw [if_pos ht]
      exact Or.inr ⟨fs, rfl, rfl, h1⟩
    · rw [if_neg ht]
      unfold FileSystem.mkOne
      rw [if_neg]
      · exact Or.inl rfl
      · intro hp
        apply h2
        refine ⟨h1, ?_, hp, hs⟩
        by_contra hc
        exact ht (Or.inr hc)
  · rw [if_pos hs]
    obtain ⟨D, x, hD, hx⟩ := suffix_last hgood hs
    by_cases ht : fs.there (pathString (resolveDots (absComponents cwd dir).dropLast))
    · rw [if_pos ht]
      exact Or.inr ⟨fs, rfl, rfl, h1⟩
    · rw [if_neg ht]
      unfold FileSystem.mkParents
      split_ifs
      · exact Or.inl rfl
      · rw [Py.ok_bind]
        refine Or.inr ⟨_, rfl, rfl, ?_⟩
        rintro (h | ⟨a, ha, he⟩)
        · exact h1 h
        · rw [hD, List.dropLast_concat] at ha
          unfold abspath at he
          rw [hD, resolveDots_snoc _ hx] at he
          have hgr : ∀ y ∈ resolveDots D ++ [x], y ≠ [] ∧ y ≠ ['.'] ∧ '/' ∉ y := by
            intro y hy
            apply hgood
            rw [hD]
            rcases List.mem_append.1 hy with hy | hy
            · exact List.mem_append.2 (Or.inl (resolveDots_mem hy).1)
            · exact List.mem_append.2 (Or.inr hy)
          have hga : ∀ y ∈ a, y ≠ [] ∧ y ≠ ['.'] ∧ '/' ∉ y := fun y hy => hgr y (List.mem_append.2 (Or.inl (ha.subset hy)))
          have := pathString_injective hgr hga he
          have hl := ha.length_le
          rw [← this] at hl
          simp at hl

end Micropol
