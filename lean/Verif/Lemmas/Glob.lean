import Verif.Spec.Glob
import Verif.Lemmas.ChenCall
import Verif.Props.Folder

/-! # Lemmas for `Props/Glob` -/

set_option autoImplicit false

namespace Micropol

variable {cwd : List Name} {fs fs' : FileSystem} {dir : Name} {o : CalibOutput ℝ}

/-- Writing files makes no directories. -/
theorem writeMany_dir (l : List (Name × Img ℝ)) : ∀ (fs : FileSystem), ∀ s ∈ (writeMany fs l).states, s.dir = fs.dir := by
  induction l with
  | nil =>
    intro fs s hs
    simp only [writeMany, List.mem_singleton] at hs
    rw [hs]
  | cons pd l ih =>
    obtain ⟨p, d⟩ := pd
    intro fs s hs
    rw [writeMany] at hs
    unfold writeFits at hs
    split_ifs at hs
    · simp only [List.dropLast, List.cons_append, List.nil_append, List.mem_cons] at hs
      rcases hs with rfl | rfl | rfl | hs
      · rfl
      · rfl
      · rfl
      · exact (ih _ s hs).trans rfl
    · rw [List.mem_singleton.1 hs]

theorem tensorFiles_nodup : ((tensorFiles o).map Prod.fst).Nodup := by
  have : (tensorFiles o).map Prod.fst = ((List.finRange 3).flatMap fun i : Fin 3 => (List.finRange 4).map fun j : Fin 4 =>
      ('M' :: digitChar i :: digitChar j :: ".fits".toList)) ++ ["transmittancies.fits".toList, "efficiences.fits".toList,
      "phases.fits".toList, "fit_found_flag.fits".toList] := by
    unfold tensorFiles
    simp [List.finRange_succ]
  rw [this]
  decide

theorem tensorCovFiles_nodup : ((tensorCovFiles o).map Prod.fst).Nodup := by
  have : (tensorCovFiles o).map Prod.fst = ((List.finRange 3).flatMap fun i : Fin 3 => (List.finRange 3).map fun j : Fin 3 =>
      ('C' :: digitChar i :: digitChar j :: ".fits".toList)) ++ ["reduced_chisquare.fits".toList] := by
    unfold tensorCovFiles
    simp [List.finRange_succ]
  rw [this]
  decide

theorem tensorFiles_top : tensorFiles o = topWrites (saveOps o) := by
  unfold tensorFiles topWrites saveOps
  simp [List.finRange_succ]
  refine ⟨?_, ?_, ?_, ?_, ?_, ?_, ?_, ?_, ?_, ?_, ?_, ?_, ?_, ?_, ?_, ?_⟩ <;> rfl

theorem tensorCovFiles_cov : tensorCovFiles o = covWrites (saveOps o) := by
  unfold tensorCovFiles covWrites saveOps
  simp [List.finRange_succ]
  refine ⟨?_, ?_, ?_, ?_, ?_, ?_, ?_, ?_, ?_, ?_⟩ <;> rfl

theorem tensorFiles_good {e : Name × Img ℝ} (he : e ∈ tensorFiles o) : GoodComp e.1 ∧ isFits e.1 = true ∧ e.1 ≠ covFolder := by
  have h : e.1 ∈ (tensorFiles o).map Prod.fst := List.mem_map.2 ⟨e, he, rfl⟩
  rw [show (tensorFiles o).map Prod.fst = ((List.finRange 3).flatMap fun i : Fin 3 => (List.finRange 4).map fun j : Fin 4 =>
      ('M' :: digitChar i :: digitChar j :: ".fits".toList)) ++ ["transmittancies.fits".toList, "efficiences.fits".toList,
      "phases.fits".toList, "fit_found_flag.fits".toList] by unfold tensorFiles; simp [List.finRange_succ]] at h
  have key : ∀ n ∈ ((List.finRange 3).flatMap fun i : Fin 3 => (List.finRange 4).map fun j : Fin 4 =>
      ('M' :: digitChar i :: digitChar j :: ".fits".toList)) ++ ["transmittancies.fits".toList, "efficiences.fits".toList,
      "phases.fits".toList, "fit_found_flag.fits".toList],
      (n ≠ [] ∧ n ≠ ['.'] ∧ n ≠ ['.', '.'] ∧ '/' ∉ n) ∧ isFits n = true ∧ n ≠ covFolder := by decide
  exact key _ h

theorem tensorCovFiles_good {e : Name × Img ℝ} (he : e ∈ tensorCovFiles o) : GoodComp e.1 := by
  have h : e.1 ∈ (tensorCovFiles o).map Prod.fst := List.mem_map.2 ⟨e, he, rfl⟩
  rw [show (tensorCovFiles o).map Prod.fst = ((List.finRange 3).flatMap fun i : Fin 3 => (List.finRange 3).map fun j : Fin 3 =>
      ('C' :: digitChar i :: digitChar j :: ".fits".toList)) ++ ["reduced_chisquare.fits".toList] by
        unfold tensorCovFiles; simp [List.finRange_succ]] at h
  have key : ∀ n ∈ ((List.finRange 3).flatMap fun i : Fin 3 => (List.finRange 3).map fun j : Fin 3 =>
      ('C' :: digitChar i :: digitChar j :: ".fits".toList)) ++ ["reduced_chisquare.fits".toList],
      (n ≠ [] ∧ n ≠ ['.'] ∧ n ≠ ['.', '.'] ∧ '/' ∉ n) := by decide
  exact key _ h

theorem covFolder_good : GoodComp covFolder := by unfold GoodComp; decide

/-- All the files that are written, before and after the subfolder is made. -/
theorem writes_perm (out : Name) : (tensorWrites o out ++ laterWrites o out).Perm
    (((tensorFiles o).map fun e => (out ++ '/' :: e.1, e.2)) ++
      (tensorCovFiles o).map fun e => (out ++ '/' :: covFolder ++ '/' :: e.1, e.2)) := by
  have key : ∀ l : List (FileOp ℝ), (l.filterMap fun
      | .top n d => some (out ++ '/' :: n, d)
      | .cov n d => some (out ++ '/' :: covFolder ++ '/' :: n, d)
      | _ => none).Perm (((topWrites l).map fun e => (out ++ '/' :: e.1, e.2)) ++
      (covWrites l).map fun e => (out ++ '/' :: covFolder ++ '/' :: e.1, e.2)) := by
    intro l
    induction l with
    | nil => exact List.Perm.refl _
    | cons a l ih =>
      cases a with
      | top n d => exact ih.cons _
      | mkCov => exact ih
      | cov n d => exact (ih.cons _).trans List.perm_middle.symm
  rw [tensorFiles_top, tensorCovFiles_cov]
  have h2 := key (saveOps o)
  have h1 : tensorWrites o out ++ laterWrites o out = (saveOps o).filterMap fun
      | .top n d => some (out ++ '/' :: n, d)
      | .cov n d => some (out ++ '/' :: covFolder ++ '/' :: n, d)
      | _ => none := rfl
  rw [h1]
  exact h2

theorem tensorWrites_names {out : Name} {e : Name × Img ℝ} (he : e ∈ tensorWrites o out) :
    ∃ e' ∈ tensorFiles o, e = (out ++ '/' :: e'.1, e'.2) := by
  rw [tensorFiles_top]
  unfold tensorWrites at he
  obtain ⟨x, hx, h⟩ := List.mem_filterMap.1 he
  have hx' := List.mem_of_mem_take hx
  cases x with
  | top n d =>
    refine ⟨(n, d), ?_, (Option.some.inj h).symm⟩
    unfold topWrites
    exact List.mem_filterMap.2 ⟨_, hx', rfl⟩
  | mkCov => cases h
  | cov n d => cases h

theorem covPath : "/covariance_tensor".toList = '/' :: covFolder := rfl

/-- The files by their paths. -/
theorem writes_paths (hcwd : ∀ x ∈ cwd, GoodComp x) (hdir : dir ≠ []) :
    ((tensorWrites o (absoluteName cwd dir) ++ laterWrites o (absoluteName cwd dir)).map fun e => (abspath [] e.1, e.2)).Perm
      (diskFiles cwd dir o) := by
  have hgood := chenAbs_good hcwd dir
  have hne : absoluteName cwd dir ≠ [] := by unfold absoluteName pathString; simp
  have habs : absComponents [] (absoluteName cwd dir) = absComponents cwd dir := absComponents_string hgood
  refine ((writes_perm (absoluteName cwd dir)).map _).trans ?_
  unfold diskFiles
  rw [List.map_append, List.map_map, List.map_map]
  refine List.Perm.of_eq (congrArg₂ _ (List.map_congr_left ?_) (List.map_congr_left ?_))
  · intro e he
    have hg := (tensorFiles_good he).1
    show (abspath [] (absoluteName cwd dir ++ '/' :: e.1), e.2) = _
    unfold fileIn
    rw [(abspath_slash [] hne hg).1, habs, (abspath_slash cwd hdir hg).1]
  · intro e he
    have hg := tensorCovFiles_good he
    show (abspath [] (absoluteName cwd dir ++ '/' :: covFolder ++ '/' :: e.1), e.2) = _
    unfold fileIn
    rw [covPath, (abspath_slash [] (by simp) hg).1, (abspath_slash cwd (by simp) hg).1, absComponents_slash [] hne covFolder_good,
      habs, absComponents_slash cwd hdir covFolder_good]

theorem diskFiles_nodup (hdir : dir ≠ []) : ((diskFiles cwd dir o).map Prod.fst).Nodup := by
  have h2 : ∀ e ∈ tensorCovFiles o, fileIn cwd (dir ++ "/covariance_tensor".toList) e.1 =
      pathString ((resolveDots (absComponents cwd dir) ++ [covFolder]) ++ [e.1]) := by
    intro e he
    unfold fileIn
    rw [covPath, (abspath_slash cwd (by simp) (tensorCovFiles_good he)).1, absComponents_slash cwd hdir covFolder_good,
      resolveDots_snoc _ covFolder_good.2.2.1]
  have h1 : ∀ e ∈ tensorFiles o, fileIn cwd dir e.1 = pathString (resolveDots (absComponents cwd dir) ++ [e.1]) := by
    intro e he
    exact (abspath_slash cwd hdir (tensorFiles_good he).1).1
  unfold diskFiles
  rw [List.map_append, List.map_map, List.map_map, List.nodup_append]
  refine ⟨?_, ?_, ?_⟩
  · refine List.Nodup.map_on ?_ (List.Nodup.of_map _ tensorFiles_nodup)
    intro a ha b hb hab
    have hab : fileIn cwd dir a.1 = fileIn cwd dir b.1 := hab
    rw [h1 a ha, h1 b hb] at hab
    exact List.inj_on_of_nodup_map tensorFiles_nodup ha hb (pathString_inj hab)
  · refine List.Nodup.map_on ?_ (List.Nodup.of_map _ tensorCovFiles_nodup)
    intro a ha b hb hab
    have hab : fileIn cwd (dir ++ "/covariance_tensor".toList) a.1 = fileIn cwd (dir ++ "/covariance_tensor".toList) b.1 := hab
    rw [h2 a ha, h2 b hb] at hab
    exact List.inj_on_of_nodup_map tensorCovFiles_nodup ha hb (pathString_inj hab)
  · intro p hp q hq hpq
    obtain ⟨a, ha, rfl⟩ := List.mem_map.1 hp
    obtain ⟨b, hb, rfl⟩ := List.mem_map.1 hq
    have hpq : fileIn cwd dir a.1 = fileIn cwd (dir ++ "/covariance_tensor".toList) b.1 := hpq
    rw [h1 a ha, h2 b hb, List.append_assoc] at hpq
    obtain ⟨l, hl⟩ : ∃ l, l = resolveDots (absComponents cwd dir) := ⟨_, rfl⟩
    rw [← hl] at hpq
    unfold pathString at hpq
    have hs := (tensorFiles_good ha).1.2.2.2
    have key : ∀ l : List Name, joinChar '/' (l ++ [a.1]) = joinChar '/' (l ++ ([covFolder] ++ [b.1])) → '/' ∈ a.1 := by
      intro l h
      by_cases hl : l = []
      · subst hl
        have : a.1 = covFolder ++ '/' :: b.1 := h
        rw [this]
        simp
      · rw [joinChar_append hl, ← List.append_assoc, joinChar_append (by simp), joinChar_append hl] at h
        simp only [List.append_assoc, List.append_cancel_left_eq, List.cons_append, List.cons.injEq, true_and] at h
        rw [h]
        simp
    exact hs (key l (by simpa using hpq))

/-- Saving to a folder that is there. -/
theorem saveTensor_ok (hcwd : ∀ x ∈ cwd, GoodComp x) (hdir : dir ≠ []) (hfile : fs'.file = fs.file) (hd : fs'.dir (abspath cwd dir))
    (hway : OpenWay cwd fs dir) :
    SavedExactly fs ⟨(saveTensorAt fs' (absoluteName cwd dir) o).result, fs :: (saveTensorAt fs' (absoluteName cwd dir) o).states⟩
      (diskFiles cwd dir o) := by
  have hgood := chenAbs_good hcwd dir
  have hne : absoluteName cwd dir ≠ [] := by unfold absoluteName pathString; simp
  have habs : absComponents [] (absoluteName cwd dir) = absComponents cwd dir := absComponents_string hgood
  obtain ⟨T, hT⟩ : ∃ T, T = tensorWrites o (absoluteName cwd dir) := ⟨_, rfl⟩
  obtain ⟨L, hL⟩ : ∃ L, L = laterWrites o (absoluteName cwd dir) := ⟨_, rfl⟩
  have hperm := writes_paths (o := o) hcwd hdir
  have hnd := diskFiles_nodup (cwd := cwd) (o := o) hdir
  have hnd' := ((hperm.map Prod.fst).nodup_iff).2 hnd
  rw [← hT, ← hL] at hperm hnd'
  rw [List.map_map, List.map_append, List.nodup_append] at hnd'
  obtain ⟨n1, n2, n3⟩ := hnd'
  have n1 : (T.map fun p => abspath [] p.1).Nodup := n1
  have n2 : (L.map fun p => abspath [] p.1).Nodup := n2
  have hdT : ∀ p ∈ T, fs'.dir (dirName [] p.1) := by
    intro p hp
    rw [hT] at hp
    obtain ⟨e, he, rfl⟩ := tensorWrites_names hp
    dsimp only
    rw [(abspath_slash [] hne (tensorFiles_good he).1).2, habs]
    exact hd
  obtain ⟨w1, w2, w3, f1, w4, w5⟩ := writeMany_ok hdT
  have hf1 : f1 ∈ (writeMany fs' T).states := List.mem_of_getLast? w4
  have hcov : resolveDots (absComponents [] (absoluteName cwd dir ++ '/' :: covFolder)) =
      resolveDots (absComponents cwd dir) ++ [covFolder] := by
    rw [absComponents_slash [] hne covFolder_good, habs, resolveDots_snoc _ covFolder_good.2.2.1]
  have hfree : ¬ ∃ a, a <+: resolveDots (absComponents cwd dir) ++ [covFolder] ∧ f1.file (pathString a) ≠ none := by
    rintro ⟨b, hb, hne'⟩
    apply hne'
    rw [w2 f1 hf1, hfile]
    · apply hway
      rw [covPath, absComponents_slash cwd hdir covFolder_good, resolveDots_snoc _ covFolder_good.2.2.1]
      exact hb
    · intro hm
      obtain ⟨p, hp, hpe⟩ := List.mem_map.1 hm
      rw [hT] at hp
      obtain ⟨e, he, rfl⟩ := tensorWrites_names hp
      have hg := tensorFiles_good he
      dsimp only at hpe
      rw [(abspath_slash [] hne hg.1).1, habs] at hpe
      have g1 : ∀ x ∈ resolveDots (absComponents cwd dir), x ≠ [] ∧ x ≠ ['.'] ∧ '/' ∉ x :=
        fun x hx => hgood x (resolveDots_mem hx).1
      have g2 : ∀ n : Name, GoodComp n → ∀ x ∈ resolveDots (absComponents cwd dir) ++ [n], x ≠ [] ∧ x ≠ ['.'] ∧ '/' ∉ x := by
        intro n hn x hx
        rcases List.mem_append.1 hx with hx | hx
        · exact g1 x hx
        · rw [List.mem_singleton.1 hx]; exact ⟨hn.1, hn.2.1, hn.2.2.2⟩
      have := pathString_injective (g2 _ hg.1) (fun x hx => g2 _ covFolder_good x (hb.subset hx)) hpe
      rw [← this] at hb
      have := hb.eq_of_length (by simp)
      exact hg.2.2 (by simpa using this)
  let dir2 : Name → Prop := fun q => f1.dir q ∨ ∃ a, a <+: resolveDots (absComponents cwd dir) ++ [covFolder] ∧ q = pathString a
  have hrun : saveTensorAt fs' (absoluteName cwd dir) o = ⟨(writeMany { f1 with dir := dir2 } L).result,
      (writeMany fs' T).states ++ (writeMany { f1 with dir := dir2 } L).states⟩ := by
    unfold saveTensorAt
    dsimp only
    rw [← hT, ← hL, w1]
    dsimp only
    have : (writeMany fs' T).states.getLastD fs' = f1 := by
      rw [List.getLastD_eq_getLast?, w4]
      rfl
    rw [this, hcov]
    unfold FileSystem.mkParents
    rw [if_neg hfree]
  obtain ⟨f2, hf2⟩ : ∃ f2 : FileSystem, f2 = { f1 with dir := dir2 } := ⟨_, rfl⟩
  rw [← hf2] at hrun
  have hf2file : f2.file = f1.file := by rw [hf2]
  have hdL : ∀ p ∈ L, f2.dir (dirName [] p.1) := by
    intro p hp
    have : p ∈ tensorWrites o (absoluteName cwd dir) ++ laterWrites o (absoluteName cwd dir) :=
      List.mem_append.2 (Or.inr (by rw [← hL]; exact hp))
    rw [(writes_perm (absoluteName cwd dir)).mem_iff] at this
    rw [hf2]
    rcases List.mem_append.1 this with h | h
    · obtain ⟨e, he, rfl⟩ := List.mem_map.1 h
      left
      dsimp only
      rw [(abspath_slash [] hne (tensorFiles_good he).1).2, habs, writeMany_dir T fs' f1 hf1]
      exact hd
    · obtain ⟨e, he, rfl⟩ := List.mem_map.1 h
      right
      refine ⟨_, List.prefix_refl _, ?_⟩
      dsimp only
      rw [(abspath_slash [] (by simp) (tensorCovFiles_good he)).2, hcov]
  obtain ⟨v1, v2, v3, f3, v4, v5⟩ := writeMany_ok hdL
  rw [hrun]
  have hmemPath : ∀ q, q ∉ (diskFiles cwd dir o).map Prod.fst → q ∉ (T.map fun p => abspath [] p.1) ∧ q ∉ (L.map fun p => abspath [] p.1) := by
    intro q hq
    rw [← (hperm.map Prod.fst).mem_iff, List.map_map, List.map_append, List.mem_append, not_or] at hq
    exact hq
  refine ⟨v1, hnd, ⟨f3, ?_, ?_⟩, ?_⟩
  · dsimp only
    rw [List.getLast?_cons, List.getLast?_append, v4]
    rfl
  · intro p v hpv
    rw [← hperm.mem_iff] at hpv
    obtain ⟨e, he, heq⟩ := List.mem_map.1 hpv
    obtain ⟨rfl, rfl⟩ := Prod.mk.inj heq
    rcases List.mem_append.1 he with h | h
    · rw [v2 f3 (List.mem_of_getLast? v4), hf2file]
      · exact w5 n1 e h
      · intro hm
        exact n3 _ (List.mem_map.2 ⟨e, h, rfl⟩) _ hm rfl
    · exact v5 n2 e h
  · intro s hs q hq
    obtain ⟨q1, q2⟩ := hmemPath q hq
    rcases List.mem_cons.1 hs with h | h
    · rw [h]
    · rcases List.mem_append.1 h with h | h
      · rw [w2 s h q q1, hfile]
      · rw [v2 s h q q2, hf2file, w2 f1 hf1 q q1, hfile]

end Micropol
