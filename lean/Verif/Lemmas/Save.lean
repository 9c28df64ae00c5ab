import Verif.Spec.Save
import Verif.Lemmas.ConvertPath
import Mathlib.Data.Nat.Digits.Lemmas
import Mathlib.Tactic.IntervalCases

/-!
# Facts about saving
-/

set_option autoImplicit false

namespace Micropol

noncomputable section

/-- The last component of the name is `x`; the directory does not depend on `x`. -/
theorem comps_dir (cwd : List Name) {q : Name} (hcwd : ∀ x ∈ cwd, GoodComp x) (hq : q = [] ∨ q.getLast? = some '/') :
    ∃ D : List Name, (∀ y ∈ D, y ≠ [] ∧ y ≠ ['.'] ∧ '/' ∉ y) ∧ ∀ x, '/' ∉ x → x ≠ [] → x ≠ ['.'] →
      absComponents cwd (q ++ x) = D ++ [x] := by
  have hf : ∀ x : Name, x ≠ [] → x ≠ ['.'] → [x].filter (fun x => x ≠ [] ∧ x ≠ ['.']) = [x] := by
    intro x h1 h2
    simp only [List.filter_cons, List.filter_nil]
    rw [if_pos (by simp only [decide_eq_true_eq]; exact ⟨h1, h2⟩)]
  rcases hq with rfl | hq
  · refine ⟨cwd, fun y hy => ⟨(hcwd y hy).1, (hcwd y hy).2.1, (hcwd y hy).2.2.2⟩, ?_⟩
    intro x hx h1 h2
    unfold absComponents components
    rw [List.nil_append, splitChar_none hx, hf x h1 h2, if_neg]
    intro h
    exact hx (List.mem_of_mem_head? h)
  · obtain ⟨r, rfl⟩ := List.getLast?_eq_some_iff.1 hq
    have hc : ∀ y ∈ components r, y ≠ [] ∧ y ≠ ['.'] ∧ '/' ∉ y := by
      intro y hy
      unfold components at hy
      rw [List.mem_filter] at hy
      simp only [decide_eq_true_eq] at hy
      exact ⟨hy.2.1, hy.2.2, splitChar_mem y hy.1⟩
    have key : ∀ x, '/' ∉ x → x ≠ [] → x ≠ ['.'] → components (r ++ ['/'] ++ x) = components r ++ [x] := by
      intro x hx h1 h2
      unfold components
      rw [show r ++ ['/'] ++ x = r ++ '/' :: x by simp, splitChar_append, splitChar_none hx, List.filter_append, hf x h1 h2]
    by_cases hh : (r ++ ['/']).head? = some '/'
    · refine ⟨components r, hc, ?_⟩
      intro x hx h1 h2
      unfold absComponents
      rw [key x hx h1 h2, if_pos]
      cases r with
      | nil => rfl
      | cons a r => simpa using hh
    · refine ⟨cwd ++ components r, ?_, ?_⟩
      · intro y hy
        rcases List.mem_append.1 hy with h | h
        · exact ⟨(hcwd y h).1, (hcwd y h).2.1, (hcwd y h).2.2.2⟩
        · exact hc y h
      · intro x hx h1 h2
        unfold absComponents
        rw [key x hx h1 h2, if_neg, List.append_assoc]
        cases r with
        | nil => simp at hh
        | cons a r => simpa using hh

theorem components_pathString {l : List Name} (h : ∀ x ∈ l, x ≠ [] ∧ x ≠ ['.'] ∧ '/' ∉ x) : components (pathString l) = l := by
  unfold components pathString
  rw [splitChar, if_pos rfl, List.filter_cons, if_neg (by simp)]
  by_cases hl : l = []
  · subst hl
    rfl
  · rw [splitChar_join hl fun x hx => (h x hx).2.2, List.filter_eq_self]
    intro x hx
    simp only [decide_eq_true_eq]
    exact ⟨(h x hx).1, (h x hx).2.1⟩

/-- The suffix of a last component `stem.ext`. -/
theorem pathSuffix_of {p : Name} {l : List Name} {stem ext : Name} (hp : components p = l ++ [stem ++ '.' :: ext]) (hs : stem ≠ [])
    (he : ext ≠ []) (hd : '.' ∉ ext) : pathSuffix p = '.' :: ext := by
  unfold pathSuffix
  rw [hp, List.getLast?_concat]
  dsimp only
  have ht : (stem ++ '.' :: ext).reverse.takeWhile (fun c => c ≠ '.') = ext.reverse := by
    rw [List.reverse_append, List.reverse_cons, List.append_assoc, List.takeWhile_append_of_pos]
    · simp
    · intro a ha
      simp only [decide_eq_true_eq]
      intro e
      exact hd (e ▸ List.mem_reverse.1 ha)
  rw [ht, if_neg, List.reverse_reverse]
  simp only [List.length_append, List.length_cons, List.length_reverse, List.reverse_eq_nil_iff]
  have : 0 < stem.length := List.length_pos_of_ne_nil hs
  have := List.length_pos_of_ne_nil he
  rintro (h | h | h)
  · omega
  · exact he h
  · omega

theorem pathStem_of {l : List Name} {stem ext : Name} (hl : ∀ x ∈ l ++ [stem ++ '.' :: ext], x ≠ [] ∧ x ≠ ['.'] ∧ '/' ∉ x)
    (hs : stem ≠ []) (he : ext ≠ []) (hd : '.' ∉ ext) : pathStem (l ++ [stem ++ '.' :: ext]) = stem := by
  unfold pathStem
  rw [pathSuffix_of (components_pathString hl) hs he hd, List.getLast?_concat]
  simp

theorem writeMany_ok {l : List (Name × Img ℝ)} {fs : FileSystem} (hdir : ∀ p ∈ l, fs.dir (dirName [] p.1)) :
    (writeMany fs l).result = .ok () ∧ (∀ s ∈ (writeMany fs l).states, ∀ q, q ∉ l.map (fun p => abspath [] p.1) → s.file q = fs.file q) ∧
    (writeMany fs l).states ≠ [] ∧
    ∃ final, (writeMany fs l).states.getLast? = some final ∧
      ((l.map (fun p => abspath [] p.1)).Nodup → ∀ p ∈ l, final.file (abspath [] p.1) = some (.fits p.2)) := by
  induction l generalizing fs with
  | nil =>
    refine ⟨rfl, ?_, by simp [writeMany], fs, rfl, by simp⟩
    intro s hs q _
    simp only [writeMany, List.mem_singleton] at hs
    rw [hs]
  | cons pd l ih =>
    obtain ⟨p, d⟩ := pd
    obtain ⟨h1, h2, h3, final, h4, h5⟩ := ih (fs := fs.put (abspath [] p) (some (.fits d))) (fun x hx => hdir x (by simp [hx]))
    have hw : writeMany fs ((p, d) :: l) = ⟨(writeMany (fs.put (abspath [] p) (some (.fits d))) l).result,
        fs :: [fs.put (abspath [] p) none, fs.put (abspath [] p) (some .incomplete)] ++
          (writeMany (fs.put (abspath [] p) (some (.fits d))) l).states⟩ := by
      rw [writeMany]
      unfold writeFits
      rw [if_pos (hdir (p, d) (by simp))]
      rfl
    rw [hw]
    refine ⟨h1, ?_, by simp, final, ?_, ?_⟩
    · intro s hs q hq
      simp only [List.map_cons, List.mem_cons, not_or] at hq
      simp only [List.cons_append, List.nil_append, List.mem_cons] at hs
      rcases hs with hs | hs | hs | hs
      · rw [hs]
      · rw [hs]; simp [FileSystem.put, hq.1]
      · rw [hs]; simp [FileSystem.put, hq.1]
      · rw [h2 s hs q hq.2]; simp [FileSystem.put, hq.1]
    · dsimp only
      rw [List.getLast?_append, h4]
      rfl
    · intro hn x hx
      simp only [List.map_cons, List.nodup_cons] at hn
      rcases List.mem_cons.1 hx with e | e
      · rw [e]
        have hfm : final ∈ (writeMany (fs.put (abspath [] p) (some (.fits d))) l).states := List.mem_of_getLast? h4
        rw [h2 final hfm (abspath [] p) hn.1]
        simp [FileSystem.put]
      · exact h5 hn.2 x e

/-- What `_make_abs_and_create_dir` does to a name with an extension. -/
theorem makeAbs_ok {cwd : List Name} {fs : FileSystem} {filename : Name} {D : List Name} {stem ext : Name}
    (hD : ∀ y ∈ D, y ≠ [] ∧ y ≠ ['.'] ∧ '/' ∉ y) (hx : '/' ∉ stem ++ '.' :: ext) (hs : stem ≠ []) (he : ext ≠ []) (hd : '.' ∉ ext)
    (hc : absComponents cwd filename = D ++ [stem ++ '.' :: ext]) (hfree : ∀ a, a <+: resolveDots D → fs.file (pathString a) = none) :
    ∃ fs', makeAbsAndCreateDir cwd fs filename = .ok (D ++ [stem ++ '.' :: ext], fs') ∧ fs'.file = fs.file ∧
      fs'.dir (pathString (resolveDots D)) := by
  have hgood : ∀ x ∈ D ++ [stem ++ '.' :: ext], x ≠ [] ∧ x ≠ ['.'] ∧ '/' ∉ x := by
    intro x h
    rcases List.mem_append.1 h with h | h
    · exact hD x h
    · rw [List.mem_singleton] at h
      subst h
      refine ⟨by simp, ?_, hx⟩
      intro e
      have := congrArg List.length e
      have h1 := List.length_pos_of_ne_nil hs
      have h2 := List.length_pos_of_ne_nil he
      simp only [List.length_append, List.length_cons, List.length_nil] at this
      omega
  unfold makeAbsAndCreateDir
  rw [hc]
  dsimp only
  rw [if_pos (by rw [pathSuffix_of (components_pathString hgood) hs he hd]; simp), List.dropLast_concat]
  by_cases ht : fs.there (pathString (resolveDots D))
  · rw [if_pos ht]
    refine ⟨fs, rfl, rfl, ?_⟩
    rcases ht with h | h
    · exact h
    · exact absurd (hfree _ (List.prefix_refl _)) h
  · rw [if_neg ht]
    unfold FileSystem.mkParents
    rw [if_neg (by rintro ⟨a, h1, h2⟩; exact h2 (hfree a h1)), Py.ok_bind]
    exact ⟨_, rfl, rfl, Or.inr ⟨_, List.prefix_refl _, rfl⟩⟩

theorem pathString_append (D : List Name) (x s : Name) : pathString (D ++ [x]) ++ s = pathString (D ++ [x ++ s]) := by
  unfold pathString
  by_cases hD : D = []
  · subst hD
    rfl
  · rw [joinChar_append hD, joinChar_append hD]
    simp

/-- The absolute path of a name in the directory `D`. -/
theorem abspath_in {D : List Name} (hD : ∀ y ∈ D, y ≠ [] ∧ y ≠ ['.'] ∧ '/' ∉ y) {x : Name} (hx : '/' ∉ x) (hl : 3 ≤ x.length) :
    abspath [] (pathString (D ++ [x])) = pathString (resolveDots D ++ [x]) ∧
    dirName [] (pathString (D ++ [x])) = pathString (resolveDots D) := by
  have h1 : x ≠ [] := by rintro rfl; simp at hl
  have h2 : x ≠ ['.'] := by rintro rfl; simp at hl
  have h3 : x ≠ ['.', '.'] := by rintro rfl; simp at hl
  have hgood : ∀ y ∈ D ++ [x], y ≠ [] ∧ y ≠ ['.'] ∧ '/' ∉ y := by
    intro y h
    rcases List.mem_append.1 h with h | h
    · exact hD y h
    · rw [List.mem_singleton] at h
      subst h
      exact ⟨h1, h2, hx⟩
  have ha : absComponents [] (pathString (D ++ [x])) = D ++ [x] := by
    unfold absComponents
    rw [if_pos (show (pathString (D ++ [x])).head? = some '/' from rfl), components_pathString hgood]
  unfold abspath dirName
  rw [ha, resolveDots_snoc _ h3, List.dropLast_concat]
  exact ⟨rfl, rfl⟩

theorem pathString_inj {D : List Name} {x y : Name} (h : pathString (D ++ [x]) = pathString (D ++ [y])) : x = y := by
  unfold pathString at h
  by_cases hD : D = []
  · subst hD
    simpa [joinChar] using h
  · rw [joinChar_append hD, joinChar_append hD] at h
    simpa using h

/-- A group of files `q ++ stem ++ tail` is what a call on `q ++ stem.ext` writes. -/
theorem group_saved {cwd : List Name} {fs : FileSystem} {q stem ext : Name} (hcwd : ∀ x ∈ cwd, GoodComp x)
    (hq : q = [] ∨ q.getLast? = some '/') (hs : '/' ∉ stem) (hne : stem ≠ []) (hdot : stem ≠ ['.']) (he : ext ≠ []) (hd : '.' ∉ ext)
    (hse : '/' ∉ ext) (hfree : FreeWay cwd fs (q ++ (stem ++ '.' :: ext))) :
    ∃ path fs', makeAbsAndCreateDir cwd fs (q ++ (stem ++ '.' :: ext)) = .ok (path, fs') ∧
      pathSuffix (pathString path) = '.' :: ext ∧ pathSuffix (q ++ (stem ++ '.' :: ext)) = '.' :: ext ∧ pathStem path = stem ∧
      groupName path = pathString (path.dropLast ++ [stem]) ∧
      ∀ tails : List (Name × Img ℝ), (∀ t ∈ tails, '/' ∉ t.1 ∧ 3 ≤ t.1.length) → (tails.map Prod.fst).Nodup →
        SavedExactly fs ⟨(writeMany fs' (tails.map (fun t => (pathString (path.dropLast ++ [stem]) ++ t.1, t.2)))).result,
          fs :: (writeMany fs' (tails.map (fun t => (pathString (path.dropLast ++ [stem]) ++ t.1, t.2)))).states⟩
          (tails.map (fun t => (abspath cwd (q ++ (stem ++ t.1)), t.2))) := by
  obtain ⟨D, hD, hc⟩ := comps_dir cwd hcwd hq
  have hxx : '/' ∉ stem ++ '.' :: ext := by simp [hs, hse]
  have hlen : 3 ≤ (stem ++ '.' :: ext).length := by
    have h1 := List.length_pos_of_ne_nil hne
    have h2 := List.length_pos_of_ne_nil he
    simp only [List.length_append, List.length_cons]
    omega
  have n1 : ∀ x : Name, 3 ≤ x.length → x ≠ [] ∧ x ≠ ['.'] ∧ x ≠ ['.', '.'] := by
    intro x h
    refine ⟨?_, ?_, ?_⟩ <;> rintro rfl <;> simp at h
  have hcx := hc _ hxx (n1 _ hlen).1 (n1 _ hlen).2.1
  have hgood : ∀ x ∈ D ++ [stem ++ '.' :: ext], x ≠ [] ∧ x ≠ ['.'] ∧ '/' ∉ x := by
    intro x h
    rcases List.mem_append.1 h with h | h
    · exact hD x h
    · rw [List.mem_singleton] at h
      subst h
      exact ⟨(n1 _ hlen).1, (n1 _ hlen).2.1, hxx⟩
  have hfree' : ∀ a, a <+: resolveDots D → fs.file (pathString a) = none := by
    intro a ha
    refine hfree a ?_
    rw [hcx, resolveDots_snoc _ (n1 _ hlen).2.2, List.dropLast_concat]
    exact ha
  obtain ⟨fs', h1, h2, h3⟩ := makeAbs_ok hD hxx hne he hd hcx hfree'
  have hst : pathStem (D ++ [stem ++ '.' :: ext]) = stem := pathStem_of hgood hne he hd
  refine ⟨_, fs', h1, pathSuffix_of (components_pathString hgood) hne he hd, ?_, hst, ?_, ?_⟩
  · obtain ⟨l, hl⟩ := components_last (x := stem ++ '.' :: ext) hq hxx (n1 _ hlen).1 (n1 _ hlen).2.1
    exact pathSuffix_of hl hne he hd
  · unfold groupName
    rw [hst, List.dropLast_concat]
    have : components stem = [stem] := by
      unfold components
      rw [splitChar_none hs, List.filter_cons, if_pos (by simp only [decide_eq_true_eq]; exact ⟨hne, hdot⟩), List.filter_nil]
    rw [this]
  · intro tails ht hn
    rw [List.dropLast_concat]
    have hpx : ∀ t ∈ tails, pathString (D ++ [stem]) ++ t.1 = pathString (D ++ [stem ++ t.1]) := fun t _ => pathString_append D stem t.1
    have hlt : ∀ t ∈ tails, '/' ∉ stem ++ t.1 ∧ 3 ≤ (stem ++ t.1).length := by
      intro t htt
      obtain ⟨a, b⟩ := ht t htt
      refine ⟨by simp [hs, a], by rw [List.length_append]; omega⟩
    have habs : ∀ t ∈ tails, abspath [] (pathString (D ++ [stem]) ++ t.1) = pathString (resolveDots D ++ [stem ++ t.1]) := by
      intro t htt
      rw [hpx t htt]
      exact (abspath_in hD (hlt t htt).1 (hlt t htt).2).1
    have hdir : ∀ p ∈ tails.map (fun t => (pathString (D ++ [stem]) ++ t.1, t.2)), fs'.dir (dirName [] p.1) := by
      intro p hp
      obtain ⟨t, htt, rfl⟩ := List.mem_map.1 hp
      dsimp only
      rw [hpx t htt, (abspath_in hD (hlt t htt).1 (hlt t htt).2).2]
      exact h3
    have habs2 : ∀ t ∈ tails, abspath cwd (q ++ (stem ++ t.1)) = pathString (resolveDots D ++ [stem ++ t.1]) := by
      intro t htt
      obtain ⟨a, b⟩ := hlt t htt
      unfold abspath
      rw [hc _ a (n1 _ b).1 (n1 _ b).2.1, resolveDots_snoc _ (n1 _ b).2.2]
    have hnames : (tails.map (fun t => (pathString (D ++ [stem]) ++ t.1, t.2))).map (fun p => abspath [] p.1) =
        (tails.map (fun t => (abspath cwd (q ++ (stem ++ t.1)), t.2))).map Prod.fst := by
      rw [List.map_map, List.map_map]
      refine List.map_congr_left ?_
      intro t htt
      show abspath [] (pathString (D ++ [stem]) ++ t.1) = abspath cwd (q ++ (stem ++ t.1))
      rw [habs t htt, habs2 t htt]
    obtain ⟨w1, w2, w3, final, w4, w5⟩ := writeMany_ok hdir
    have hnd : ((tails.map (fun t => (pathString (D ++ [stem]) ++ t.1, t.2))).map (fun p => abspath [] p.1)).Nodup := by
      rw [List.map_map]
      refine List.Nodup.map_on ?_ (List.Nodup.of_map _ hn)
      intro a ha b hb hab
      have hab : abspath [] (pathString (D ++ [stem]) ++ a.1) = abspath [] (pathString (D ++ [stem]) ++ b.1) := hab
      rw [habs a ha, habs b hb] at hab
      have := pathString_inj hab
      have : a.1 = b.1 := by simpa using this
      exact List.inj_on_of_nodup_map hn ha hb this
    refine ⟨w1, by rw [← hnames]; exact hnd, ⟨final, ?_, ?_⟩, ?_⟩
    · dsimp only
      rw [List.getLast?_cons, w4]
      rfl
    · intro p d hpd
      obtain ⟨t, htt, e⟩ := List.mem_map.1 hpd
      obtain ⟨rfl, rfl⟩ := Prod.mk.inj e
      have := w5 hnd _ (List.mem_map.2 ⟨t, htt, rfl⟩)
      dsimp only at this
      rw [habs t htt] at this
      rw [habs2 t htt]
      exact this
    · intro s hs q' hq'
      rcases List.mem_cons.1 hs with e | e
      · rw [e]
      · rw [w2 s e q' (by rw [hnames]; exact hq'), h2]

/-! ## Names that are not FITS names -/

theorem takeWhile_all {α : Type} {p : α → Bool} {l : List α} (h : ∀ a ∈ l, p a = true) : l.takeWhile p = l := by
  induction l with
  | nil => rfl
  | cons a l ih => rw [List.takeWhile_cons, if_pos (h a (by simp)), ih fun b hb => h b (by simp [hb])]


theorem suffix_fits {p : Name} {l : List Name} {x : Name} (hp : components p = l ++ [x]) (h : pathSuffix p = fitsExt) :
    ∃ stem, stem ≠ [] ∧ x = stem ++ fitsExt := by
  unfold pathSuffix at h
  rw [hp, List.getLast?_concat] at h
  dsimp only at h
  obtain ⟨ext, hext⟩ : ∃ ext, ext = x.reverse.takeWhile (fun c => c ≠ '.') := ⟨_, rfl⟩
  rw [← hext] at h
  split_ifs at h with hc
  · cases h
  · have he : ext = ['s', 't', 'i', 'f'] := by
      have : ext.reverse = ['f', 'i', 't', 's'] := by injection h
      rw [← List.reverse_reverse ext, this]
      rfl
    have hsplit := List.takeWhile_append_dropWhile (p := fun c : Char => decide (c ≠ '.')) (l := x.reverse)
    rw [← hext] at hsplit
    simp only [not_or] at hc
    cases hd : x.reverse.dropWhile (fun c => c ≠ '.') with
    | nil =>
      rw [hd, List.append_nil] at hsplit
      exact absurd (by rw [hsplit, List.length_reverse]) hc.1
    | cons a r =>
      have ha : a = '.' := by
        have := List.head?_dropWhile_not (fun c : Char => decide (c ≠ '.')) x.reverse
        rw [hd] at this
        simpa using this
      rw [hd, he, ha] at hsplit
      have hx : x = r.reverse ++ fitsExt := by
        rw [← List.reverse_reverse x, ← hsplit]
        simp [fitsExt]
      refine ⟨r.reverse, ?_, hx⟩
      intro hr
      apply hc.2.2
      rw [hx, hr, he]
      rfl

theorem makeAbs_file {cwd : List Name} {fs fs' : FileSystem} {filename : Name} {path : List Name}
    (h : makeAbsAndCreateDir cwd fs filename = .ok (path, fs')) : fs'.file = fs.file ∧ path = absComponents cwd filename := by
  have e1 : ∀ l g, fs.mkParents l = .ok g → g.file = fs.file := by
    intro l g hg
    unfold FileSystem.mkParents at hg
    split_ifs at hg
    rw [← Except.ok.inj hg]
  have e2 : ∀ l g, fs.mkOne l = .ok g → g.file = fs.file := by
    intro l g hg
    unfold FileSystem.mkOne at hg
    split_ifs at hg
    rw [← Except.ok.inj hg]
  unfold makeAbsAndCreateDir at h
  dsimp only at h
  split_ifs at h
  · obtain ⟨rfl, rfl⟩ := Prod.mk.inj (Except.ok.inj h)
    exact ⟨rfl, rfl⟩
  · obtain ⟨g, hg, h⟩ := Py.bind_eq_ok.1 h
    obtain ⟨rfl, rfl⟩ := Prod.mk.inj (Except.ok.inj h)
    exact ⟨e1 _ _ hg, rfl⟩
  · obtain ⟨rfl, rfl⟩ := Prod.mk.inj (Except.ok.inj h)
    exact ⟨rfl, rfl⟩
  · obtain ⟨g, hg, h⟩ := Py.bind_eq_ok.1 h
    obtain ⟨rfl, rfl⟩ := Prod.mk.inj (Except.ok.inj h)
    exact ⟨e2 _ _ hg, rfl⟩

/-! ## Numbers as strings -/

theorem natStr_decode (n : Nat) : Nat.ofDigits 10 ((natStr n).reverse.map (fun c => c.toNat - 48)) = n := by
  unfold natStr
  split_ifs with h
  · rw [h]; rfl
  · rw [← List.map_reverse, List.reverse_reverse, List.map_map]
    have : (Nat.digits 10 n).map ((fun c : Char => c.toNat - 48) ∘ Nat.digitChar) = Nat.digits 10 n := by
      conv_rhs => rw [← List.map_id (Nat.digits 10 n)]
      refine List.map_congr_left ?_
      intro d hd
      have := Nat.digits_lt_base (by norm_num : 1 < 10) hd
      interval_cases d <;> rfl
    rw [this, Nat.ofDigits_digits]

theorem natStr_char {n : Nat} {c : Char} (h : c ∈ natStr n) : c ≠ '-' ∧ c ≠ '/' := by
  unfold natStr at h
  split_ifs at h
  · rw [List.mem_singleton] at h
    rw [h]
    decide
  · obtain ⟨d, hd, rfl⟩ := List.mem_map.1 h
    have := Nat.digits_lt_base (by norm_num : 1 < 10) (List.mem_reverse.1 hd)
    interval_cases d <;> decide

theorem natStr_inj {m n : Nat} (h : natStr m = natStr n) : m = n := by
  rw [← natStr_decode m, h, natStr_decode]

theorem intStr_inj {a b : Int} (h : intStr a = intStr b) : a = b := by
  unfold intStr at h
  split_ifs at h with h1 h2 h2
  · have := natStr_inj (by injection h : natStr a.natAbs = natStr b.natAbs)
    omega
  · exact absurd rfl (natStr_char (n := b.natAbs) (c := '-') (by rw [← h]; simp)).1
  · exact absurd rfl (natStr_char (n := a.natAbs) (c := '-') (by rw [h]; simp)).1
  · have := natStr_inj h
    omega

theorem intStr_slash (a : Int) : '/' ∉ intStr a := by
  unfold intStr
  intro h
  split_ifs at h
  · rcases List.mem_cons.1 h with e | e
    · exact absurd e (by decide)
    · exact (natStr_char e).2 rfl
  · exact (natStr_char h).2 rfl

end

end Micropol
