import Verif.Lemmas.Convert
import Mathlib.Data.List.Basic

/-!
# Lemmas on names, paths and raw arrays
-/

set_option autoImplicit false

namespace Micropol

theorem splitChar_ne_nil (c : Char) (s : Name) : splitChar c s ≠ [] := by
  cases s with
  | nil => simp [splitChar]
  | cons a s =>
    unfold splitChar
    split
    · simp
    · split <;> simp

theorem splitChar_none {c : Char} {s : Name} (h : c ∉ s) : splitChar c s = [s] := by
  induction s with
  | nil => rfl
  | cons a s ih =>
    rw [List.mem_cons, not_or] at h
    unfold splitChar
    rw [if_neg (fun e => h.1 e.symm), ih h.2]

theorem splitChar_append (c : Char) (a b : Name) : splitChar c (a ++ c :: b) = splitChar c a ++ splitChar c b := by
  induction a with
  | nil => simp [splitChar]
  | cons x a ih =>
    rw [List.cons_append]
    by_cases hx : x = c
    · rw [splitChar, if_pos hx, ih, splitChar, if_pos hx]; rfl
    · rw [splitChar, if_neg hx, ih, splitChar, if_neg hx]
      cases h : splitChar c a with
      | nil => exact absurd h (splitChar_ne_nil c a)
      | cons y ys => rfl

/-- Appending text without the separator extends the last piece. -/
theorem splitChar_append_last {c : Char} {e : Name} (he : c ∉ e) (s : Name) :
    ∃ D x, splitChar c s = D ++ [x] ∧ ∀ e', c ∉ e' → splitChar c (s ++ e') = D ++ [x ++ e'] := by
  induction s with
  | nil => exact ⟨[], [], rfl, fun e' he' => by simpa using splitChar_none he'⟩
  | cons a s ih =>
    obtain ⟨D, x, h1, h2⟩ := ih
    by_cases ha : a = c
    · refine ⟨[] :: D, x, ?_, fun e' he' => ?_⟩
      · rw [splitChar, if_pos ha, h1]; rfl
      · rw [List.cons_append, splitChar, if_pos ha, h2 e' he']; rfl
    · cases D with
      | nil =>
        refine ⟨[], a :: x, ?_, fun e' he' => ?_⟩
        · rw [splitChar, if_neg ha, h1]; rfl
        · rw [List.cons_append, splitChar, if_neg ha, h2 e' he']; rfl
      | cons d D =>
        refine ⟨(a :: d) :: D, x, ?_, fun e' he' => ?_⟩
        · rw [splitChar, if_neg ha, h1]; rfl
        · rw [List.cons_append, splitChar, if_neg ha, h2 e' he']; rfl

theorem splitChar_mem {c : Char} {s : Name} : ∀ x ∈ splitChar c s, c ∉ x := by
  induction s with
  | nil => intro x hx; simp [splitChar] at hx; simp [hx]
  | cons a s ih =>
    intro x hx
    by_cases ha : a = c
    · rw [splitChar, if_pos ha, List.mem_cons] at hx
      rcases hx with rfl | hx
      · simp
      · exact ih x hx
    · rw [splitChar, if_neg ha] at hx
      cases h : splitChar c s with
      | nil => exact absurd h (splitChar_ne_nil c s)
      | cons y ys =>
        rw [h] at hx ih
        rcases List.mem_cons.1 hx with rfl | hx
        · rw [List.mem_cons, not_or]
          exact ⟨fun e => ha e.symm, ih y (by simp)⟩
        · exact ih x (by simp [hx])

theorem joinChar_cons {c : Char} {x : Name} {l : List Name} (hl : l ≠ []) : joinChar c (x :: l) = x ++ c :: joinChar c l := by
  cases l with
  | nil => exact absurd rfl hl
  | cons y l => rfl

theorem joinChar_split (c d : Char) (s : Name) : joinChar d (splitChar c s) = s.map (fun a => if a = c then d else a) := by
  induction s with
  | nil => rfl
  | cons a s ih =>
    by_cases ha : a = c
    · rw [splitChar, if_pos ha, joinChar_cons (splitChar_ne_nil c s), ih]
      simp [ha]
    · rw [splitChar, if_neg ha]
      cases h : splitChar c s with
      | nil => exact absurd h (splitChar_ne_nil c s)
      | cons y ys =>
        rw [h] at ih
        rw [List.map_cons, ← ih]
        simp only [ha, if_false]
        cases ys with
        | nil => rfl
        | cons z zs => rfl

theorem joinChar_append {c : Char} {l : List Name} (hl : l ≠ []) (x : Name) : joinChar c (l ++ [x]) = joinChar c l ++ c :: x := by
  induction l with
  | nil => exact absurd rfl hl
  | cons y l ih =>
    by_cases h : l = []
    · subst h; rfl
    · rw [List.cons_append, joinChar_cons (by simp), ih h, joinChar_cons h]
      simp

theorem splitChar_join {c : Char} {l : List Name} (hl : l ≠ []) (h : ∀ x ∈ l, c ∉ x) : splitChar c (joinChar c l) = l := by
  induction l with
  | nil => exact absurd rfl hl
  | cons x l ih =>
    by_cases hn : l = []
    · subst hn
      exact splitChar_none (h x (by simp))
    · rw [joinChar_cons hn, splitChar_append, splitChar_none (h x (by simp)), ih hn fun y hy => h y (by simp [hy])]
      rfl

/-- The new name, from the part before the last dot. -/
theorem newRawName_eq {stem ext : Name} (h : '.' ∉ ext) :
    newRawName (stem ++ '.' :: ext) = stem.map (fun a => if a = '.' then ':' else a) ++ fitsExt := by
  unfold newRawName
  rw [splitChar_append, splitChar_none h, List.dropLast_concat, joinChar_split]

theorem map_dot {s : Name} (h : '.' ∉ s) : s.map (fun a => if a = '.' then ':' else a) = s := by
  conv_rhs => rw [← List.map_id s]
  apply List.map_congr_left
  intro a ha
  have e : a ≠ '.' := fun e => h (e ▸ ha)
  simp [e]

theorem map_dot_ne {s : Name} (h : '.' ∈ s) : s.map (fun a => if a = '.' then ':' else a) ≠ s := by
  intro e
  rw [← e, List.mem_map] at h
  obtain ⟨a, _, ha⟩ := h
  split at ha
  · exact absurd ha (by decide)
  · contradiction

/-! ## Absolute paths -/

theorem components_append {e : Name} (he : '/' ∉ e) (p : Name) :
    ∃ D x, '/' ∉ x ∧ (∀ y ∈ D, y ≠ [] ∧ y ≠ ['.'] ∧ '/' ∉ y) ∧
      ∀ e', '/' ∉ e' → x ++ e' ≠ [] → x ++ e' ≠ ['.'] → components (p ++ e') = D ++ [x ++ e'] := by
  obtain ⟨D, x, h1, h2⟩ := splitChar_append_last he p
  have hm := splitChar_mem (c := '/') (s := p)
  rw [h1] at hm
  refine ⟨D.filter (fun x => x ≠ [] ∧ x ≠ ['.']), x, hm x (by simp), ?_, ?_⟩
  · intro y hy
    rw [List.mem_filter] at hy
    simp only [decide_eq_true_eq] at hy
    exact ⟨hy.2.1, hy.2.2, hm y (by simp [hy.1])⟩
  · intro e' he' hn hd
    unfold components
    rw [h2 e' he', List.filter_append]
    congr 1
    simp only [List.filter_cons, List.filter_nil]
    rw [if_pos (by simp only [decide_eq_true_eq]; exact ⟨hn, hd⟩)]

theorem resolveDots_snoc (l : List Name) {x : Name} (hx : x ≠ ['.', '.']) : resolveDots (l ++ [x]) = resolveDots l ++ [x] := by
  unfold resolveDots
  rw [List.foldl_append]
  simp only [List.foldl_cons, List.foldl_nil, if_neg hx, List.reverse_cons]

theorem foldl_dots_mem (l : List Name) : ∀ acc x, x ∈ l.foldl (fun acc x => if x = ['.', '.'] then acc.tail else x :: acc) acc →
    x ∈ acc ∨ (x ∈ l ∧ x ≠ ['.', '.']) := by
  induction l with
  | nil => intro acc x h; exact .inl h
  | cons y l ih =>
    intro acc x h
    rw [List.foldl_cons] at h
    rcases ih _ x h with h | h
    · split at h
      · exact .inl (List.mem_of_mem_tail h)
      · rcases List.mem_cons.1 h with rfl | h
        · exact .inr ⟨by simp, by assumption⟩
        · exact .inl h
    · exact .inr ⟨by simp [h.1], h.2⟩

theorem resolveDots_mem {l : List Name} {x : Name} (h : x ∈ resolveDots l) : x ∈ l ∧ x ≠ ['.', '.'] := by
  unfold resolveDots at h
  rw [List.mem_reverse] at h
  rcases foldl_dots_mem l [] x h with h | h
  · simp at h
  · exact h

theorem resolveDots_id {l : List Name} (h : ∀ x ∈ l, x ≠ ['.', '.']) : resolveDots l = l := by
  induction l using List.reverseRecOn with
  | nil => rfl
  | append_singleton l x ih => rw [resolveDots_snoc l (h x (by simp)), ih fun y hy => h y (by simp [hy])]

theorem components_path {l : List Name} (h : ∀ x ∈ l, GoodComp x) : components (pathString l) = l := by
  unfold components pathString
  rw [splitChar, if_pos rfl, List.filter_cons, if_neg (by simp)]
  by_cases hl : l = []
  · subst hl
    rfl
  · rw [splitChar_join hl fun x hx => (h x hx).2.2.2, List.filter_eq_self]
    intro x hx
    simp only [decide_eq_true_eq]
    exact ⟨(h x hx).1, (h x hx).2.1⟩

/-- Absolute paths of `p ++ ext`: the directory does not depend on the extension. -/
theorem abspath_ext (cwd : List Name) (p : Name) (hcwd : ∀ x ∈ cwd, GoodComp x) :
    ∃ D x, '/' ∉ x ∧ (∀ y ∈ D, GoodComp y) ∧ ∀ e, '/' ∉ e → 3 ≤ e.length →
      resolveDots (absComponents cwd (p ++ e)) = D ++ [x ++ e] := by
  obtain ⟨C, x, hx, hC, hcomp⟩ := components_append (e := []) (by simp) p
  have key : ∀ e : Name, 3 ≤ e.length → x ++ e ≠ [] ∧ x ++ e ≠ ['.'] ∧ x ++ e ≠ ['.', '.'] := by
    intro e he
    refine ⟨?_, ?_, ?_⟩ <;> intro h <;> have := congrArg List.length h <;> simp only [List.length_append, List.length_cons, List.length_nil] at this <;> omega
  by_cases hp : p.head? = some '/'
  · refine ⟨resolveDots C, x, hx, ?_, ?_⟩
    · intro y hy
      obtain ⟨h1, h2⟩ := resolveDots_mem hy
      exact ⟨(hC y h1).1, (hC y h1).2.1, h2, (hC y h1).2.2⟩
    · intro e he hl
      obtain ⟨k1, k2, k3⟩ := key e hl
      unfold absComponents
      rw [if_pos (by cases p with
        | nil => simp at hp
        | cons a p => simpa using hp), hcomp e he k1 k2, resolveDots_snoc _ k3]
  · refine ⟨resolveDots (cwd ++ C), x, hx, ?_, ?_⟩
    · intro y hy
      obtain ⟨h1, h2⟩ := resolveDots_mem hy
      rcases List.mem_append.1 h1 with h1 | h1
      · exact hcwd y h1
      · exact ⟨(hC y h1).1, (hC y h1).2.1, h2, (hC y h1).2.2⟩
    · intro e he hl
      obtain ⟨k1, k2, k3⟩ := key e hl
      unfold absComponents
      rw [if_neg ?_, hcomp e he k1 k2, ← List.append_assoc, resolveDots_snoc _ k3]
      cases p with
      | nil =>
        intro h
        rw [List.nil_append] at h
        exact he (List.mem_of_mem_head? h)
      | cons a p => simpa using hp

/-- The string of the absolute path of `p ++ ext`. -/
theorem abspath_string (cwd : List Name) (p : Name) (hcwd : ∀ x ∈ cwd, GoodComp x) :
    ∃ stem : Name, stem.head? = some '/' ∧ ∀ e, '/' ∉ e → 3 ≤ e.length → abspath cwd (p ++ e) = stem ++ e ∧
      dirName [] (stem ++ e) = dirName cwd (p ++ e) := by
  obtain ⟨D, x, hx, hD, h⟩ := abspath_ext cwd p hcwd
  refine ⟨pathString D ++ (if D = [] then [] else ['/']) ++ x, by simp [pathString], fun e he hl => ?_⟩
  have h0 : abspath cwd (p ++ e) = pathString D ++ (if D = [] then [] else ['/']) ++ x ++ e := by
    unfold abspath
    rw [h e he hl]
    by_cases hn : D = []
    · subst hn
      simp [pathString, joinChar]
    · unfold pathString
      rw [joinChar_append hn, if_neg hn]
      simp
  refine ⟨h0, ?_⟩
  rw [← h0]
  unfold dirName abspath
  congr 2
  have hg : ∀ y ∈ D ++ [x ++ e], GoodComp y := by
    intro y hy
    rcases List.mem_append.1 hy with hy | hy
    · exact hD y hy
    · rw [List.mem_singleton] at hy
      subst hy
      refine ⟨?_, ?_, ?_, ?_⟩
      · intro h; have := congrArg List.length h; simp only [List.length_append, List.length_cons, List.length_nil] at this; omega
      · intro h; have := congrArg List.length h; simp only [List.length_append, List.length_cons, List.length_nil] at this; omega
      · intro h; have := congrArg List.length h; simp only [List.length_append, List.length_cons, List.length_nil] at this; omega
      · rw [List.mem_append, not_or]; exact ⟨hx, he⟩
  rw [h e he hl]
  unfold absComponents
  rw [if_pos (by rfl), components_path hg, resolveDots_id fun y hy => (hg y hy).2.2.1]

theorem last_dot {s : Name} (h : '.' ∈ s) : ∃ stem ext, s = stem ++ '.' :: ext ∧ '.' ∉ ext := by
  obtain ⟨a, b, h1, h2⟩ := List.eq_append_cons_of_mem (List.mem_reverse.2 h)
  refine ⟨b.reverse, a.reverse, ?_, by simpa using h2⟩
  have := congrArg List.reverse h1
  simpa using this

theorem fits_name {s : Name} (hs : s.head? = some '/') :
    (splitChar '.' s).getLast? = some ['f', 'i', 't', 's'] ↔ fitsExt <:+ s := by
  constructor
  · intro h
    by_cases hd : '.' ∈ s
    · obtain ⟨stem, ext, rfl, he⟩ := last_dot hd
      rw [splitChar_append, splitChar_none he, List.getLast?_concat] at h
      injection h with h
      subst h
      exact ⟨stem, rfl⟩
    · rw [splitChar_none hd] at h
      have h : s = ['f', 'i', 't', 's'] := by simpa using h
      rw [h] at hs
      exact absurd hs (by decide)
  · rintro ⟨t, rfl⟩
    show (splitChar '.' (t ++ '.' :: ['f', 'i', 't', 's'])).getLast? = _
    rw [splitChar_append, splitChar_none (s := ['f', 'i', 't', 's']) (by decide), List.getLast?_concat]

theorem pathString_snoc (l : List Name) (x : Name) : ∃ t, pathString (l ++ [x]) = t ++ x ∧ t.getLast? = some '/' := by
  by_cases hl : l = []
  · subst hl
    exact ⟨['/'], rfl, rfl⟩
  · refine ⟨'/' :: joinChar '/' l ++ ['/'], ?_, List.getLast?_concat ..⟩
    unfold pathString
    rw [joinChar_append hl]
    simp

theorem suffix_of_slash {t x e : Name} (ht : t.getLast? = some '/') (he : '/' ∉ e) : e <:+ t ++ x ↔ e <:+ x := by
  constructor
  · intro h
    by_contra hn
    obtain ⟨u, hu⟩ := h
    rw [List.append_eq_append_iff] at hu
    rcases hu with ⟨a, h1, h2⟩ | ⟨a, h1, h2⟩
    · by_cases ha : a = []
      · subst ha
        simp at h2
        exact hn (h2 ▸ List.suffix_refl _)
      · have : a.getLast? = some '/' := by
          rw [← ht, h1, List.getLast?_append]
          cases hl : a.getLast? with
          | none => exact absurd (List.getLast?_eq_none_iff.1 hl) ha
          | some v => rfl
        exact he (h2 ▸ List.mem_append_left _ (List.mem_of_getLast? this))
    · exact hn ⟨a, h2.symm⟩
  · rintro ⟨u, rfl⟩
    exact ⟨t ++ u, by simp⟩

/-- The components of a path with a proper last component. -/
theorem components_last {q x : Name} (hq : q = [] ∨ q.getLast? = some '/') (hx : '/' ∉ x) (h1 : x ≠ []) (h2 : x ≠ ['.']) :
    ∃ l, components (q ++ x) = l ++ [x] := by
  have hf : [x].filter (fun x => x ≠ [] ∧ x ≠ ['.']) = [x] := by
    simp only [List.filter_cons, List.filter_nil]
    rw [if_pos (by simp only [decide_eq_true_eq]; exact ⟨h1, h2⟩)]
  rcases hq with rfl | hq
  · refine ⟨[], ?_⟩
    unfold components
    rw [List.nil_append, splitChar_none hx, hf]
    rfl
  · obtain ⟨r, rfl⟩ := List.getLast?_eq_some_iff.1 hq
    refine ⟨components r, ?_⟩
    unfold components
    rw [show r ++ ['/'] ++ x = r ++ '/' :: x by simp, splitChar_append, splitChar_none hx, List.filter_append, hf]

theorem absComponents_last (cwd : List Name) {q x : Name} (hq : q = [] ∨ q.getLast? = some '/') (hx : '/' ∉ x) (h1 : x ≠ [])
    (h2 : x ≠ ['.']) : ∃ l, absComponents cwd (q ++ x) = l ++ [x] := by
  obtain ⟨l, h⟩ := components_last hq hx h1 h2
  unfold absComponents
  rw [h]
  split
  · exact ⟨l, rfl⟩
  · exact ⟨cwd ++ l, by simp⟩

/-- Whether the absolute name ends in `.fits`. -/
theorem absoluteName_fits (cwd : List Name) {q x : Name} (hq : q = [] ∨ q.getLast? = some '/') (hx : '/' ∉ x) (h1 : x ≠ [])
    (h2 : x ≠ ['.']) : (splitChar '.' (absoluteName cwd (q ++ x))).getLast? = some ['f', 'i', 't', 's'] ↔ fitsExt <:+ x := by
  rw [fits_name (by rfl)]
  obtain ⟨l, h⟩ := absComponents_last cwd hq hx h1 h2
  obtain ⟨t, h3, h4⟩ := pathString_snoc l x
  unfold absoluteName
  rw [h, h3, suffix_of_slash h4 (by decide)]

theorem abspath_fits (cwd : List Name) {q x : Name} (hq : q = [] ∨ q.getLast? = some '/') (hx : '/' ∉ x) (h1 : x ≠ [])
    (h2 : x ≠ ['.']) (h3 : x ≠ ['.', '.']) :
    (splitChar '.' (abspath cwd (q ++ x))).getLast? = some ['f', 'i', 't', 's'] ↔ fitsExt <:+ x := by
  rw [fits_name (by rfl)]
  obtain ⟨l, h⟩ := absComponents_last cwd hq hx h1 h2
  obtain ⟨t, h4, h5⟩ := pathString_snoc (resolveDots l) x
  unfold abspath
  rw [h, resolveDots_snoc _ h3, h4, suffix_of_slash h5 (by decide)]

/-- A path splits at its last slash. -/
theorem last_slash (p : Name) : ∃ q x, p = q ++ x ∧ (q = [] ∨ q.getLast? = some '/') ∧ '/' ∉ x := by
  by_cases h : '/' ∈ p
  · obtain ⟨a, b, h1, h2⟩ := List.eq_append_cons_of_mem (List.mem_reverse.2 h)
    refine ⟨b.reverse ++ ['/'], a.reverse, ?_, .inr (List.getLast?_concat ..), by simpa using h2⟩
    have := congrArg List.reverse h1
    simpa using this
  · exact ⟨[], p, rfl, .inl rfl, h⟩

/-! ## Sums of raw files -/

theorem u2Array_ok {h w : Nat} {b : List Nat} (hb : 2 * (h * w) ≤ b.length) :
    u2Array h w b = .ok (Img.ofFn h w (fun y x => (u2At w b y x : ℝ))) := by
  unfold u2Array
  rw [if_neg (by omega)]
  rfl

theorem u2Array_short {h w : Nat} {b : List Nat} (hb : b.length < 2 * (h * w)) : u2Array h w b = .error .typeError := by
  unfold u2Array
  rw [if_pos hb]

theorem rawMerge_ok {cwd : List Name} {fs : FileSystem} {h w : Nat} {bytes : Name → List Nat} {l : List Name}
    (hl : ∀ n ∈ l, fs.file (abspath cwd n) = some (.raw (bytes n)) ∧ 2 * (h * w) ≤ (bytes n).length) (f : Nat → Nat → ℝ) :
    forList l (Img.ofFn h w f) (mergeBody cwd fs h w) =
      .ok (Img.ofFn h w (fun y x => f y x + (l.map (fun n => (u2At w (bytes n) y x : ℝ))).sum)) := by
  induction l generalizing f with
  | nil => simp [forList]
  | cons n l ih =>
    obtain ⟨h1, h2⟩ := hl n (by simp)
    unfold forList at ih ⊢
    rw [List.foldlM_cons]
    have : mergeBody cwd fs h w n (Img.ofFn h w f) = .ok (Img.ofFn h w (fun y x => f y x + u2At w (bytes n) y x)) := by
      unfold mergeBody FileSystem.readRaw
      rw [h1]
      dsimp only
      rw [Py.ok_bind, u2Array_ok h2, Py.ok_bind]
      refine congrArg Except.ok (Img.ofFn_congr fun y x hy hx => ?_)
      rw [Img.ofFn_px hy hx, Img.ofFn_px hy hx]
    rw [this, Py.ok_bind, ih fun m hm => hl m (by simp [hm])]
    refine congrArg Except.ok (Img.ofFn_congr fun y x hy hx => ?_)
    simp [add_assoc]

theorem rawMerge_inv {cwd : List Name} {fs : FileSystem} {h w : Nat} {l : List Name} {a r : Img ℝ}
    (hr : forList l a (mergeBody cwd fs h w) = .ok r) :
    ∀ n ∈ l, ∃ b, fs.file (abspath cwd n) = some (.raw b) ∧ 2 * (h * w) ≤ b.length := by
  induction l generalizing a with
  | nil => intro n hn; cases hn
  | cons m l ih =>
    unfold forList at ih hr
    rw [List.foldlM_cons, Py.bind_eq_ok] at hr
    obtain ⟨a', h1, h2⟩ := hr
    intro n hn
    rcases List.mem_cons.1 hn with rfl | hn
    · unfold mergeBody FileSystem.readRaw at h1
      split at h1
      · rename_i b hb
        refine ⟨b, hb, ?_⟩
        by_contra hlt
        rw [Py.ok_bind, u2Array_short (by omega)] at h1
        cases h1
      · cases h1
    · exact ih h2 n hn

theorem rawMerge_short {cwd : List Name} {fs : FileSystem} {h w : Nat} {bytes : Name → List Nat} {l : List Name} {a : Img ℝ}
    (hl : ∀ n ∈ l, fs.file (abspath cwd n) = some (.raw (bytes n))) (hs : ∃ n ∈ l, (bytes n).length < 2 * (h * w)) :
    forList l a (mergeBody cwd fs h w) = .error .typeError := by
  induction l generalizing a with
  | nil => obtain ⟨n, hn, _⟩ := hs; cases hn
  | cons m l ih =>
    unfold forList at ih ⊢
    rw [List.foldlM_cons]
    have hm := hl m (by simp)
    by_cases hlt : (bytes m).length < 2 * (h * w)
    · have : mergeBody cwd fs h w m a = .error .typeError := by
        unfold mergeBody FileSystem.readRaw
        rw [hm]
        dsimp only
        rw [Py.ok_bind, u2Array_short hlt]
        rfl
      rw [this]
      rfl
    · have : ∃ a', mergeBody cwd fs h w m a = .ok a' := by
        unfold mergeBody FileSystem.readRaw
        rw [hm]
        dsimp only
        rw [Py.ok_bind, u2Array_ok (by omega), Py.ok_bind]
        exact ⟨_, rfl⟩
      obtain ⟨a', ha'⟩ := this
      rw [ha', Py.ok_bind]
      apply ih fun n hn => hl n (by simp [hn])
      obtain ⟨n, hn, h1⟩ := hs
      rcases List.mem_cons.1 hn with rfl | hn
      · exact absurd h1 hlt
      · exact ⟨n, hn, h1⟩

theorem zeros_ofFn (h w : Nat) : (Img.zeros h w : Img ℝ) = Img.ofFn h w (fun _ _ => 0) := by
  rfl

end Micropol
