import Verif.Lemmas.Load
import Mathlib.Tactic.FieldSimp
import Mathlib.Tactic.Positivity

/-!
# C67, C68: `Image(files)`

The statements use only `loadImage` (the modelled `Image(…)` on file names), the files `fs`, and `GoodFiles`, `IsEarliest`,
`IsLatest` of `Verif/Spec/Load.lean`.
-/

set_option autoImplicit false

namespace Micropol

noncomputable section

variable {fs : Name → Option FitsFile} {c : Clock}

/-- C67: with `averageimages`, every pixel is the mean of that pixel over the files; the number of files is recorded when there is
more than one; the header is the first file's. -/
theorem C67_average {n : Name} {names : List Name} {h w : ℕ} {img : Name → Img ℝ} {date : Name → Option ℕ}
    (hg : GoodFiles fs c (n :: names) h w img date) : ∃ r, loadImage fs c (.list (n :: names)) true = .ok r ∧ r.data.HasShape h w ∧
      (∀ y x, y < h → x < w → r.data.px y x * ((n :: names).length : ℝ) = ((n :: names).map (fun n => (img n).px y x)).sum) ∧
      r.sumOf = (if 1 < (n :: names).length then some (n :: names).length else none) ∧ fs n = some r.first := by
  obtain ⟨f, hf, hr⟩ := loadImage_ok true hg
  refine ⟨_, hr, ⟨rfl, rfl⟩, ?_, ?_, hf⟩
  · intro y x hy hx
    rw [Img.ofFn_px hy hx]
    have e : ((1 + true.toNat * names.length : ℕ) : ℝ) = ((n :: names).length : ℝ) := by
      simp [Bool.toNat, add_comm]
    rw [e]
    have : ((n :: names).length : ℝ) ≠ 0 := by simp only [List.length_cons]; positivity
    field_simp
  · cases names <;> simp

/-- C67: without `averageimages`, every pixel is the sum. -/
theorem C67_sum {n : Name} {names : List Name} {h w : ℕ} {img : Name → Img ℝ} {date : Name → Option ℕ}
    (hg : GoodFiles fs c (n :: names) h w img date) : ∃ r, loadImage fs c (.list (n :: names)) false = .ok r ∧ r.data.HasShape h w ∧
      (∀ y x, y < h → x < w → r.data.px y x = ((n :: names).map (fun n => (img n).px y x)).sum) ∧
      r.sumOf = (if 1 < (n :: names).length then some (n :: names).length else none) ∧ fs n = some r.first := by
  obtain ⟨f, hf, hr⟩ := loadImage_ok false hg
  refine ⟨_, hr, ⟨rfl, rfl⟩, ?_, ?_, hf⟩
  · intro y x hy hx
    rw [Img.ofFn_px hy hx]
    simp [Bool.toNat]
  · cases names <;> simp

theorem sortedDates_spec (c : Clock) (l : List (Option ℕ)) :
    IsEarliest c l (((l.filterMap id).mergeSort (fun a b => decide (a ≤ b))).head?.map c.str) ∧
    IsLatest c l (((l.filterMap id).mergeSort (fun a b => decide (a ≤ b))).getLast?.map c.str) := by
  have hp : ((l.filterMap id).mergeSort (fun a b => decide (a ≤ b))).Pairwise (fun a b => a ≤ b) := by
    have := List.pairwise_mergeSort (le := fun a b : ℕ => decide (a ≤ b)) (by intro a b c; simp; omega) (by intro a b; simp; omega)
      (l.filterMap id)
    simpa using this
  have hm : ∀ t, t ∈ (l.filterMap id).mergeSort (fun a b => decide (a ≤ b)) ↔ some t ∈ l := by
    intro t
    rw [List.mem_mergeSort]
    simp
  obtain ⟨s, hs⟩ : ∃ s, s = (l.filterMap id).mergeSort (fun a b => decide (a ≤ b)) := ⟨_, rfl⟩
  rw [← hs] at hp hm ⊢
  rcases List.eq_nil_or_concat s with h0 | ⟨s', b, h1⟩
  · have : ∀ d ∈ l, d = none := by
      intro d hd
      cases d with
      | none => rfl
      | some t => have := (hm t).2 hd; rw [h0] at this; simp at this
    exact ⟨Or.inr ⟨this, by rw [h0]; rfl⟩, Or.inr ⟨this, by rw [h0]; rfl⟩⟩
  · rw [List.concat_eq_append] at h1
    constructor
    · left
      cases hs2 : s with
      | nil => rw [hs2] at h1; simp at h1
      | cons a t =>
        refine ⟨a, (hm a).1 (by rw [hs2]; simp), ?_, rfl⟩
        intro u hu
        have h3 := (hm u).2 hu
        rw [hs2] at h3 hp
        rcases List.mem_cons.1 h3 with h4 | h4
        · omega
        · exact (List.pairwise_cons.1 hp).1 u h4
    · left
      refine ⟨b, (hm b).1 (by rw [h1]; simp), ?_, by rw [h1]; simp⟩
      intro u hu
      have h3 := (hm u).2 hu
      rw [h1] at h3 hp
      rcases List.mem_append.1 h3 with h4 | h4
      · exact (List.pairwise_append.1 hp).2.2 u h4 b (by simp)
      · simp at h4; omega

/-- C67: with two or more files `STRT-OBS` and `END-OBS` are the earliest and the latest date; undated files are left out, and
without any date neither keyword is written. -/
theorem C67_dates {n m : Name} {names : List Name} {h w : ℕ} {img : Name → Img ℝ} {date : Name → Option ℕ} (average : Bool)
    (hg : GoodFiles fs c (n :: m :: names) h w img date) : ∃ r, loadImage fs c (.list (n :: m :: names)) average = .ok r ∧
      IsEarliest c ((n :: m :: names).map date) r.strtObs ∧ IsLatest c ((n :: m :: names).map date) r.endObs := by
  obtain ⟨f, hf, hr⟩ := loadImage_ok average hg
  have := sortedDates_spec c ((n :: m :: names).map date)
  refine ⟨_, hr, ?_, ?_⟩
  · rw [if_neg (by simp)]; exact this.1
  · rw [if_neg (by simp)]; exact this.2

/-- C67: the order of the files does not matter for the pixels, the count and the dates. -/
theorem C67_order {l l' : List Name} {h w : ℕ} {img : Name → Img ℝ} {date : Name → Option ℕ} (average : Bool)
    (hg : GoodFiles fs c l h w img date) (hne : l ≠ []) (hp : l.Perm l') : ∃ r r', loadImage fs c (.list l) average = .ok r ∧
      loadImage fs c (.list l') average = .ok r' ∧ r.data = r'.data ∧ r.sumOf = r'.sumOf ∧ r.strtObs = r'.strtObs ∧
      r.endObs = r'.endObs := by
  have hg' : GoodFiles fs c l' h w img date := ⟨fun hc => hg.1 (hp.mem_iff.2 hc), fun n hn => hg.2 n (hp.mem_iff.2 hn)⟩
  cases hl : l with
  | nil => exact absurd hl hne
  | cons n names =>
    cases hl' : l' with
    | nil => rw [hl, hl'] at hp; exact absurd hp.length_eq (by simp)
    | cons n' names' =>
      rw [hl] at hg hp
      rw [hl'] at hg' hp
      obtain ⟨f, hf, hr⟩ := loadImage_ok average hg
      obtain ⟨f', hf', hr'⟩ := loadImage_ok average hg'
      have hlen : names.length = names'.length := by have := hp.length_eq; simpa using this
      have hnil : names = [] ↔ names' = [] := by rw [← List.length_eq_zero_iff, ← List.length_eq_zero_iff, hlen]
      have hs : (((n :: names).map date).filterMap id).mergeSort (fun a b => decide (a ≤ b)) =
          (((n' :: names').map date).filterMap id).mergeSort (fun a b => decide (a ≤ b)) := by
        have hpair : ∀ l : List ℕ, (l.mergeSort (fun a b => decide (a ≤ b))).Pairwise (fun a b => a ≤ b) := by
          intro l
          have := List.pairwise_mergeSort (le := fun a b : ℕ => decide (a ≤ b)) (by intro a b c; simp; omega)
            (by intro a b; simp; omega) l
          simpa using this
        refine List.Perm.eq_of_pairwise (le := fun a b : ℕ => a ≤ b) (fun a b _ _ h1 h2 => Nat.le_antisymm h1 h2) (hpair _) (hpair _) ?_
        exact ((List.mergeSort_perm _ _).trans ((hp.map date).filterMap id)).trans (List.mergeSort_perm _ _).symm
      refine ⟨_, _, hr, hr', ?_, ?_, ?_, ?_⟩
      · dsimp only
        rw [hlen]
        refine Img.ofFn_congr ?_
        intro y x _ _
        rw [(hp.map (fun n => (img n).px y x)).sum_eq]
      · dsimp only
        rw [hlen]
        simp only [hnil]
      · dsimp only
        rw [hs]
        simp only [hnil]
      · dsimp only
        rw [hs]
        simp only [hnil]

/-- C67: an empty list raises `NameError`. -/
theorem C67_empty (average : Bool) : loadImage fs c (.list []) average = .error .nameError := rfl

theorem openFold_not_ok {all : List Name} {k : ℕ} {P : Name → Prop} (hP : ∀ n st, P n → ∀ r, openBody fs c all k n st ≠ .ok r)
    (names : List Name) (hn : ∃ n ∈ names, P n) (st : OpenState) : ∀ r, forList names st (openBody fs c all k) ≠ .ok r := by
  induction names generalizing st with
  | nil => obtain ⟨n, hn, _⟩ := hn; simp at hn
  | cons m names ih =>
    intro r hr
    unfold forList at hr ih
    rw [List.foldlM_cons] at hr
    obtain ⟨st', h1, h2⟩ := Py.bind_eq_ok.1 hr
    obtain ⟨n, hn, hPn⟩ := hn
    rcases List.mem_cons.1 hn with e | e
    · exact hP m st (e ▸ hPn) st' h1
    · exact ih ⟨n, e, hPn⟩ st' r h2

/-- C67: no image comes out if one of the files is missing or holds no image: a partial mean is never returned. -/
theorem C67_missing {l : List Name} {average : Bool} (hm : ∃ n ∈ l, fs n = none ∨ ∃ f, fs n = some f ∧ f.data = none) :
    ∀ r, loadImage fs c (.list l) average ≠ .ok r := by
  intro r hr
  unfold loadImage at hr
  dsimp only [FilesArg.names] at hr
  have hne : l.length ≠ 0 := by
    obtain ⟨n, hn, _⟩ := hm
    intro e
    rw [List.length_eq_zero_iff.1 e] at hn
    simp at hn
  rw [if_neg hne] at hr
  obtain ⟨st, h1, h2⟩ := Py.bind_eq_ok.1 hr
  refine openFold_not_ok (P := fun n => fs n = none ∨ ∃ f, fs n = some f ∧ f.data = none) ?_ l hm _ st h1
  intro n st hP r hb
  unfold openBody at hb
  split_ifs at hb with hraw
  rcases hP with hP | ⟨f, hP, hd⟩
  · rw [hP] at hb
    simp at hb
  · rw [hP] at hb
    dsimp only at hb
    unfold scaledData at hb
    rw [hd] at hb
    dsimp only at hb
    rw [Py.error_bind] at hb
    simp at hb

theorem bdim_differ {a b : ℕ} (ha : a ≠ 1) (hb : b ≠ 1) (h : a ≠ b) : bdim a b = .error .valueError := by
  simp [bdim, ha, hb, h]

theorem npBin_differ {f : ℝ → ℝ → ℝ} {A B : Img ℝ} (h1 : A.h ≠ 1) (h2 : A.w ≠ 1) (h3 : B.h ≠ 1) (h4 : B.w ≠ 1)
    (h : ¬ B.HasShape A.h A.w) : npBin f A B = .error .valueError := by
  unfold npBin npBinAt
  by_cases hh : A.h = B.h
  · rw [hh, bdim_self, Py.ok_bind, bdim_differ h2 h4 (fun e => h ⟨hh.symm, e.symm⟩), Py.error_bind]
  · rw [bdim_differ h1 h3 hh, Py.error_bind]

/-- C67: files of different shapes (no side equal to one) raise `ValueError`: they are never combined. -/
theorem C67_shapes {n m : Name} {names : List Name} {img : Name → Img ℝ} {average : Bool} (hraw : rawExt ∉ n :: names)
    (hg : ∀ m ∈ n :: names, (img m).h ≠ 1 ∧ (img m).w ≠ 1 ∧
      ∃ f t, fs m = some f ∧ f.data = some (img m) ∧ fileDate c f = .ok t)
    (hm : m ∈ names) (hdiff : ¬ (img m).HasShape (img n).h (img n).w) :
    loadImage fs c (.list (n :: names)) average = .error .valueError := by
  unfold loadImage
  dsimp only [FilesArg.names]
  rw [if_neg (by simp)]
  obtain ⟨k, hk⟩ : ∃ k, k = 1 + average.toNat * ((n :: names).length - 1) := ⟨_, rfl⟩
  rw [← hk]
  obtain ⟨h1, h2, f, t, hf, hd, ht⟩ := hg n (by simp)
  have key : ∀ (l : List Name) (s : Img ℝ) (ds : List (Option ℕ)), (∀ m ∈ l, m ∈ n :: names) → s.HasShape (img n).h (img n).w →
      m ∈ l → forList l (⟨some s, some f, ds⟩ : OpenState) (openBody fs c (n :: names) k) = .error .valueError := by
    intro l
    induction l with
    | nil => intro s ds _ _ h; simp at h
    | cons a l ih =>
      intro s ds hl hs hml
      obtain ⟨a1, a2, fa, ta, hfa, hda, hta⟩ := hg a (hl a (by simp))
      unfold forList at ih ⊢
      rw [List.foldlM_cons]
      by_cases hsh : (img a).HasShape (img n).h (img n).w
      · rw [openBody_next hraw hfa hda hta ⟨by rw [hs.1, hsh.1], by rw [hs.2, hsh.2]⟩, Py.ok_bind]
        refine ih _ _ (fun b hb => hl b (by simp [hb])) ⟨hs.1, hs.2⟩ ?_
        rcases List.mem_cons.1 hml with e | e
        · exact absurd (e ▸ hsh) hdiff
        · exact e
      · have : openBody fs c (n :: names) k a (⟨some s, some f, ds⟩ : OpenState) = .error .valueError := by
          unfold openBody
          rw [if_neg hraw, hfa]
          dsimp only
          unfold scaledData
          rw [hda]
          dsimp only
          rw [Py.ok_bind, npBin_differ (B := (img a).map (fun v => v / (k : ℝ))) (by rw [hs.1]; exact h1) (by rw [hs.2]; exact h2) a1 a2
            (fun e => hsh ⟨e.1.trans hs.1, e.2.trans hs.2⟩), Py.error_bind]
        rw [this, Py.error_bind]
  have h3 := key names ((img n).map (fun v => v / (k : ℝ))) [t] (fun b hb => by simp [hb]) ⟨rfl, rfl⟩ hm
  unfold forList at h3 ⊢
  rw [List.foldlM_cons, openBody_first hraw hf hd ht, Py.ok_bind, h3, Py.error_bind]

/-- C67: a file whose `DATE-OBS` is not in the standard format and that has no `TIME-OBS` cannot be loaded at all: the `KeyError`
raised inside the handler is not caught by the sibling `except KeyError`. -/
theorem C67_no_time {n : Name} {f : FitsFile} {d : Img ℝ} {s : Name} {average : Bool} (hraw : n ≠ rawExt) (hf : fs n = some f)
    (hd : f.data = some d) (hs : f.dateObs = some s) (hstd : c.standard (beforeDot s) = none) (ht : f.timeObs = none) :
    loadImage fs c (.list [n]) average = .error .keyError := by
  unfold loadImage
  dsimp only [FilesArg.names]
  rw [if_neg (by simp)]
  unfold forList
  rw [List.foldlM_cons]
  unfold openBody
  rw [if_neg (by simpa using fun e => hraw e.symm), hf]
  dsimp only
  unfold scaledData
  rw [hd]
  dsimp only
  have : fileDate c f = .error .keyError := by
    unfold fileDate
    rw [hs]
    dsimp only
    rw [hstd, ht]
  rw [Py.ok_bind, this]
  rfl

/-- C68, the part that holds: a list of one name keeps the name (and the pixels and no new keyword). -/
theorem C68_list_partial {n : Name} {h w : ℕ} {img : Name → Img ℝ} {date : Name → Option ℕ} (average : Bool)
    (hg : GoodFiles fs c [n] h w img date) : ∃ r, loadImage fs c (.list [n]) average = .ok r ∧ r.filename = n ∧
      r.data = img n ∧ r.sumOf = none ∧ r.strtObs = none ∧ r.endObs = none := by
  obtain ⟨f, hf, hr⟩ := loadImage_ok average hg
  refine ⟨_, hr, rfl, ?_, rfl, rfl, rfl⟩
  obtain ⟨h1, h2⟩ := (hg.2 n (by simp)).1
  refine Img.ext_px h1.symm h2.symm ?_
  dsimp only
  intro y x hy hx
  rw [Img.ofFn_px (show y < h from hy) (show x < w from hx)]
  simp

theorem joinChar_same (s : Name) : joinChar '/' (splitChar '/' s) = s := by
  rw [joinChar_split]
  conv_rhs => rw [← List.map_id s]
  refine List.map_congr_left ?_
  intro a _
  split_ifs with h
  · exact h.symm
  · rfl

/-- C68: several files: the name of the first with `SUM_` before its last part. -/
theorem C68_sum_name {n m base : Name} {names : List Name} {h w : ℕ} {img : Name → Img ℝ} {date : Name → Option ℕ} (average : Bool)
    (hg : GoodFiles fs c (n :: m :: names) h w img date) (hb : '/' ∉ base) :
    ∃ r, loadImage fs c (.list (n :: m :: names)) average = .ok r ∧
      (n = base → r.filename = ['S', 'U', 'M', '_'] ++ base) ∧
      (∀ dir, n = dir ++ '/' :: base → r.filename = dir ++ '/' :: (['S', 'U', 'M', '_'] ++ base)) := by
  obtain ⟨f, hf, hr⟩ := loadImage_ok average hg
  refine ⟨_, hr, ?_, ?_⟩
  · intro e
    dsimp only
    rw [if_neg (by simp), e]
    unfold sumName
    rw [splitChar_none hb]
    rfl
  · intro dir e
    dsimp only
    rw [if_neg (by simp), e]
    unfold sumName
    rw [splitChar_append, splitChar_none hb]
    dsimp only
    rw [List.dropLast_concat, List.getLast?_concat]
    dsimp only [Option.getD_some]
    rw [joinChar_append (splitChar_ne_nil _ _), joinChar_same]

/-- C68, violated: for a plain string the image is the one in the file but its `filename` is the first character. -/
theorem C68_string {s : Name} {h w : ℕ} {img : Name → Img ℝ} {date : Name → Option ℕ} (average : Bool)
    (hg : GoodFiles fs c [s] h w img date) : ∃ r, loadImage fs c (.single s) average = .ok r ∧ r.data = img s ∧
      r.filename = s.take 1 ∧ (2 ≤ s.length → r.filename ≠ s) := by
  obtain ⟨r, hr, _, hd, -, -, -⟩ := C68_list_partial average hg
  have hn := hr
  unfold loadImage at hr ⊢
  dsimp only [FilesArg.names] at hr ⊢
  rw [if_neg (by simp)] at hr ⊢
  obtain ⟨st, h1, h2⟩ := Py.bind_eq_ok.1 hr
  rw [h1, Py.ok_bind]
  cases hc : st.combined with
  | none => rw [hc] at h2; simp at h2
  | some d =>
    cases hh : st.header with
    | none => rw [hc, hh] at h2; simp at h2
    | some g =>
      rw [hc, hh] at h2
      replace h2 : (Except.ok _ : Py LoadedImage) = _ := h2
      refine ⟨_, rfl, ?_, rfl, ?_⟩
      · have := Except.ok.inj h2
        rw [← this] at hd
        exact hd
      · intro hlen e
        have := congrArg List.length e
        simp only [List.length_take] at this
        omega

/-- Non-vacuity: two dated files and an undated one satisfy `GoodFiles`; the dates are in the wrong order. -/
def loadClock : Clock := ⟨fun s => if s = ['b'] then some 7 else some 3, fun _ => none, fun t => t.repr.toList⟩

def loadFiles : Name → Option FitsFile := fun n =>
  if n = ['u'] then some ⟨some (Img.const 2 4 5), none, none⟩
  else some ⟨some (Img.ofFn 2 4 (fun y x => (y : ℝ) + x)), some n, none⟩

example : GoodFiles loadFiles loadClock [['d', '/', 'b'], ['b'], ['a'], ['u']] 2 4
    (fun n => if n = ['u'] then Img.const 2 4 5 else Img.ofFn 2 4 (fun y x => (y : ℝ) + x))
    (fun n => if n = ['u'] then none else if n = ['b'] then some 7 else some 3) := by
  refine ⟨by decide, ?_⟩
  intro n hn
  simp only [List.mem_cons, List.not_mem_nil, or_false] at hn
  rcases hn with rfl | rfl | rfl | rfl
  · exact ⟨⟨rfl, rfl⟩, _, rfl, rfl, rfl⟩
  · exact ⟨⟨rfl, rfl⟩, _, rfl, rfl, rfl⟩
  · exact ⟨⟨rfl, rfl⟩, _, rfl, rfl, rfl⟩
  · exact ⟨⟨rfl, rfl⟩, _, rfl, rfl, rfl⟩

/-- Non-vacuity of `C67_shapes`, `C67_no_time`: files of different shapes; a file with a date in an unknown format. -/
example : ¬ (Img.const 2 4 (5 : ℝ)).HasShape (Img.const 4 4 (5 : ℝ)).h (Img.const 4 4 (5 : ℝ)).w := by
  intro h
  have := h.1
  simp [Img.const] at this

example : (⟨fun _ => none, fun _ => none, fun _ => []⟩ : Clock).standard (beforeDot ['x']) = none := rfl

end

end Micropol
