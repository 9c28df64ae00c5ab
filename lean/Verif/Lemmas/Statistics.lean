import Verif.Model.Statistics
import Verif.Spec.Statistics
import Mathlib.Data.List.GetD
import Mathlib.Tactic.Linarith
import Mathlib.Tactic.FieldSimp
import Mathlib.Tactic.Ring

/-! # Lemmas on medians and classes -/

set_option autoImplicit false

namespace Micropol

noncomputable section

open Classical

theorem median_unique {l : List ℝ} {m m' : ℝ} (h : IsMedian l m) (h' : IsMedian l m') : m = m' := by
  obtain ⟨s, hp, hs, a, b, ha, hb, rfl⟩ := h
  obtain ⟨s', hp', hs', a', b', ha', hb', rfl⟩ := h'
  have e : s = s' := (hp.trans hp'.symm).eq_of_pairwise' hs hs'
  subst e
  rw [ha] at ha'
  rw [hb] at hb'
  cases ha'
  cases hb'
  rfl

theorem median_nonempty {l : List ℝ} {m : ℝ} (h : IsMedian l m) : l ≠ [] := by
  obtain ⟨s, hp, hs, a, b, ha, hb, rfl⟩ := h
  rintro rfl
  rw [List.perm_nil.1 hp] at ha
  simp at ha

/-- The computed median is the median. -/
theorem npMedian_ok {l : List ℝ} (hl : l ≠ []) : ∃ m, npMedian l = .ok m ∧ IsMedian l m := by
  have hperm := List.perm_insertionSort (fun a b : ℝ => a ≤ b) l
  have hsort : (l.insertionSort (fun a b : ℝ => a ≤ b)).Pairwise (· ≤ ·) :=
    List.pairwise_insertionSort (fun a b : ℝ => a ≤ b) l
  have hlen : 0 < (l.insertionSort (fun a b : ℝ => a ≤ b)).length := by
    rw [hperm.length_eq]
    exact List.length_pos_iff.2 hl
  unfold npMedian
  rw [if_neg hl]
  dsimp only
  generalize l.insertionSort (fun a b : ℝ => a ≤ b) = s at *
  have g1 : (s.length - 1) / 2 < s.length := by omega
  have g2 : s.length / 2 < s.length := by omega
  split_ifs with hodd
  · refine ⟨_, rfl, s, hperm, hsort, s[s.length / 2], s[s.length / 2], ?_, ?_, ?_⟩
    · rw [show (s.length - 1) / 2 = s.length / 2 by omega]
      exact List.getElem?_eq_getElem g2
    · exact List.getElem?_eq_getElem g2
    · rw [List.getD_eq_getElem _ _ g2]
      ring
  · refine ⟨_, rfl, s, hperm, hsort, s[(s.length - 1) / 2], s[s.length / 2], List.getElem?_eq_getElem g1,
      List.getElem?_eq_getElem g2, ?_⟩
    have e : s.length / 2 - 1 = (s.length - 1) / 2 := by omega
    rw [List.getD_eq_getElem _ _ g2, e, List.getD_eq_getElem _ _ g1]

theorem npMedian_eq {l : List ℝ} {m : ℝ} (h : IsMedian l m) : npMedian l = .ok m := by
  obtain ⟨m', h1, h2⟩ := npMedian_ok (median_nonempty h)
  rw [h1, median_unique h2 h]

/-- At least half of the values are not above the median. -/
theorem median_lower {l : List ℝ} {m : ℝ} (h : IsMedian l m) : l.length ≤ 2 * l.countP (fun v => decide (v ≤ m)) := by
  obtain ⟨s, hp, hs, a, b, ha, hb, rfl⟩ := h
  rw [← hp.countP_eq, ← hp.length_eq]
  obtain ⟨g1, ea⟩ := List.getElem?_eq_some_iff.1 ha
  obtain ⟨g2, eb⟩ := List.getElem?_eq_some_iff.1 hb
  have hab : a ≤ b := by
    rw [← ea, ← eb]
    rcases Nat.lt_or_ge ((s.length - 1) / 2) (s.length / 2) with hc | hc
    · exact List.pairwise_iff_getElem.1 hs _ _ g1 g2 hc
    · have : (s.length - 1) / 2 = s.length / 2 := by omega
      simp only [this, le_refl]
  have hsub : (s.take ((s.length - 1) / 2 + 1)).countP (fun v => decide (v ≤ (a + b) / 2)) ≤
      s.countP (fun v => decide (v ≤ (a + b) / 2)) := (List.take_sublist _ _).countP_le
  have hall : (s.take ((s.length - 1) / 2 + 1)).countP (fun v => decide (v ≤ (a + b) / 2)) =
      (s.take ((s.length - 1) / 2 + 1)).length := by
    rw [List.countP_eq_length]
    intro v hv
    obtain ⟨i, hi, rfl⟩ := List.getElem_of_mem hv
    rw [List.length_take] at hi
    rw [List.getElem_take]
    have hia : s[i] ≤ a := by
      rw [← ea]
      rcases Nat.lt_or_ge i ((s.length - 1) / 2) with hc | hc
      · exact List.pairwise_iff_getElem.1 hs _ _ (by omega) g1 hc
      · have : i = (s.length - 1) / 2 := by omega
        simp only [this, le_refl]
    simp only [decide_eq_true_eq]
    linarith
  rw [List.length_take] at hall
  omega

theorem ravel_map (A : Img ℝ) (f : ℝ → ℝ) : ravel (A.map f) = (ravel A).map f := by
  unfold ravel
  rw [List.map_flatMap]
  show (List.range A.h).flatMap _ = _
  refine List.flatMap_congr ?_
  intro y hy
  rw [List.map_map]
  refine List.map_congr_left ?_
  intro x hx
  exact Img.map_px f A (List.mem_range.1 hy) (List.mem_range.1 hx)

theorem pixelValues_eq (A : Img ℝ) : ravel A = pixelValues A := rfl

theorem pixelValues_length (A : Img ℝ) : (pixelValues A).length = A.h * A.w := by
  unfold pixelValues
  rw [List.length_flatMap]
  simp

theorem pixelValues_nonempty {A : Img ℝ} (hh : 0 < A.h) (hw : 0 < A.w) : pixelValues A ≠ [] := by
  intro h
  have := pixelValues_length A
  rw [h] at this
  have h2 := Nat.mul_pos hh hw
  rw [← this] at h2
  simp at h2

/-- Medians follow increasing affine changes. -/
theorem median_affine {l : List ℝ} {m : ℝ} (h : IsMedian l m) {a b : ℝ} (ha : 0 ≤ a) :
    IsMedian (l.map (fun v => a * v + b)) (a * m + b) := by
  obtain ⟨s, hp, hs, p, q, hp', hq, rfl⟩ := h
  refine ⟨s.map (fun v => a * v + b), hp.map _, ?_, a * p + b, a * q + b, ?_, ?_, by ring⟩
  · rw [List.pairwise_map]
    exact hs.imp (fun hxy => by nlinarith)
  · rw [List.length_map, List.getElem?_map, hp']
    rfl
  · rw [List.length_map, List.getElem?_map, hq]
    rfl

theorem median_perm {l l' : List ℝ} (h : l.Perm l') {m : ℝ} (hm : IsMedian l m) : IsMedian l' m := by
  obtain ⟨s, hp, rest⟩ := hm
  exact ⟨s, hp.trans h, rest⟩

theorem median_mono_nonneg {l : List ℝ} {m : ℝ} (h : IsMedian l m) (hl : ∀ v ∈ l, 0 ≤ v) : 0 ≤ m := by
  obtain ⟨s, hp, hs, a, b, ha, hb, rfl⟩ := h
  have h1 := hl a (hp.mem_iff.1 (List.mem_of_getElem? ha))
  have h2 := hl b (hp.mem_iff.1 (List.mem_of_getElem? hb))
  linarith

/-! ## Sums of squares of classes -/

theorem classTerm_eq (data cls : List ℝ) : classTerm data cls = scatter cls / (data.length : ℝ) := by
  unfold classTerm scatter
  split_ifs with h
  · subst h
    simp
  · have : (cls.length : ℝ) ≠ 0 := by
      have := List.length_pos_iff.2 h
      exact_mod_cast this.ne'
    dsimp only
    field_simp

theorem sum_sq_about (l : List ℝ) (c : ℝ) :
    (l.map (fun v => (v - c) ^ 2)).sum = (l.map (fun v => v ^ 2)).sum - 2 * c * l.sum + (l.length : ℝ) * c ^ 2 := by
  induction l with
  | nil => simp
  | cons a l ih =>
    simp only [List.map_cons, List.sum_cons, List.length_cons, Nat.cast_add, Nat.cast_one]
    rw [ih]
    ring

theorem scatter_eq (l : List ℝ) : (l.length : ℝ) * scatter l = (l.length : ℝ) * (l.map (fun v => v ^ 2)).sum - l.sum ^ 2 := by
  unfold scatter
  rw [sum_sq_about]
  by_cases h : (l.length : ℝ) = 0
  · have : l = [] := List.length_eq_zero_iff.1 (by exact_mod_cast h)
    subst this
    simp
  · field_simp
    ring

theorem split_sum (l : List ℝ) (t : ℝ) (f : ℝ → ℝ) :
    ((upper l t).map f).sum + ((lower l t).map f).sum = (l.map f).sum ∧
    (upper l t).length + (lower l t).length = l.length := by
  unfold upper lower
  induction l with
  | nil => simp
  | cons a l ih =>
    by_cases h : t ≤ a
    · have h' : ¬ a < t := not_lt.2 h
      simp only [List.filter_cons, h, h', decide_true, decide_false, if_true, List.map_cons, List.sum_cons, List.length_cons]
      constructor
      · simp only [Bool.false_eq_true, if_false]
        linarith [ih.1]
      · simp only [Bool.false_eq_true, if_false]
        omega
    · have h' : a < t := not_le.1 h
      simp only [List.filter_cons, h, h', decide_true, decide_false, if_true, List.map_cons, List.sum_cons, List.length_cons]
      constructor
      · simp only [Bool.false_eq_true, if_false, List.map_cons, List.sum_cons]
        linarith [ih.1]
      · simp only [Bool.false_eq_true, if_false, List.length_cons]
        omega

/-- The scatter of all values is the scatter within the classes plus the scatter between them. -/
theorem scatter_split (l : List ℝ) (t : ℝ) :
    (l.length : ℝ) * scatter l = (l.length : ℝ) * withinClasses l t + betweenClasses l t := by
  have hs := (split_sum l t (fun v => v)).1
  have hq := (split_sum l t (fun v => v ^ 2)).1
  have hn : ((upper l t).length : ℝ) + ((lower l t).length : ℝ) = (l.length : ℝ) := by
    exact_mod_cast (split_sum l t id).2
  simp only [List.map_id'] at hs
  have e := scatter_eq l
  have eu := scatter_eq (upper l t)
  have el := scatter_eq (lower l t)
  unfold withinClasses betweenClasses
  rw [e, ← hs, ← hq, ← hn]
  by_cases hu : ((upper l t).length : ℝ) = 0
  · have h0 : upper l t = [] := List.length_eq_zero_iff.1 (by exact_mod_cast hu)
    rw [h0] at *
    simp [scatter] at *
    nlinarith
  · by_cases hl : ((lower l t).length : ℝ) = 0
    · have h0 : lower l t = [] := List.length_eq_zero_iff.1 (by exact_mod_cast hl)
      rw [h0] at *
      simp [scatter] at *
      nlinarith
    · have eu' : scatter (upper l t) = ((upper l t).map (fun v => v ^ 2)).sum - (upper l t).sum ^ 2 / ((upper l t).length : ℝ) := by
        field_simp
        linarith
      have el' : scatter (lower l t) = ((lower l t).map (fun v => v ^ 2)).sum - (lower l t).sum ^ 2 / ((lower l t).length : ℝ) := by
        field_simp
        linarith
      rw [eu', el']
      field_simp
      ring

theorem foldl_minBy (key : ℝ → ℝ) (l : List ℝ) (c : ℝ) :
    (l.foldl (fun best v => if key v < key best then v else best) c ∈ c :: l) ∧
    ∀ v ∈ c :: l, key (l.foldl (fun best v => if key v < key best then v else best) c) ≤ key v := by
  induction l generalizing c with
  | nil => simp
  | cons a l ih =>
    rw [List.foldl_cons]
    obtain ⟨h1, h2⟩ := ih (if key a < key c then a else c)
    split_ifs at h1 h2 ⊢ with hc
    · refine ⟨List.mem_cons_of_mem _ h1, ?_⟩
      intro v hv
      rcases List.mem_cons.1 hv with rfl | hv
      · exact (h2 a List.mem_cons_self).trans hc.le
      · exact h2 v hv
    · refine ⟨?_, ?_⟩
      · rcases List.mem_cons.1 h1 with h | h
        · rw [h]; exact List.mem_cons_self
        · exact List.mem_cons_of_mem _ (List.mem_cons_of_mem _ h)
      · intro v hv
        rcases List.mem_cons.1 hv with rfl | hv
        · exact h2 v List.mem_cons_self
        · rcases List.mem_cons.1 hv with rfl | hv
          · exact (h2 c List.mem_cons_self).trans (not_lt.1 hc)
          · exact h2 v (List.mem_cons_of_mem _ hv)

theorem linspace_mem {a b : ℝ} {n : Nat} (hn : 2 ≤ n) (c : ℝ) : c ∈ linspace a b n ↔ IsStep a b n c := by
  have hn1 : ((n : ℝ) - 1) ≠ 0 := by
    have : (2 : ℝ) ≤ n := by exact_mod_cast hn
    intro h
    linarith
  have hc : ((n - 1 : Nat) : ℝ) = (n : ℝ) - 1 := by
    rw [Nat.cast_sub (by omega)]
    simp
  unfold linspace IsStep
  rw [if_neg (by omega), List.mem_map]
  have key : ∀ i, i < n → ((if i = n - 1 then b else (i : ℝ) * ((b - a) / ((n - 1 : Nat) : ℝ)) + a) = c ↔
      c * ((n : ℝ) - 1) = a * ((n : ℝ) - 1 - i) + b * i) := by
    intro i hi
    rw [hc]
    split_ifs with h
    · have : (i : ℝ) = (n : ℝ) - 1 := by rw [h, hc]
      rw [this]
      constructor
      · rintro rfl
        ring
      · intro h'
        have : c * ((n : ℝ) - 1) = b * ((n : ℝ) - 1) := by linarith
        exact (mul_right_cancel₀ hn1 this).symm
    · constructor
      · rintro rfl
        field_simp
        ring
      · intro h'
        have : ((i : ℝ) * ((b - a) / ((n : ℝ) - 1)) + a) * ((n : ℝ) - 1) = c * ((n : ℝ) - 1) := by
          rw [h']
          field_simp
          ring
        exact mul_right_cancel₀ hn1 this
  constructor
  · rintro ⟨i, hi, h⟩
    exact ⟨i, List.mem_range.1 hi, (key i (List.mem_range.1 hi)).1 h⟩
  · rintro ⟨i, hi, h⟩
    exact ⟨i, List.mem_range.2 hi, (key i hi).2 h⟩

theorem foldl_min_spec (l : List ℝ) (p : ℝ) :
    l.foldl min p ∈ p :: l ∧ ∀ v ∈ p :: l, l.foldl min p ≤ v := by
  induction l generalizing p with
  | nil => simp
  | cons a l ih =>
    rw [List.foldl_cons]
    obtain ⟨h1, h2⟩ := ih (min p a)
    constructor
    · rcases List.mem_cons.1 h1 with h | h
      · rw [h]
        rcases min_choice p a with e | e <;> rw [e] <;> simp
      · exact List.mem_cons_of_mem _ (List.mem_cons_of_mem _ h)
    · intro v hv
      have h3 := h2 (min p a) List.mem_cons_self
      rcases List.mem_cons.1 hv with rfl | hv
      · exact h3.trans (min_le_left _ _)
      · rcases List.mem_cons.1 hv with rfl | hv
        · exact h3.trans (min_le_right _ _)
        · exact h2 v (List.mem_cons_of_mem _ hv)

theorem foldl_max_spec (l : List ℝ) (p : ℝ) :
    l.foldl max p ∈ p :: l ∧ ∀ v ∈ p :: l, v ≤ l.foldl max p := by
  induction l generalizing p with
  | nil => simp
  | cons a l ih =>
    rw [List.foldl_cons]
    obtain ⟨h1, h2⟩ := ih (max p a)
    constructor
    · rcases List.mem_cons.1 h1 with h | h
      · rw [h]
        rcases max_choice p a with e | e <;> rw [e] <;> simp
      · exact List.mem_cons_of_mem _ (List.mem_cons_of_mem _ h)
    · intro v hv
      have h3 := h2 (max p a) List.mem_cons_self
      rcases List.mem_cons.1 hv with rfl | hv
      · exact (le_max_left _ _).trans h3
      · rcases List.mem_cons.1 hv with rfl | hv
        · exact (le_max_right _ _).trans h3
        · exact h2 v (List.mem_cons_of_mem _ hv)

end

end Micropol
