import Verif.Model.Figures
import Verif.Spec.Figures
import Verif.Spec.Shape
import Verif.Lemmas.Utils
import Verif.Lemmas.Split
import Verif.Lemmas.Chen
import Mathlib.Algebra.BigOperators.Group.List.Basic
import Mathlib.Data.Finset.Card
import Mathlib.Algebra.BigOperators.Ring.Finset
import Mathlib.Tactic.Linarith
import Mathlib.Tactic.FieldSimp
import Mathlib.Tactic.Ring
import Mathlib.Tactic.Positivity

/-!
# Lemmas on figures and histograms
-/

set_option autoImplicit false

namespace Micropol

open Finset

theorem pixelList_mem (A : Img ℝ) (v : ℝ) : v ∈ pixelList A ↔ ∃ y x, y < A.h ∧ x < A.w ∧ A.px y x = v := by
  unfold pixelList
  simp only [List.mem_flatMap, List.mem_map, List.mem_range]
  constructor
  · rintro ⟨y, hy, x, hx, e⟩
    exact ⟨y, x, hy, hx, e⟩
  · rintro ⟨y, x, hy, hx, e⟩
    exact ⟨y, hy, x, hx, e⟩

theorem list_range_sum {β : Type} [AddCommMonoid β] (f : Nat → β) (n : Nat) :
    ((List.range n).map f).sum = ∑ i ∈ range n, f i := by
  induction n with
  | zero => simp
  | succ n ih => rw [List.range_succ, List.map_append, List.sum_append, ih, sum_range_succ]; simp

theorem countP_map_range (p : ℝ → Bool) (f : Nat → ℝ) (n : Nat) :
    ((List.range n).map f).countP p = ∑ i ∈ range n, if p (f i) = true then 1 else 0 := by
  induction n with
  | zero => simp
  | succ n ih => rw [List.range_succ, List.map_append, List.countP_append, ih, sum_range_succ]; simp [List.countP_cons]

theorem countP_pixels (A : Img ℝ) (p : ℝ → Bool) :
    (pixelList A).countP p = ∑ y ∈ range A.h, ∑ x ∈ range A.w, if p (A.px y x) = true then 1 else 0 := by
  unfold pixelList
  rw [List.countP_flatMap, ← list_range_sum]
  congr 1
  refine List.map_congr_left (fun y _ => ?_)
  exact countP_map_range p _ _

theorem countP_pixelsWith (A : Img ℝ) (P : ℝ → Prop) [DecidablePred P] :
    (pixelList A).countP (fun v => decide (P v)) = pixelsWith A P := by
  rw [countP_pixels]
  unfold pixelsWith
  rw [card_filter, sum_product]
  refine sum_congr rfl (fun y _ => sum_congr rfl (fun x _ => ?_))
  simp only [decide_eq_true_eq]
  congr

/-- Sums over the pixels that pass a test. -/
theorem filter_pixels_sum (A : Img ℝ) (p : ℝ → Bool) (f : ℝ → ℝ) :
    (((pixelList A).filter p).map f).sum = ∑ y ∈ range A.h, ∑ x ∈ range A.w, if p (A.px y x) = true then f (A.px y x) else 0 := by
  have key : ∀ l : List ℝ, ((l.filter p).map f).sum = (l.map (fun v => if p v = true then f v else 0)).sum := by
    intro l
    induction l with
    | nil => rfl
    | cons v l ih => by_cases h : p v = true <;> simp [h, ih]
  rw [key]
  unfold pixelList
  rw [List.map_flatMap, List.flatMap_def, List.sum_flatten, List.map_map, list_range_sum]
  refine sum_congr rfl (fun y _ => ?_)
  simp only [Function.comp_def]
  rw [List.map_map, list_range_sum]
  rfl

theorem sum_even {β : Type} [AddCommMonoid β] (f : Nat → β) (m : Nat) :
    ∑ i ∈ range (2 * m), f i = ∑ i ∈ range m, (f (2 * i) + f (2 * i + 1)) := by
  induction m with
  | zero => simp
  | succ m ih =>
    rw [show 2 * (m + 1) = 2 * m + 1 + 1 by ring, sum_range_succ, sum_range_succ, ih, sum_range_succ, add_assoc]

/-- The families share out the pixels. -/
theorem pixels_families {d : Img ℝ} {s : Fin 4 → Img ℝ} (h : splitPolarizations d = .ok s) (hh : d.h % 2 = 0)
    (hw : d.w % 2 = 0) (p : ℝ → Bool) :
    (pixelList d).countP p = ∑ k : Fin 4, (pixelList (s k)).countP p := by
  rw [split_ok hh hw] at h
  injection h with h
  subst h
  have e1 : ∀ k : Fin 4, (pixelList (Img.ofFn (d.h / 2) (d.w / 2)
      (fun y x => d.px (2 * y + k.val / 2) (2 * x + k.val % 2)))).countP p
      = ∑ y ∈ range (d.h / 2), ∑ x ∈ range (d.w / 2),
        if p (d.px (2 * y + k.val / 2) (2 * x + k.val % 2)) = true then 1 else 0 := by
    intro k
    rw [countP_pixels]
    refine sum_congr rfl (fun y hy => sum_congr rfl (fun x hx => ?_))
    rw [Img.ofFn_px (mem_range.1 hy) (mem_range.1 hx)]
  simp only [e1]
  rw [countP_pixels, Fin.sum_univ_four]
  have hH : d.h = 2 * (d.h / 2) := by omega
  have hW : d.w = 2 * (d.w / 2) := by omega
  rw [hH, hW, sum_even]
  simp only [sum_even]
  rw [← hH, ← hW]
  simp only [← sum_add_distrib]
  refine sum_congr rfl (fun y _ => sum_congr rfl (fun x _ => ?_))
  simp
  ring

/-! ## Bins -/

theorem edgeAt_mono (e : ℝ × ℝ) (n : Nat) (he : e.1 ≤ e.2) (i : Nat) : edgeAt e n i ≤ edgeAt e n (i + 1) := by
  unfold edgeAt
  push_cast
  have : 0 ≤ (e.2 - e.1) / n := div_nonneg (by linarith) (by positivity)
  linarith

theorem edgeAt_zero (e : ℝ × ℝ) (n : Nat) : edgeAt e n 0 = e.1 := by unfold edgeAt; simp

theorem edgeAt_last (e : ℝ × ℝ) {n : Nat} (hn : n ≠ 0) : edgeAt e n n = e.2 := by
  unfold edgeAt
  have : (n : ℝ) ≠ 0 := by exact_mod_cast hn
  field_simp
  ring

open Classical in
theorem half_open_sum (g : Nat → ℝ) (hg : ∀ i, g i ≤ g (i + 1)) (v : ℝ) (k : Nat) :
    (∑ i ∈ range k, if g i ≤ v ∧ v < g (i + 1) then 1 else 0) = if g 0 ≤ v ∧ v < g k then 1 else 0 := by
  have mono : ∀ i, g 0 ≤ g i := by
    intro i
    induction i with
    | zero => exact le_refl _
    | succ i ih => exact ih.trans (hg i)
  induction k with
  | zero =>
    rw [sum_range_zero, if_neg]
    rintro ⟨h1, h2⟩
    linarith
  | succ k ih =>
    rw [sum_range_succ, ih]
    have h1 := hg k
    have h2 := mono k
    by_cases a : v < g k
    · by_cases b : g 0 ≤ v
      · rw [if_pos ⟨b, a⟩, if_neg (by rintro ⟨c, _⟩; linarith), if_pos ⟨b, by linarith⟩]
      · rw [if_neg (by tauto), if_neg (by rintro ⟨c, _⟩; linarith), if_neg (by tauto)]
    · rw [if_neg (by tauto)]
      by_cases b : v < g (k + 1)
      · rw [if_pos ⟨by linarith, b⟩, if_pos ⟨by linarith, b⟩]
      · rw [if_neg (by tauto), if_neg (by tauto)]

open Classical in
/-- Each value between the ends is in exactly one bin. -/
theorem bins_sum (e : ℝ × ℝ) {n : Nat} (hn : n ≠ 0) (he : e.1 ≤ e.2) (v : ℝ) :
    (∑ i ∈ range n, if edgeAt e n i ≤ v ∧ (v < edgeAt e n (i + 1) ∨ (i + 1 = n ∧ v ≤ edgeAt e n (i + 1))) then 1 else 0)
      = if e.1 ≤ v ∧ v ≤ e.2 then 1 else 0 := by
  obtain ⟨m, rfl⟩ : ∃ m, n = m + 1 := ⟨n - 1, by omega⟩
  rw [sum_range_succ]
  have h1 : ∀ i ∈ range m, (if edgeAt e (m + 1) i ≤ v ∧ (v < edgeAt e (m + 1) (i + 1) ∨
      (i + 1 = m + 1 ∧ v ≤ edgeAt e (m + 1) (i + 1))) then 1 else 0)
      = if edgeAt e (m + 1) i ≤ v ∧ v < edgeAt e (m + 1) (i + 1) then 1 else 0 := by
    intro i hi
    have := mem_range.1 hi
    have h : ¬ (i + 1 = m + 1) := by omega
    simp only [h, false_and, or_false]
  rw [sum_congr rfl h1, half_open_sum (edgeAt e (m + 1)) (edgeAt_mono e (m + 1) he) v m, edgeAt_zero]
  have hl := edgeAt_last e (n := m + 1) (by omega)
  have hm := edgeAt_mono e (m + 1) he m
  have h0 : e.1 ≤ edgeAt e (m + 1) m := by
    have : ∀ i, edgeAt e (m + 1) 0 ≤ edgeAt e (m + 1) i := by
      intro i
      induction i with
      | zero => exact le_refl _
      | succ i ih => exact ih.trans (edgeAt_mono e (m + 1) he i)
    rw [← edgeAt_zero e (m + 1)]
    exact this m
  rw [hl] at hm ⊢
  by_cases a : v < edgeAt e (m + 1) m
  · by_cases b : e.1 ≤ v
    · rw [if_pos ⟨b, a⟩, if_neg (by rintro ⟨c, _⟩; linarith), if_pos ⟨b, by linarith⟩]
    · rw [if_neg (by tauto), if_neg (by rintro ⟨c, _⟩; linarith), if_neg (by tauto)]
  · rw [if_neg (by tauto)]
    by_cases b : v ≤ e.2
    · rw [if_pos ⟨by linarith, Or.inr ⟨rfl, b⟩⟩, if_pos ⟨by linarith, b⟩]
    · rw [if_neg, if_neg (by tauto)]
      rintro ⟨_, c | ⟨_, c⟩⟩ <;> linarith

open Classical in
theorem counts_sum (e : ℝ × ℝ) {n : Nat} (hn : n ≠ 0) (he : e.1 ≤ e.2) (l : List ℝ) :
    ((List.range n).map (countAt e n l)).sum = l.countP (fun v => decide (e.1 ≤ v ∧ v ≤ e.2)) := by
  rw [list_range_sum]
  unfold countAt
  induction l with
  | nil => simp
  | cons v l ih =>
    simp only [List.countP_cons, sum_add_distrib, ih, decide_eq_true_eq]
    rw [bins_sum e hn he v]

theorem histRange_le (l : List ℝ) : (histRange l).1 ≤ (histRange l).2 ∧ ∀ v ∈ l, (histRange l).1 ≤ v ∧ v ≤ (histRange l).2 := by
  cases l with
  | nil => simp [histRange]
  | cons p l =>
    obtain ⟨g1, g2, -⟩ := foldl_max_ge l p
    have f : ∀ (l : List ℝ) (p : ℝ), l.foldl min p ≤ p ∧ ∀ v ∈ l, l.foldl min p ≤ v := by
      intro l
      induction l with
      | nil => intro p; exact ⟨le_refl _, by simp⟩
      | cons q l ih =>
        intro p
        rw [List.foldl_cons]
        obtain ⟨i1, i2⟩ := ih (min p q)
        refine ⟨i1.trans (min_le_left _ _), ?_⟩
        intro v hv
        rcases List.mem_cons.1 hv with rfl | hv
        · exact i1.trans (min_le_right _ _)
        · exact i2 v hv
    obtain ⟨f1, f2⟩ := f l p
    have key : ∀ v ∈ p :: l, l.foldl min p ≤ v ∧ v ≤ l.foldl max p := by
      intro v hv
      rcases List.mem_cons.1 hv with rfl | hv
      · exact ⟨f1, g1⟩
      · exact ⟨f2 v hv, g2 v hv⟩
    unfold histRange
    dsimp only
    split
    · refine ⟨by dsimp only; linarith [f1, g1], ?_⟩
      intro v hv
      have := key v hv
      exact ⟨by dsimp only; linarith [this.1], by dsimp only; linarith [this.2]⟩
    · exact ⟨f1.trans g1, key⟩

/-! ## Means -/

theorem stats_ok {A : Img ℝ} (hh : 0 < A.h) (hw : 0 < A.w) :
    ∃ m s, npMean A = .ok m ∧ npStd A = .ok s ∧ PixelMean A m ∧ PixelSpread A m s := by
  obtain ⟨s, hs, h0, hsq⟩ := npStd_sq hh hw
  refine ⟨_, s, npMean_real hh hw, hs, ?_, h0, ?_⟩
  · unfold PixelMean
    have hne : ((A.h * A.w : Nat) : ℝ) ≠ 0 := by
      have : 0 < A.h * A.w := Nat.mul_pos hh hw
      exact_mod_cast this.ne'
    rw [← Nat.cast_mul, div_mul_cancel₀ _ hne]
  · rw [← hsq, Nat.cast_mul]

theorem mean_unique {A : Img ℝ} (hh : 0 < A.h) (hw : 0 < A.w) {m m' : ℝ} (h : PixelMean A m) (h' : PixelMean A m') : m = m' := by
  unfold PixelMean at h h'
  have hne : (A.h * A.w : ℝ) ≠ 0 := by positivity
  exact mul_right_cancel₀ hne (h.trans h'.symm)

theorem npMin_eq {A : Img ℝ} (hh : 0 < A.h) (hw : 0 < A.w) :
    ∃ m, npMin A = .ok m ∧ (∃ y x, y < A.h ∧ x < A.w ∧ A.px y x = m) ∧ ∀ y x, y < A.h → x < A.w → m ≤ A.px y x := by
  have f : ∀ (l : List ℝ) (p : ℝ), l.foldl min p ≤ p ∧ (∀ v ∈ l, l.foldl min p ≤ v) ∧ l.foldl min p ∈ p :: l := by
    intro l
    induction l with
    | nil => intro p; exact ⟨le_refl _, by simp, by simp⟩
    | cons q l ih =>
      intro p
      rw [List.foldl_cons]
      obtain ⟨i1, i2, i3⟩ := ih (min p q)
      refine ⟨i1.trans (min_le_left _ _), ?_, ?_⟩
      · intro v hv
        rcases List.mem_cons.1 hv with rfl | hv
        · exact i1.trans (min_le_right _ _)
        · exact i2 v hv
      · rcases List.mem_cons.1 i3 with h | h
        · rw [h]
          rcases min_choice p q with h' | h' <;> rw [h'] <;> simp
        · exact List.mem_cons_of_mem _ (List.mem_cons_of_mem _ h)
  unfold npMin
  cases hl : pixelList A with
  | nil =>
    have := (pixelList_mem A (A.px 0 0)).2 ⟨0, 0, hh, hw, rfl⟩
    rw [hl] at this
    exact absurd this (by simp)
  | cons p l =>
    obtain ⟨f1, f2, f3⟩ := f l p
    refine ⟨_, rfl, ?_, ?_⟩
    · rw [← hl] at f3
      exact (pixelList_mem A _).1 f3
    · intro y x hy hx
      have := (pixelList_mem A (A.px y x)).2 ⟨y, x, hy, hx, rfl⟩
      rw [hl] at this
      rcases List.mem_cons.1 this with h | h
      · rw [h]; exact f1
      · exact f2 _ h

theorem npMax_ok {A : Img ℝ} (hh : 0 < A.h) (hw : 0 < A.w) :
    ∃ m, npMax A = .ok m ∧ (∃ y x, y < A.h ∧ x < A.w ∧ A.px y x = m) ∧ ∀ y x, y < A.h → x < A.w → A.px y x ≤ m := by
  unfold npMax
  cases hl : pixelList A with
  | nil =>
    have := (pixelList_mem A (A.px 0 0)).2 ⟨0, 0, hh, hw, rfl⟩
    rw [hl] at this
    exact absurd this (by simp)
  | cons p l =>
    obtain ⟨g1, g2, g3⟩ := foldl_max_ge l p
    refine ⟨_, rfl, ?_, ?_⟩
    · refine (pixelList_mem A _).1 ?_
      rw [hl]
      rcases g3 with g3 | g3
      · rw [g3]; simp
      · exact List.mem_cons_of_mem _ g3
    · intro y x hy hx
      have := (pixelList_mem A (A.px y x)).2 ⟨y, x, hy, hx, rfl⟩
      rw [hl] at this
      rcases List.mem_cons.1 this with h | h
      · rw [h]; exact g1
      · exact g2 _ h

end Micropol
