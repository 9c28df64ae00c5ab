import Verif.Model.Utils
import Mathlib.Algebra.BigOperators.Field
import Mathlib.Algebra.BigOperators.Ring.Finset
import Mathlib.Algebra.Order.Archimedean.Basic
import Mathlib.Algebra.Order.BigOperators.Group.Finset
import Mathlib.Data.Finset.Lattice.Fold
import Mathlib.Tactic.Linarith
import Mathlib.Tactic.FieldSimp
import Mathlib.Tactic.Positivity

/-! # Auxiliary facts about the numerical helpers -/

set_option autoImplicit false

namespace Micropol

open Finset

theorem mapM_ok {α β : Type} {f : α → Py β} {g : α → β} {l : List α} (h : ∀ a ∈ l, f a = .ok (g a)) :
    l.mapM f = .ok (l.map g) := by
  induction l with
  | nil => rfl
  | cons a l ih =>
    rw [List.mapM_cons, h a (by simp), Py.ok_bind, ih (fun b hb => h b (by simp [hb])), Py.ok_bind]
    rfl

theorem while_down_fuel (c p : ℝ) (hp : 0 < p) (N : Nat) : ∀ s : ℝ, s ≤ c + N * p →
    ∃ k : ℕ, whileFuel (fun a : ℝ => decide (a > c)) (fun a => a - p) N s = .ok (s - k * p) ∧ s - k * p ≤ c ∧
      (k = 0 ∨ c - p < s - k * p) := by
  induction N with
  | zero =>
    intro s hs
    refine ⟨0, ?_, by simpa using hs, Or.inl rfl⟩
    rw [whileFuel_done]
    · simp
    · simp at hs ⊢; linarith
  | succ N ih =>
    intro s hs
    by_cases h : s > c
    · obtain ⟨k, h1, h2, h3⟩ := ih (s - p) (by push_cast at hs; linarith)
      refine ⟨k + 1, ?_, ?_, Or.inr ?_⟩
      · rw [whileFuel, if_pos (by simpa using h), h1]
        push_cast
        congr 1
        ring
      · push_cast; linarith
      · push_cast
        rcases h3 with rfl | h3
        · simp; linarith
        · linarith
    · refine ⟨0, ?_, by push Not at h; simpa using h, Or.inl rfl⟩
      rw [whileFuel_done]
      · simp
      · simpa using h

theorem while_down (c p : ℝ) (hp : 0 < p) (s : ℝ) :
    ∃ k : ℕ, whileLoop (fun a : ℝ => decide (a > c)) (fun a => a - p) s = .ok (s - k * p) ∧ s - k * p ≤ c ∧
      (k = 0 ∨ c - p < s - k * p) := by
  obtain ⟨N, hN⟩ := exists_nat_ge ((s - c) / p)
  rw [div_le_iff₀ hp] at hN
  obtain ⟨k, h1, h2⟩ := while_down_fuel c p hp N s (by linarith)
  exact ⟨k, whileLoop_eq_ok h1, h2⟩

theorem while_up_fuel (c p : ℝ) (hp : 0 < p) (N : Nat) : ∀ s : ℝ, c < s + N * p →
    ∃ k : ℕ, whileFuel (fun a : ℝ => decide (a ≤ c)) (fun a => a + p) N s = .ok (s + k * p) ∧ c < s + k * p ∧
      (k = 0 ∨ s + k * p ≤ c + p) := by
  induction N with
  | zero =>
    intro s hs
    refine ⟨0, ?_, by simpa using hs, Or.inl rfl⟩
    rw [whileFuel_done]
    · simp
    · simp at hs ⊢; linarith
  | succ N ih =>
    intro s hs
    by_cases h : s ≤ c
    · obtain ⟨k, h1, h2, h3⟩ := ih (s + p) (by push_cast at hs; linarith)
      refine ⟨k + 1, ?_, ?_, Or.inr ?_⟩
      · rw [whileFuel, if_pos (by simpa using h), h1]
        push_cast
        congr 1
        ring
      · push_cast; linarith
      · push_cast
        rcases h3 with rfl | h3
        · simp; linarith
        · linarith
    · refine ⟨0, ?_, by push Not at h; simpa using h, Or.inl rfl⟩
      rw [whileFuel_done]
      · simp
      · simpa using h

theorem while_up (c p : ℝ) (hp : 0 < p) (s : ℝ) :
    ∃ k : ℕ, whileLoop (fun a : ℝ => decide (a ≤ c)) (fun a => a + p) s = .ok (s + k * p) ∧ c < s + k * p ∧
      (k = 0 ∨ s + k * p ≤ c + p) := by
  obtain ⟨N, hN⟩ := exists_nat_gt ((c - s) / p)
  rw [div_lt_iff₀ hp] at hN
  obtain ⟨k, h1, h2⟩ := while_up_fuel c p hp N s (by linarith)
  exact ⟨k, whileLoop_eq_ok h1, h2⟩

theorem normalizeAngle_ok (a : ℝ) :
    ∃ r, normalizeAngle a = .ok r ∧ -90 < r ∧ r ≤ 90 ∧ ∃ k : ℤ, r = a + 180 * k := by
  obtain ⟨k, h1, h2, h3⟩ := while_down 90 180 (by norm_num) a
  obtain ⟨m, g1, g2, g3⟩ := while_up (-90) 180 (by norm_num) (a - k * 180)
  refine ⟨a - k * 180 + m * 180, ?_, g2, ?_, (m : ℤ) - k, ?_⟩
  · unfold normalizeAngle
    rw [h1, Py.ok_bind, g1]
  · rcases g3 with rfl | g3
    · simpa using h2
    · linarith
  · push_cast; ring

/-! ## Arrays -/

theorem exists_bound (A : Img ℝ) : ∃ M : ℝ, ∀ y x, y < A.h → x < A.w → |A.px y x| ≤ M := by
  obtain ⟨M, hM⟩ := Finset.exists_le ((range A.h ×ˢ range A.w).image (fun q => |A.px q.1 q.2|))
  refine ⟨M, ?_⟩
  intro y x hy hx
  apply hM
  rw [mem_image]
  exact ⟨(y, x), by simp [hy, hx], rfl⟩

open Classical in
theorem array_down_fuel (c p : ℝ) (hp : 0 < p) (N : Nat) : ∀ A : Img ℝ,
    (∀ y x, y < A.h → x < A.w → A.px y x ≤ c + N * p) →
    ∃ B, whileFuel (fun d : Img ℝ => decide (∃ y x, y < d.h ∧ x < d.w ∧ d.px y x > c))
        (fun d => d.map (fun v => if v > c then v - p else v)) N A = .ok B ∧ B.h = A.h ∧ B.w = A.w ∧
      ∀ y x, y < A.h → x < A.w → ∃ k : ℕ, B.px y x = A.px y x - k * p ∧ B.px y x ≤ c ∧ (k = 0 ∨ c - p < B.px y x) := by
  induction N with
  | zero =>
    intro A hA
    refine ⟨A, ?_, rfl, rfl, ?_⟩
    · rw [whileFuel_done]
      rw [decide_eq_false_iff_not]
      rintro ⟨y, x, hy, hx, h⟩
      have := hA y x hy hx
      simp at this
      linarith
    · intro y x hy hx
      have := hA y x hy hx
      exact ⟨0, by simp, by simpa using this, Or.inl rfl⟩
  | succ N ih =>
    intro A hA
    by_cases h : ∃ y x, y < A.h ∧ x < A.w ∧ A.px y x > c
    · obtain ⟨B, h1, h2, h3, h4⟩ := ih (A.map (fun v => if v > c then v - p else v)) (by
        intro y x (hy : y < A.h) (hx : x < A.w)
        rw [Img.map_px _ _ hy hx]
        have := hA y x hy hx
        push_cast at this
        split
        · linarith
        · have : (0 : ℝ) ≤ N * p := by positivity
          linarith)
      refine ⟨B, ?_, h2, h3, ?_⟩
      · rw [whileFuel, if_pos (by exact decide_eq_true h), h1]
      · intro y x hy hx
        obtain ⟨k, e1, e2, e3⟩ := h4 y x hy hx
        rw [Img.map_px _ _ hy hx] at e1
        by_cases hv : A.px y x > c
        · rw [if_pos hv] at e1
          refine ⟨k + 1, by rw [e1]; push_cast; ring, e2, Or.inr ?_⟩
          rcases e3 with rfl | e3
          · simp at e1; linarith
          · exact e3
        · rw [if_neg hv] at e1
          exact ⟨k, e1, e2, e3⟩
    · refine ⟨A, ?_, rfl, rfl, ?_⟩
      · rw [whileFuel_done]
        exact decide_eq_false h
      · intro y x hy hx
        refine ⟨0, by simp, ?_, Or.inl rfl⟩
        by_contra hc
        exact h ⟨y, x, hy, hx, by linarith⟩

open Classical in
theorem array_down (c p : ℝ) (hp : 0 < p) (A : Img ℝ) :
    ∃ B, whileLoop (fun d : Img ℝ => decide (∃ y x, y < d.h ∧ x < d.w ∧ d.px y x > c))
        (fun d => d.map (fun v => if v > c then v - p else v)) A = .ok B ∧ B.h = A.h ∧ B.w = A.w ∧
      ∀ y x, y < A.h → x < A.w → ∃ k : ℕ, B.px y x = A.px y x - k * p ∧ B.px y x ≤ c ∧ (k = 0 ∨ c - p < B.px y x) := by
  obtain ⟨M, hM⟩ := exists_bound A
  obtain ⟨N, hN⟩ := exists_nat_ge ((M - c) / p)
  rw [div_le_iff₀ hp] at hN
  obtain ⟨B, h1, h2⟩ := array_down_fuel c p hp N A (fun y x hy hx => by
    have := hM y x hy hx
    have := le_abs_self (A.px y x)
    linarith)
  exact ⟨B, whileLoop_eq_ok h1, h2⟩

open Classical in
theorem array_up_fuel (c p : ℝ) (hp : 0 < p) (N : Nat) : ∀ A : Img ℝ,
    (∀ y x, y < A.h → x < A.w → c < A.px y x + N * p) →
    ∃ B, whileFuel (fun d : Img ℝ => decide (∃ y x, y < d.h ∧ x < d.w ∧ d.px y x ≤ c))
        (fun d => d.map (fun v => if v ≤ c then v + p else v)) N A = .ok B ∧ B.h = A.h ∧ B.w = A.w ∧
      ∀ y x, y < A.h → x < A.w → ∃ k : ℕ, B.px y x = A.px y x + k * p ∧ c < B.px y x ∧ (k = 0 ∨ B.px y x ≤ c + p) := by
  induction N with
  | zero =>
    intro A hA
    refine ⟨A, ?_, rfl, rfl, ?_⟩
    · rw [whileFuel_done]
      rw [decide_eq_false_iff_not]
      rintro ⟨y, x, hy, hx, h⟩
      have := hA y x hy hx
      simp at this
      linarith
    · intro y x hy hx
      have := hA y x hy hx
      exact ⟨0, by simp, by simpa using this, Or.inl rfl⟩
  | succ N ih =>
    intro A hA
    by_cases h : ∃ y x, y < A.h ∧ x < A.w ∧ A.px y x ≤ c
    · obtain ⟨B, h1, h2, h3, h4⟩ := ih (A.map (fun v => if v ≤ c then v + p else v)) (by
        intro y x (hy : y < A.h) (hx : x < A.w)
        rw [Img.map_px _ _ hy hx]
        have := hA y x hy hx
        push_cast at this
        split
        · linarith
        · have : (0 : ℝ) ≤ N * p := by positivity
          linarith)
      refine ⟨B, ?_, h2, h3, ?_⟩
      · rw [whileFuel, if_pos (by exact decide_eq_true h), h1]
      · intro y x hy hx
        obtain ⟨k, e1, e2, e3⟩ := h4 y x hy hx
        rw [Img.map_px _ _ hy hx] at e1
        by_cases hv : A.px y x ≤ c
        · rw [if_pos hv] at e1
          refine ⟨k + 1, by rw [e1]; push_cast; ring, e2, Or.inr ?_⟩
          rcases e3 with rfl | e3
          · simp at e1; linarith
          · exact e3
        · rw [if_neg hv] at e1
          exact ⟨k, e1, e2, e3⟩
    · refine ⟨A, ?_, rfl, rfl, ?_⟩
      · rw [whileFuel_done]
        exact decide_eq_false h
      · intro y x hy hx
        refine ⟨0, by simp, ?_, Or.inl rfl⟩
        by_contra hc
        exact h ⟨y, x, hy, hx, by linarith⟩

open Classical in
theorem array_up (c p : ℝ) (hp : 0 < p) (A : Img ℝ) :
    ∃ B, whileLoop (fun d : Img ℝ => decide (∃ y x, y < d.h ∧ x < d.w ∧ d.px y x ≤ c))
        (fun d => d.map (fun v => if v ≤ c then v + p else v)) A = .ok B ∧ B.h = A.h ∧ B.w = A.w ∧
      ∀ y x, y < A.h → x < A.w → ∃ k : ℕ, B.px y x = A.px y x + k * p ∧ c < B.px y x ∧ (k = 0 ∨ B.px y x ≤ c + p) := by
  obtain ⟨M, hM⟩ := exists_bound A
  obtain ⟨N, hN⟩ := exists_nat_gt ((M + c) / p)
  rw [div_lt_iff₀ hp] at hN
  obtain ⟨B, h1, h2⟩ := array_up_fuel c p hp N A (fun y x hy hx => by
    have := hM y x hy hx
    have := neg_abs_le (A.px y x)
    linarith)
  exact ⟨B, whileLoop_eq_ok h1, h2⟩

/-! ## Means -/

theorem npMean_real {A : Img ℝ} (hh : 0 < A.h) (hw : 0 < A.w) :
    npMean A = .ok ((∑ y ∈ range A.h, ∑ x ∈ range A.w, A.px y x) / ((A.h * A.w : Nat) : ℝ)) := by
  unfold npMean
  rw [if_neg (by omega)]

theorem npMean_affine {A : Img ℝ} (hh : 0 < A.h) (hw : 0 < A.w) {m : ℝ} (hm : npMean A = .ok m) (a b : ℝ) :
    npMean (A.map (fun v => a * v + b)) = .ok (a * m + b) := by
  rw [npMean_real hh hw] at hm
  injection hm with hm
  rw [npMean_real (by exact hh) (by exact hw)]
  congr 1
  rw [← hm]
  have hne : ((A.h * A.w : Nat) : ℝ) ≠ 0 := by
    have : 0 < A.h * A.w := Nat.mul_pos hh hw
    exact_mod_cast this.ne'
  have e : (∑ y ∈ range A.h, ∑ x ∈ range A.w, (A.map (fun v => a * v + b)).px y x)
      = a * (∑ y ∈ range A.h, ∑ x ∈ range A.w, A.px y x) + ((A.h * A.w : Nat) : ℝ) * b := by
    have : ∀ y ∈ range A.h, (∑ x ∈ range A.w, (A.map (fun v => a * v + b)).px y x)
        = a * (∑ x ∈ range A.w, A.px y x) + A.w * b := by
      intro y hy
      rw [mul_sum, ← nsmul_eq_mul, ← card_range A.w, ← sum_const, card_range, ← sum_add_distrib]
      refine sum_congr rfl (fun x hx => ?_)
      rw [Img.map_px _ _ (mem_range.1 hy) (mem_range.1 hx)]
    rw [sum_congr rfl this, sum_add_distrib, ← mul_sum, sum_const, card_range, nsmul_eq_mul]
    push_cast
    ring
  show (∑ y ∈ range A.h, ∑ x ∈ range A.w, (A.map (fun v => a * v + b)).px y x) / ((A.h * A.w : Nat) : ℝ) = _
  rw [e]
  field_simp

theorem npStd_ok {A : Img ℝ} (hh : 0 < A.h) (hw : 0 < A.w) : ∃ s, npStd A = .ok s ∧ 0 ≤ s := by
  unfold npStd
  rw [npMean_real hh hw, Py.ok_bind, npMean_real (by exact hh) (by exact hw), Py.ok_bind]
  exact ⟨_, rfl, Real.sqrt_nonneg _⟩

theorem npStd_sq {A : Img ℝ} (hh : 0 < A.h) (hw : 0 < A.w) : ∃ s, npStd A = .ok s ∧ 0 ≤ s ∧
    s ^ 2 * ((A.h * A.w : Nat) : ℝ) = ∑ y ∈ range A.h, ∑ x ∈ range A.w,
      (A.px y x - (∑ y ∈ range A.h, ∑ x ∈ range A.w, A.px y x) / ((A.h * A.w : Nat) : ℝ)) ^ 2 := by
  unfold npStd
  rw [npMean_real hh hw, Py.ok_bind, npMean_real (by exact hh) (by exact hw), Py.ok_bind]
  refine ⟨_, rfl, Real.sqrt_nonneg _, ?_⟩
  have hne : ((A.h * A.w : Nat) : ℝ) ≠ 0 := by
    have : 0 < A.h * A.w := Nat.mul_pos hh hw
    exact_mod_cast this.ne'
  set m := (∑ y ∈ range A.h, ∑ x ∈ range A.w, A.px y x) / ((A.h * A.w : Nat) : ℝ)
  have e : (∑ y ∈ range A.h, ∑ x ∈ range A.w, (A.map (fun v => (v - m) * (v - m))).px y x)
      = ∑ y ∈ range A.h, ∑ x ∈ range A.w, (A.px y x - m) ^ 2 := by
    refine sum_congr rfl (fun y hy => sum_congr rfl (fun x hx => ?_))
    rw [Img.map_px _ _ (mem_range.1 hy) (mem_range.1 hx)]
    ring
  show Real.sqrt ((∑ y ∈ range A.h, ∑ x ∈ range A.w, (A.map (fun v => (v - m) * (v - m))).px y x)
    / ((A.h * A.w : Nat) : ℝ)) ^ 2 * _ = _
  rw [e, Real.sq_sqrt, div_mul_cancel₀ _ hne]
  refine div_nonneg (sum_nonneg (fun y _ => sum_nonneg (fun x _ => sq_nonneg _))) (Nat.cast_nonneg _)

theorem map_map_px {A : Img ℝ} (f g : ℝ → ℝ) : (A.map f).map g = A.map (fun v => g (f v)) := by
  refine Img.ext_px rfl rfl ?_
  intro y x (hy : y < A.h) (hx : x < A.w)
  rw [Img.map_px _ (A.map f) (by exact hy) (by exact hx), Img.map_px _ _ hy hx, Img.map_px _ _ hy hx]

theorem npStd_affine {A : Img ℝ} (hh : 0 < A.h) (hw : 0 < A.w) {s : ℝ} (hs : npStd A = .ok s) (a b : ℝ) (ha : 0 ≤ a) :
    npStd (A.map (fun v => a * v + b)) = .ok (a * s) := by
  unfold npStd at hs ⊢
  have hm := npMean_real hh hw
  rw [npMean_affine hh hw hm a b, Py.ok_bind]
  rw [hm, Py.ok_bind] at hs
  set m := (∑ y ∈ range A.h, ∑ x ∈ range A.w, A.px y x) / ((A.h * A.w : Nat) : ℝ) with hmdef
  have hv := npMean_real (A := A.map (fun v => (v - m) * (v - m))) (by exact hh) (by exact hw)
  rw [hv, Py.ok_bind] at hs
  injection hs with hs
  have e : (A.map (fun v => a * v + b)).map (fun v => (v - (a * m + b)) * (v - (a * m + b)))
      = (A.map (fun v => (v - m) * (v - m))).map (fun v => (a * a) * v + 0) := by
    rw [map_map_px, map_map_px]
    congr 1
    funext v
    ring
  rw [e, npMean_affine (by exact hh) (by exact hw) hv (a * a) 0, Py.ok_bind, ← hs, add_zero,
    Real.sqrt_mul (mul_nonneg ha ha), Real.sqrt_mul_self ha]
  rfl

end Micropol
