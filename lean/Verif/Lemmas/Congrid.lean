import Verif.Model.Congrid
import Verif.Spec.Congrid
import Mathlib.Tactic.Linarith
import Mathlib.Tactic.FieldSimp
import Mathlib.Tactic.Ring
import Mathlib.Tactic.NormNum
import Mathlib.Tactic.Positivity
import Mathlib.Algebra.Order.Archimedean.Real.Basic

/-! # Auxiliary facts about resampling -/

set_option autoImplicit false

namespace Micropol

open Finset

theorem interpLinear_at (n : Nat) (f : Nat → ℝ) (i : Nat) (t : ℝ) (hi : i + 1 < n) (h0 : 0 ≤ t) (h1 : t ≤ 1) :
    interpLinear n f (i + t) = (1 - t) * f i + t * f (i + 1) := by
  rcases h0.eq_or_lt with rfl | hpos
  · have hcard : ((range n).filter (fun k : Nat => (k : ℝ) < (i : ℝ) + 0)).card = i := by
      have : (range n).filter (fun k : Nat => (k : ℝ) < (i : ℝ) + 0) = range i := by
        ext k
        simp only [mem_filter, mem_range, add_zero, Nat.cast_lt]
        omega
      rw [this, card_range]
    unfold interpLinear
    dsimp only
    have hc := hcard
    rw [show ((range n).filter (fun k : Nat => (k : ℝ) < (i : ℝ) + 0)).card = i from hc]
    rcases Nat.eq_zero_or_pos i with rfl | hip
    · rw [show min (max 0 1) (n - 1) = 1 by omega]
      norm_num
    · obtain ⟨j, rfl⟩ : ∃ j, i = j + 1 := ⟨i - 1, by omega⟩
      rw [show min (max (j + 1) 1) (n - 1) = j + 1 by omega, Nat.add_sub_cancel]
      push_cast
      rw [show (j : ℝ) + 1 - j = 1 by ring]
      ring
  · have hcard : ((range n).filter (fun k : Nat => (k : ℝ) < (i : ℝ) + t)).card = i + 1 := by
      have : (range n).filter (fun k : Nat => (k : ℝ) < (i : ℝ) + t) = range (i + 1) := by
        ext k
        simp only [mem_filter, mem_range]
        constructor
        · rintro ⟨-, h⟩
          have : (k : ℝ) < ((i + 1 : ℕ) : ℝ) := by push_cast; linarith
          exact_mod_cast this
        · intro h
          refine ⟨by omega, ?_⟩
          have : (k : ℝ) ≤ (i : ℝ) := by exact_mod_cast (show k ≤ i by omega)
          linarith
      rw [this, card_range]
    unfold interpLinear
    dsimp only
    have hc := hcard
    rw [show ((range n).filter (fun k : Nat => (k : ℝ) < (i : ℝ) + t)).card = i + 1 from hc,
      show min (max (i + 1) 1) (n - 1) = i + 1 by omega, Nat.add_sub_cancel]
    push_cast
    rw [show (i : ℝ) + 1 - i = 1 by ring]
    ring

/-- Every sampling position falls into an interval of the grid. -/
theorem position_exists (n m k : Nat) (hn : 2 ≤ n) (hm : 2 ≤ m) (hk : k < m) :
    ∃ (i : Nat) (t : ℝ), i + 1 < n ∧ 0 ≤ t ∧ t ≤ 1 ∧ ((n : ℝ) - 1) * k / ((m : ℝ) - 1) = i + t := by
  set p : ℝ := ((n : ℝ) - 1) * k / ((m : ℝ) - 1) with hp
  have hm1 : (0 : ℝ) < (m : ℝ) - 1 := by
    have : (2 : ℝ) ≤ m := by exact_mod_cast hm
    linarith
  have hn1 : (0 : ℝ) < (n : ℝ) - 1 := by
    have : (2 : ℝ) ≤ n := by exact_mod_cast hn
    linarith
  have hk1 : (k : ℝ) ≤ (m : ℝ) - 1 := by
    have : (k : ℝ) + 1 ≤ m := by exact_mod_cast hk
    linarith
  have p0 : 0 ≤ p := by rw [hp]; positivity
  have p1 : p ≤ (n : ℝ) - 1 := by
    rw [hp, div_le_iff₀ hm1]
    exact mul_le_mul_of_nonneg_left hk1 hn1.le
  by_cases hlast : ⌊p⌋₊ + 1 < n
  · refine ⟨⌊p⌋₊, p - ⌊p⌋₊, hlast, ?_, ?_, by ring⟩
    · linarith [Nat.floor_le p0]
    · linarith [Nat.lt_floor_add_one p]
  · have hfl := Nat.floor_le p0
    have e : (n : ℝ) - 1 ≤ (⌊p⌋₊ : ℝ) := by
      have : n ≤ ⌊p⌋₊ + 1 := by omega
      have : (n : ℝ) ≤ (⌊p⌋₊ : ℝ) + 1 := by exact_mod_cast this
      linarith
    have hpe : p = (n : ℝ) - 1 := le_antisymm p1 (e.trans hfl)
    refine ⟨n - 2, 1, by omega, by norm_num, le_rfl, ?_⟩
    rw [hpe]
    have : ((n - 2 : ℕ) : ℝ) = (n : ℝ) - 2 := by push_cast [Nat.cast_sub hn]; ring
    rw [this]
    ring

/-- The value of a resampled pixel. -/
theorem congrid_px (A : Img ℝ) (h w : Nat) (hA : 2 ≤ A.h ∧ 2 ≤ A.w) (hh : h ≠ 1) (hw : w ≠ 1) :
    ∃ B, congrid A h w = .ok B ∧ B.h = h ∧ B.w = w ∧ ∀ Y X, Y < h → X < w →
      B.px Y X = interpLinear A.h (fun y => interpLinear A.w (fun x => A.px y x)
        (((A.w : ℝ) - 1) / ((w : ℝ) - 1) * X)) (((A.h : ℝ) - 1) / ((h : ℝ) - 1) * Y) := by
  unfold congrid
  rw [if_neg (by omega)]
  refine ⟨_, rfl, rfl, rfl, ?_⟩
  intro Y X hY hX
  unfold transposeImg interpRows
  dsimp only [Img.ofFn_h, Img.ofFn_w]
  rw [Img.ofFn_px hY hX, Img.ofFn_px hX hY]
  have : ∀ (n : Nat) (f g : Nat → ℝ) (x : ℝ), 2 ≤ n → (∀ k, k < n → f k = g k) →
      interpLinear n f x = interpLinear n g x := by
    intro n f g x hn hfg
    unfold interpLinear
    dsimp only
    rw [hfg _ (by omega), hfg _ (by omega)]
  apply this _ _ _ _ hA.1
  intro y hy
  rw [Img.ofFn_px hX hy, Img.ofFn_px hy hX]

end Micropol
