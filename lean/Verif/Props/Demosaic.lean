import Verif.Lemmas.Demosaic
import Verif.Spec.Demosaic
import Verif.Spec.Rebin
import Mathlib.Algebra.Order.Field.Basic
import Mathlib.Algebra.BigOperators.Ring.Finset
import Mathlib.Algebra.BigOperators.Intervals
import Mathlib.Data.Rat.Defs
import Mathlib.Algebra.Field.Rat
import Mathlib.Tactic.Linarith
import Mathlib.Tactic.NormNum
import Mathlib.Tactic.Positivity

/-!
# C13, C14, C15, C16: demosaicing
-/

set_option autoImplicit false

namespace Micropol

open Finset

section
variable {K : Type} [Field K]

/-- C13: the 'mean' demosaic of every even image succeeds, and image `k` has on each superpixel one quarter of
that superpixel's family-`k` pixel. -/
theorem C13_mean (d : Img K) (s : Fin 4 → Img K) (hs : splitPolarizations d = .ok s) :
    ∃ r, demosaic d "mean" = .ok r ∧ ∀ k, (r k).h = d.h ∧ (r k).w = d.w ∧
      ∀ Y X a b, Y < d.h / 2 → X < d.w / 2 → a < 2 → b < 2 →
        (r k).px (2 * Y + a) (2 * X + b) = (s k).px Y X / 4 := by
  obtain ⟨hh, hw⟩ := split_even hs
  rw [split_ok hh hw] at hs
  injection hs with hs
  subst hs
  unfold demosaic
  rw [if_pos rfl, demosaicmean_ok d hh hw]
  refine ⟨_, rfl, fun k => ⟨rfl, rfl, ?_⟩⟩
  intro Y X a b hY hX ha hb
  rw [Img.ofFn_px (by omega) (by omega), Img.ofFn_px hY hX]
  have h1 : (2 * Y + a) / 2 = Y := by omega
  have h2 : (2 * X + b) / 2 = X := by omega
  rw [h1, h2, mul_one_div]

theorem sum_pairs {M : Type} [AddCommMonoid M] (n : Nat) (hn : n % 2 = 0) (f : Nat → M) :
    ∑ y ∈ range n, f y = ∑ Y ∈ range (n / 2), (f (2 * Y) + f (2 * Y + 1)) := by
  obtain ⟨m, rfl⟩ : ∃ m, n = 2 * m := ⟨n / 2, by omega⟩
  rw [Nat.mul_div_cancel_left m (by decide)]
  clear hn
  induction m with
  | zero => simp
  | succ m ih =>
    rw [Nat.mul_succ, sum_range_succ, sum_range_succ, ih, sum_range_succ, add_assoc]

/-- C13: each demosaiced image has the same total as its family. -/
theorem C13_mean_total [CharZero K] (d : Img K) (s r : Fin 4 → Img K) (hs : splitPolarizations d = .ok s)
    (hr : demosaic d "mean" = .ok r) (k : Fin 4) : (r k).total = (s k).total := by
  obtain ⟨hh, hw⟩ := split_even hs
  obtain ⟨r', e, h⟩ := C13_mean d s hs
  rw [hr] at e
  injection e with e
  subst e
  obtain ⟨h1, h2, h3⟩ := h k
  rw [split_ok hh hw] at hs
  injection hs with hs
  have hsh : (s k).h = d.h / 2 := by rw [← hs]; rfl
  have hsw : (s k).w = d.w / 2 := by rw [← hs]; rfl
  unfold Img.total Img.totalOn
  rw [h1, h2, hsh, hsw, sum_pairs _ hh]
  refine sum_congr rfl (fun Y hY => ?_)
  rw [sum_pairs _ hw, sum_pairs _ hw, ← sum_add_distrib]
  refine sum_congr rfl (fun X hX => ?_)
  have hY' := mem_range.1 hY
  have hX' := mem_range.1 hX
  have a00 := h3 Y X 0 0 hY' hX' (by decide) (by decide)
  have a01 := h3 Y X 0 1 hY' hX' (by decide) (by decide)
  have a10 := h3 Y X 1 0 hY' hX' (by decide) (by decide)
  have a11 := h3 Y X 1 1 hY' hX' (by decide) (by decide)
  simp only [Nat.add_zero] at a00 a01 a10
  rw [a00, a01, a10, a11]
  field_simp
  ring

/-- C14: the 'adjacent' demosaic of every even image succeeds and is bilinear interpolation of each family. -/
theorem C14_adjacent [CharZero K] (d : Img K) (s : Fin 4 → Img K) (hs : splitPolarizations d = .ok s) :
    ∃ r, demosaic d "adjacent" = .ok r ∧ ∀ k, (r k).h = d.h ∧ (r k).w = d.w ∧
      ∀ Y X a b, Y < d.h / 2 → X < d.w / 2 → a < 2 → b < 2 →
        (r k).px (2 * Y + a) (2 * X + b) = bilinear (s k) Y X a b := by
  obtain ⟨hh, hw⟩ := split_even hs
  rw [split_ok hh hw] at hs
  injection hs with hs
  subst hs
  obtain ⟨r, e, h⟩ := demosaic_adjacent_ok d hh hw
  refine ⟨r, e, fun k => ⟨(h k).1, (h k).2.1, ?_⟩⟩
  intro Y X a b hY hX ha hb
  rw [(h k).2.2 _ _ (by omega) (by omega)]
  have hk := k.isLt
  -- value of the stacked image at the sample `(Y + p, X + q)`
  have st : ∀ p q : Nat, p ≤ 1 → q ≤ 1 →
      (hstackLast2 (vstackLast2 d)).px (2 * Y + k.val / 2 + 2 * p) (2 * X + k.val % 2 + 2 * q)
      = (Img.ofFn (d.h / 2) (d.w / 2) (fun y x => d.px (2 * y + k.val / 2) (2 * x + k.val % 2))).px
          (min (Y + p) (d.h / 2 - 1)) (min (X + q) (d.w / 2 - 1)) := by
    intro p q hp hq
    rw [Img.ofFn_px (by omega) (by omega)]
    unfold hstackLast2 vstackLast2
    rw [Img.ofFn_px (by simp only [Img.ofFn_h]; omega) (by simp only [Img.ofFn_w]; omega)]
    by_cases hx : 2 * X + k.val % 2 + 2 * q < d.w
    · rw [if_pos (by exact hx), Img.ofFn_px (by omega) (by omega)]
      by_cases hy : 2 * Y + k.val / 2 + 2 * p < d.h
      · rw [if_pos hy]; congr 1 <;> (try simp only [Img.ofFn_w]) <;> omega
      · rw [if_neg hy]; congr 1 <;> (try simp only [Img.ofFn_w]) <;> omega
    · rw [if_neg (by exact hx), Img.ofFn_px (by omega) (by simp only [Img.ofFn_w]; omega)]
      by_cases hy : 2 * Y + k.val / 2 + 2 * p < d.h
      · rw [if_pos hy]; congr 1 <;> (try simp only [Img.ofFn_w]) <;> omega
      · rw [if_neg hy]; congr 1 <;> (try simp only [Img.ofFn_w]) <;> omega
  have s00 := st 0 0 (by decide) (by decide)
  have s01 := st 0 1 (by decide) (by decide)
  have s10 := st 1 0 (by decide) (by decide)
  have s11 := st 1 1 (by decide) (by decide)
  simp only [Nat.mul_zero, Nat.add_zero, Nat.mul_one] at s00 s01 s10 s11
  have hd1 : (2 * Y + a) / 2 = Y := by omega
  have hd2 : (2 * X + b) / 2 = X := by omega
  unfold adjacentVal bilinear
  simp only [hd1, hd2, s00, s01, s10, s11, Img.ofFn_h, Img.ofFn_w]
  rcases (by omega : a = 0 ∨ a = 1) with rfl | rfl <;> rcases (by omega : b = 0 ∨ b = 1) with rfl | rfl
  · rw [if_pos (by omega), if_pos (by omega)]
    simp
  · rw [if_pos (by omega), if_neg (by omega)]
    simp only [sum_range_succ, sum_range_zero, zero_add, Nat.add_zero]
    norm_num
    ring
  · rw [if_neg (by omega), if_pos (by omega)]
    simp only [sum_range_succ, sum_range_zero, zero_add, Nat.add_zero]
    norm_num
    ring
  · rw [if_neg (by omega), if_neg (by omega)]
    simp only [sum_range_succ, sum_range_zero, zero_add, Nat.add_zero]
    norm_num
    ring

/-- C15: measured samples are kept at the upper left pixel of their superpixel. -/
theorem C15_keeps_samples [CharZero K] (d : Img K) (s r : Fin 4 → Img K) (hs : splitPolarizations d = .ok s)
    (hr : demosaic d "adjacent" = .ok r) (k : Fin 4) (Y X : Nat) (hY : Y < d.h / 2) (hX : X < d.w / 2) :
    (r k).px (2 * Y) (2 * X) = (s k).px Y X := by
  obtain ⟨r', e, h⟩ := C14_adjacent d s hs
  rw [hr] at e
  injection e with e
  subst e
  have h3 := (h k).2.2 Y X 0 0 hY hX (by decide) (by decide)
  simp only [Nat.add_zero] at h3
  rw [h3]
  obtain ⟨hh, hw⟩ := split_even hs
  rw [split_ok hh hw] at hs
  injection hs with hs
  subst hs
  unfold bilinear
  simp only [Img.ofFn_h, Img.ofFn_w]
  have m1 : min Y (d.h / 2 - 1) = Y := by omega
  have m2 : min X (d.w / 2 - 1) = X := by omega
  simp [m1, m2]

/-- C15: interpolated values never leave an interval containing all samples of the family; in particular a constant
family gives a constant image. -/
theorem C15_bounds [LinearOrder K] [IsStrictOrderedRing K] (d : Img K) (s r : Fin 4 → Img K)
    (hs : splitPolarizations d = .ok s) (hr : demosaic d "adjacent" = .ok r) (k : Fin 4) (lo hi : K)
    (hb : ∀ Y X, Y < (s k).h → X < (s k).w → lo ≤ (s k).px Y X ∧ (s k).px Y X ≤ hi) :
    ∀ y x, y < d.h → x < d.w → lo ≤ (r k).px y x ∧ (r k).px y x ≤ hi := by
  intro y x hy hx
  obtain ⟨r', e, h⟩ := C14_adjacent d s hs
  rw [hr] at e
  injection e with e
  subst e
  obtain ⟨hh, hw⟩ := split_even hs
  rw [split_ok hh hw] at hs
  injection hs with hs
  have hsh : (s k).h = d.h / 2 := by rw [← hs]; rfl
  have hsw : (s k).w = d.w / 2 := by rw [← hs]; rfl
  have h3 := (h k).2.2 (y / 2) (x / 2) (y % 2) (x % 2) (by omega) (by omega) (by omega) (by omega)
  rw [Nat.div_add_mod, Nat.div_add_mod] at h3
  rw [h3]
  unfold bilinear
  rw [hsh, hsw]
  have b : ∀ p q : Nat, lo ≤ (s k).px (min (y / 2 + p) (d.h / 2 - 1)) (min (x / 2 + q) (d.w / 2 - 1)) ∧
      (s k).px (min (y / 2 + p) (d.h / 2 - 1)) (min (x / 2 + q) (d.w / 2 - 1)) ≤ hi := by
    intro p q
    exact hb _ _ (by rw [hsh]; omega) (by rw [hsw]; omega)
  have pos : (0 : K) < (((y % 2 + 1) * (x % 2 + 1) : Nat) : K) := by
    exact_mod_cast (by positivity)
  constructor
  · rw [le_div_iff₀ pos]
    calc lo * (((y % 2 + 1) * (x % 2 + 1) : Nat) : K)
        = ∑ a' ∈ range (y % 2 + 1), ∑ b' ∈ range (x % 2 + 1), lo := by
          simp only [sum_const, card_range, nsmul_eq_mul]; push_cast; ring
      _ ≤ _ := sum_le_sum (fun a' _ => sum_le_sum (fun b' _ => (b a' b').1))
  · rw [div_le_iff₀ pos]
    calc _ ≤ ∑ a' ∈ range (y % 2 + 1), ∑ b' ∈ range (x % 2 + 1), hi :=
          sum_le_sum (fun a' _ => sum_le_sum (fun b' _ => (b a' b').2))
      _ = hi * (((y % 2 + 1) * (x % 2 + 1) : Nat) : K) := by
          simp only [sum_const, card_range, nsmul_eq_mul]; push_cast; ring

/-- C15: the operation is linear in the data. -/
theorem C15_linear [CharZero K] (d₁ d₂ : Img K) (p q : K) (hh : d₁.h % 2 = 0) (hw : d₁.w % 2 = 0)
    (eh : d₂.h = d₁.h) (ew : d₂.w = d₁.w) :
    ∃ r₁ r₂ r, demosaic d₁ "adjacent" = .ok r₁ ∧ demosaic d₂ "adjacent" = .ok r₂ ∧
      demosaic (Img.ofFn d₁.h d₁.w (fun y x => p * d₁.px y x + q * d₂.px y x)) "adjacent" = .ok r ∧
      ∀ k y x, y < d₁.h → x < d₁.w → (r k).px y x = p * (r₁ k).px y x + q * (r₂ k).px y x := by
  obtain ⟨r₁, e₁, h₁⟩ := C14_adjacent d₁ _ (split_ok hh hw)
  obtain ⟨r₂, e₂, h₂⟩ := C14_adjacent d₂ _ (split_ok (by omega) (by omega))
  obtain ⟨r, e, h⟩ := C14_adjacent (Img.ofFn d₁.h d₁.w (fun y x => p * d₁.px y x + q * d₂.px y x)) _
    (split_ok hh hw)
  refine ⟨r₁, r₂, r, e₁, e₂, e, ?_⟩
  intro k y x hy hx
  have hk := k.isLt
  have f₁ := (h₁ k).2.2 (y / 2) (x / 2) (y % 2) (x % 2) (by omega) (by omega) (by omega) (by omega)
  have f₂ := (h₂ k).2.2 (y / 2) (x / 2) (y % 2) (x % 2) (by omega) (by omega) (by omega) (by omega)
  have f := (h k).2.2 (y / 2) (x / 2) (y % 2) (x % 2) (by simp only [Img.ofFn_h]; omega)
    (by simp only [Img.ofFn_w]; omega) (by omega) (by omega)
  rw [Nat.div_add_mod, Nat.div_add_mod] at f₁ f₂ f
  rw [f₁, f₂, f]
  unfold bilinear
  simp only [Img.ofFn_h, Img.ofFn_w, eh, ew]
  rw [mul_div_assoc', mul_div_assoc', ← add_div, mul_sum, mul_sum, ← sum_add_distrib]
  congr 1
  refine sum_congr rfl (fun a' _ => ?_)
  rw [mul_sum, mul_sum, ← sum_add_distrib]
  refine sum_congr rfl (fun b' _ => ?_)
  rw [Img.ofFn_px (by omega) (by omega), Img.ofFn_px (by omega) (by omega), Img.ofFn_px (by omega) (by omega),
    Img.ofFn_px (by omega) (by omega)]

/-- C16 (partial: the option "spline" is the exception, see `C16_spline_fails`): both documented options work on
every valid image, every string other than the two documented ones and "spline" raises `ValueError`. -/
theorem C16_options_partial (d : Img K) (hh : d.h % 2 = 0) (hw : d.w % 2 = 0) (o : String) :
    ((o = "mean" ∨ o = "adjacent") → ∃ r, demosaic d o = .ok r) ∧
    (o ≠ "mean" → o ≠ "adjacent" → o ≠ "spline" → demosaic d o = .error .valueError) := by
  constructor
  · rintro (rfl | rfl)
    · obtain ⟨r, e, _⟩ := C13_mean d _ (split_ok hh hw)
      exact ⟨r, e⟩
    · obtain ⟨r, e, _⟩ := demosaic_adjacent_ok d hh hw
      exact ⟨r, e⟩
  · intro h1 h2 h3
    unfold demosaic
    rw [if_neg h1, if_neg h2, if_neg h3]

/-- C16, refutation: "spline" is neither rejected with `ValueError` nor does it work, on any image. -/
theorem C16_spline_fails (d : Img K) : demosaic d "spline" = .error .attributeError := by
  unfold demosaic
  rw [if_neg (by decide), if_neg (by decide), if_pos rfl]

end

/-! Non-vacuity -/

def exDemo : Img ℚ := Img.ofFn 4 4 (fun y x => 4 * y + x)

example : ∃ s, splitPolarizations exDemo = .ok s ∧ bilinear (s 0) 0 0 1 1 = 5 ∧ bilinear (s 3) 1 1 1 1 = 15 := by
  refine ⟨_, split_ok rfl rfl, ?_, ?_⟩ <;>
    simp [bilinear, sum_range_succ, exDemo, Img.ofFn_px'] <;> norm_num

end Micropol
