import Verif.Model.PilRotate
import Verif.Spec.PilRotate
import Verif.Lemmas.Rounding
import Verif.Lemmas.Rotate

/-! # Lemmas about rounding to 24 digits and about the positions of turned pixels -/

set_option autoImplicit false

namespace Micropol

theorem roundSingle_near (x : ℝ) : |roundSingle x - x| ≤ 1 / 2 ^ 24 * |x| := by
  by_cases hx : x = 0
  · subst hx
    unfold roundSingle
    simp [nearestEven]
  have hx' : 0 < |x| := abs_pos.2 hx
  have hl := Int.zpow_log_le_self (b := 2) (by norm_num) hx'
  unfold roundSingle
  obtain ⟨p, hp⟩ : ∃ p : ℝ, p = 2 ^ (Int.log 2 |x| - 23) := ⟨_, rfl⟩
  have p0 : 0 < p := by rw [hp]; exact zpow_pos (by norm_num) _
  rw [← hp]
  have hpl : p * 2 ^ 23 ≤ |x| := by
    have e : p * 2 ^ 23 = (2 : ℝ) ^ Int.log 2 |x| := by
      rw [hp, ← zpow_natCast (2 : ℝ) 23, ← zpow_add₀ (by norm_num)]
      congr 1
      push_cast
      ring
    rw [e]
    exact_mod_cast hl
  have hn := nearestEven_near (x / p)
  have e : (nearestEven (x / p) : ℝ) * p - x = ((nearestEven (x / p) : ℝ) - x / p) * p := by
    field_simp
  rw [e, abs_mul, abs_of_pos p0]
  have : |(nearestEven (x / p) : ℝ) - x / p| * p ≤ 1 / 2 * p := mul_le_mul_of_nonneg_right hn p0.le
  have e2 : (1 : ℝ) / 2 * p ≤ 1 / 2 ^ 24 * |x| := by
    have : (1 : ℝ) / 2 * p = 1 / 2 ^ 24 * (p * 2 ^ 23) := by norm_num; ring
    rw [this]
    exact mul_le_mul_of_nonneg_left hpl (by positivity)
  linarith

theorem roundSingle_scaled {x : ℝ} {e m : ℤ} (h1 : 2 ^ (e + 23) ≤ |x|) (h2 : |x| < 2 ^ (e + 24))
    (hm : |x / 2 ^ e - m| < 1 / 2) : roundSingle x = m * 2 ^ e := by
  unfold roundSingle
  rw [log_of_bracket h1 (by rw [show e + 23 + 1 = e + 24 by ring]; exact h2), show e + 23 - 23 = e by ring, nearestEven_eq hm]

theorem roundSingle_exact (m e : ℤ) (hm : |m| ≤ 2 ^ 24) : roundSingle (m * 2 ^ e) = m * 2 ^ e := by
  by_cases h0 : m = 0
  · subst h0
    unfold roundSingle
    simp [nearestEven]
  obtain ⟨L, hL⟩ : ∃ L, L = Int.log 2 |(m : ℝ) * 2 ^ e| := ⟨_, rfl⟩
  have hx' : 0 < |(m : ℝ) * 2 ^ e| := by
    rw [abs_pos]
    exact mul_ne_zero (by exact_mod_cast h0) (zpow_pos (by norm_num) _).ne'
  have hl := Int.zpow_log_le_self (b := 2) (by norm_num) hx'
  rw [← hL] at hl
  have habs : |(m : ℝ) * 2 ^ e| = |(m : ℝ)| * 2 ^ e := by
    rw [abs_mul, abs_of_pos (zpow_pos (by norm_num) _ : (0 : ℝ) < 2 ^ e)]
  have hmr : |(m : ℝ)| ≤ 2 ^ 24 := by
    rw [← Int.cast_abs]
    exact_mod_cast hm
  suffices hz : ∃ k : ℤ, (m : ℝ) * 2 ^ e / 2 ^ (L - 23) = k by
    obtain ⟨k, hk⟩ := hz
    unfold roundSingle
    rw [← hL, hk, nearestEven_int, ← hk]
    field_simp
  by_cases hle : L - 23 ≤ e
  · obtain ⟨d, hd⟩ : ∃ d : ℕ, e - (L - 23) = d := ⟨(e - (L - 23)).toNat, by omega⟩
    refine ⟨m * 2 ^ d, ?_⟩
    rw [mul_div_assoc, ← zpow_sub₀ (by norm_num), hd, zpow_natCast]
    push_cast
    ring
  · -- the number is a power of 2
    have hle' : L = e + 24 := by
      have h1 : (2 : ℝ) ^ L ≤ 2 ^ (e + 24) := by
        calc (2 : ℝ) ^ L ≤ |(m : ℝ) * 2 ^ e| := by exact_mod_cast hl
          _ = |(m : ℝ)| * 2 ^ e := habs
          _ ≤ 2 ^ 24 * 2 ^ e := mul_le_mul_of_nonneg_right hmr (zpow_pos (by norm_num) _).le
          _ = 2 ^ (e + 24) := by
            rw [← zpow_natCast (2 : ℝ) 24, ← zpow_add₀ (by norm_num)]
            congr 1
            push_cast
            ring
      have := (zpow_le_zpow_iff_right₀ (by norm_num : (1 : ℝ) < 2)).1 h1
      omega
    have hm24 : |m| = 2 ^ 24 := by
      refine le_antisymm hm ?_
      have h1 : (2 : ℝ) ^ 24 * 2 ^ e ≤ |(m : ℝ)| * 2 ^ e := by
        rw [← habs]
        calc (2 : ℝ) ^ 24 * 2 ^ e = 2 ^ L := by
              rw [hle', ← zpow_natCast (2 : ℝ) 24, ← zpow_add₀ (by norm_num)]
              congr 1
              push_cast
              ring
          _ ≤ _ := by exact_mod_cast hl
      have h2 := le_of_mul_le_mul_right h1 (zpow_pos (by norm_num) _)
      rw [← Int.cast_abs] at h2
      exact_mod_cast h2
    rcases abs_eq (by positivity : (0 : ℤ) ≤ 2 ^ 24) |>.1 hm24 with h | h
    · refine ⟨2 ^ 23, ?_⟩
      rw [h, hle', mul_div_assoc, ← zpow_sub₀ (by norm_num), show e - (e + 24 - 23) = -1 by ring]
      norm_num
    · refine ⟨-2 ^ 23, ?_⟩
      rw [h, hle', mul_div_assoc, ← zpow_sub₀ (by norm_num), show e - (e + 24 - 23) = -1 by ring]
      norm_num

theorem roundSingle_single {v : ℝ} (hv : IsSingle v) : roundSingle v = v := by
  obtain ⟨m, e, hm, rfl⟩ := hv
  exact roundSingle_exact m e hm

theorem isSingle_int {m : ℤ} (hm : |m| ≤ 2 ^ 24) : IsSingle m := ⟨m, 0, hm, by simp⟩

theorem isSingle_zero : IsSingle 0 := ⟨0, 0, by norm_num, by simp⟩

theorem roundSingle_rounded (u : ℝ) : IsRounded u (roundSingle u) := ⟨roundSingle_near u, roundSingle_single⟩

/-- The first whole number that is not a 32 bit float. -/
theorem roundSingle_lost : roundSingle (2 ^ 24 + 1) = 2 ^ 24 := by
  have hl : Int.log 2 |(2 : ℝ) ^ 24 + 1| = 24 := by
    apply log_of_bracket
    · rw [abs_of_pos (by norm_num)]; norm_num
    · rw [abs_of_pos (by norm_num)]; norm_num
  unfold roundSingle
  rw [hl]
  have e : ((2 : ℝ) ^ 24 + 1) / 2 ^ ((24 : ℤ) - 23) = 8388608 + 1 / 2 := by norm_num
  rw [e]
  have hf : ⌊(8388608 + 1 / 2 : ℝ)⌋ = 8388608 := by
    rw [Int.floor_eq_iff]
    norm_num
  unfold nearestEven
  rw [hf]
  norm_num

/-! ## Positions -/

theorem pilFix_near (v : ℝ) : |(pilFix v : ℝ) / 65536 - v| ≤ 1 / 2 ^ 17 := by
  unfold pilFix
  have h1 := Int.floor_le (v * 65536 + 0.5)
  have h2 := Int.lt_floor_add_one (v * 65536 + 0.5)
  generalize ((⌊v * 65536 + 0.5⌋ : ℤ) : ℝ) = z at h1 h2
  norm_num at h1 h2 ⊢
  rw [abs_le]
  constructor <;> linarith

/-- Adding up fixed point numbers. -/
theorem pilFix_sum (p q r : ℝ) (y x : Nat) :
    |((pilFix p + y * pilFix q + x * pilFix r : ℤ) : ℝ) / 65536 - (p + y * q + x * r)| ≤ offBy y x := by
  have h1 := abs_le.1 (pilFix_near p)
  have h2 := abs_le.1 (pilFix_near q)
  have h3 := abs_le.1 (pilFix_near r)
  have hy : (0 : ℝ) ≤ y := Nat.cast_nonneg y
  have hx : (0 : ℝ) ≤ x := Nat.cast_nonneg x
  have a1 := mul_le_mul_of_nonneg_left h2.1 hy
  have a2 := mul_le_mul_of_nonneg_left h2.2 hy
  have b1 := mul_le_mul_of_nonneg_left h3.1 hx
  have b2 := mul_le_mul_of_nonneg_left h3.2 hx
  unfold offBy
  push_cast
  rw [abs_le]
  constructor <;> ring_nf at * <;> linarith

theorem pilInside_some {n : Nat} {z : ℤ} {i : Nat} (h : pilInside n (z / 65536) = some i) :
    i < n ∧ |(i : ℝ) + 1 / 2 - (z : ℝ) / 65536| ≤ 1 / 2 := by
  unfold pilInside at h
  split at h
  · rename_i hc
    injection h with h
    have e : (i : ℤ) = z / 65536 := by omega
    refine ⟨by omega, ?_⟩
    have h1 : (i : ℤ) * 65536 ≤ z := by omega
    have h2 : z < (i : ℤ) * 65536 + 65536 := by omega
    have h1' : (i : ℝ) * 65536 ≤ z := by exact_mod_cast h1
    have h2' : (z : ℝ) < (i : ℝ) * 65536 + 65536 := by exact_mod_cast h2
    rw [abs_le]
    constructor <;> linarith
  · cases h

theorem pilInside_none {n : Nat} {z : ℤ} (h : pilInside n (z / 65536) = none) :
    (z : ℝ) / 65536 < 0 ∨ (n : ℝ) ≤ (z : ℝ) / 65536 := by
  unfold pilInside at h
  split at h
  · cases h
  · rename_i hc
    by_cases h0 : 0 ≤ z / 65536
    · right
      have : (n : ℤ) ≤ z / 65536 := by
        by_contra hn
        exact hc ⟨h0, by omega⟩
      have h1 : (n : ℤ) * 65536 ≤ z := by omega
      have h1' : (n : ℝ) * 65536 ≤ z := by exact_mod_cast h1
      linarith
    · left
      have h1 : z < 0 := by omega
      have h1' : (z : ℝ) < 0 := by exact_mod_cast h1
      linarith

/-- The general path of Pillow. -/
theorem pilAffine_turns (angle : ℝ) (h w : Nat) : TurnsBy angle h w (pilAffine angle h w) := by
  have key : ∀ y x : Nat, ∃ xx yy : ℤ,
      pilAffine angle h w y x = (match pilInside w (xx / 65536), pilInside h (yy / 65536) with
        | some col, some row => some (row, col)
        | _, _ => none) ∧
      |(xx : ℝ) / 65536 - cameFromX angle h w y x| ≤ offBy y x ∧ |(yy : ℝ) / 65536 - cameFromY angle h w y x| ≤ offBy y x := by
    intro y x
    refine ⟨_, _, rfl, ?_, ?_⟩
    · have e := pilFix_sum (Real.cos (-(angle * Real.pi / 180)) * (-(w / 2)) + Real.sin (-(angle * Real.pi / 180)) * (-(h / 2)) +
        w / 2 + Real.cos (-(angle * Real.pi / 180)) * 0.5 + Real.sin (-(angle * Real.pi / 180)) * 0.5)
        (Real.sin (-(angle * Real.pi / 180))) (Real.cos (-(angle * Real.pi / 180))) y x
      refine le_trans (le_of_eq ?_) e
      congr 2
      unfold cameFromX
      rw [Real.cos_neg, Real.sin_neg]
      ring
    · have e := pilFix_sum (-Real.sin (-(angle * Real.pi / 180)) * (-(w / 2)) + Real.cos (-(angle * Real.pi / 180)) * (-(h / 2)) +
        h / 2 + -Real.sin (-(angle * Real.pi / 180)) * 0.5 + Real.cos (-(angle * Real.pi / 180)) * 0.5)
        (Real.cos (-(angle * Real.pi / 180))) (-Real.sin (-(angle * Real.pi / 180))) y x
      refine le_trans (le_of_eq ?_) e
      congr 2
      unfold cameFromY
      rw [Real.cos_neg, Real.sin_neg]
      ring
  constructor
  · intro y x r c hy hx hs
    obtain ⟨xx, yy, e, h1, h2⟩ := key y x
    rw [e] at hs
    split at hs
    · rename_i col row hc hr
      injection hs with hs
      injection hs with e1 e2
      subst e1 e2
      obtain ⟨a1, a2⟩ := pilInside_some hc
      obtain ⟨b1, b2⟩ := pilInside_some hr
      refine ⟨b1, a1, ?_, ?_⟩
      · rw [abs_le] at *
        constructor <;> linarith
      · rw [abs_le] at *
        constructor <;> linarith
    · cases hs
  · intro y x hy hx hs
    obtain ⟨xx, yy, e, h1, h2⟩ := key y x
    rw [e] at hs
    rw [abs_le] at h1 h2
    split at hs
    · cases hs
    · rename_i hn
      cases hc : pilInside w (xx / 65536) with
      | none =>
        rcases pilInside_none hc with h | h
        · left; linarith
        · right; left; linarith
      | some col =>
        cases hr : pilInside h (yy / 65536) with
        | none =>
          rcases pilInside_none hr with h | h
          · right; right; left; linarith
          · right; right; right; linarith
        | some row => exact absurd hr (hn col row hc)

/-- Turning by whole turns more changes nothing. -/
theorem cameFrom_mod (angle : ℝ) (h w y x : Nat) (n : ℤ) :
    cameFromX (angle - 360 * n) h w y x = cameFromX angle h w y x ∧
    cameFromY (angle - 360 * n) h w y x = cameFromY angle h w y x := by
  have e : (angle - 360 * n) * Real.pi / 180 = angle * Real.pi / 180 - n * (2 * Real.pi) := by ring
  unfold cameFromX cameFromY
  rw [e, Real.cos_sub_int_mul_two_pi, Real.sin_sub_int_mul_two_pi]
  exact ⟨rfl, rfl⟩

theorem TurnsBy.mod {angle : ℝ} {n : ℤ} {h w : Nat} {src : Nat → Nat → Option (Nat × Nat)}
    (hs : TurnsBy (angle - 360 * n) h w src) : TurnsBy angle h w src := by
  constructor
  · intro y x r c hy hx e
    have := hs.inside y x r c hy hx e
    rwa [(cameFrom_mod angle h w y x n).1, (cameFrom_mod angle h w y x n).2] at this
  · intro y x hy hx e
    have := hs.outside y x hy hx e
    rwa [(cameFrom_mod angle h w y x n).1, (cameFrom_mod angle h w y x n).2] at this

theorem offBy_nonneg (y x : Nat) : 0 ≤ offBy y x := by unfold offBy; positivity

/-- Transpositions hit the positions exactly. -/
theorem turns_exact {angle : ℝ} {h w : Nat} {src : Nat → Nat → Nat × Nat}
    (hs : ∀ y x, y < h → x < w → (src y x).1 < h ∧ (src y x).2 < w ∧
      ((src y x).2 : ℝ) + 1 / 2 = cameFromX angle h w y x ∧ ((src y x).1 : ℝ) + 1 / 2 = cameFromY angle h w y x) :
    TurnsBy angle h w fun y x => some (src y x) := by
  constructor
  · intro y x r c hy hx e
    injection e with e
    obtain ⟨h1, h2, h3, h4⟩ := hs y x hy hx
    rw [e] at h1 h2 h3 h4
    have := offBy_nonneg y x
    refine ⟨h1, h2, ?_, ?_⟩
    · rw [h3, sub_self, abs_zero]; linarith
    · rw [h4, sub_self, abs_zero]; linarith
  · intro y x hy hx e
    cases e

theorem trig90 : Real.cos ((90 : ℝ) * Real.pi / 180) = 0 ∧ Real.sin ((90 : ℝ) * Real.pi / 180) = 1 := by
  rw [show (90 : ℝ) * Real.pi / 180 = Real.pi / 2 by ring]
  exact ⟨Real.cos_pi_div_two, Real.sin_pi_div_two⟩

theorem trig180 : Real.cos ((180 : ℝ) * Real.pi / 180) = -1 ∧ Real.sin ((180 : ℝ) * Real.pi / 180) = 0 := by
  rw [show (180 : ℝ) * Real.pi / 180 = Real.pi by ring]
  exact ⟨Real.cos_pi, Real.sin_pi⟩

theorem trig270 : Real.cos ((270 : ℝ) * Real.pi / 180) = 0 ∧ Real.sin ((270 : ℝ) * Real.pi / 180) = -1 := by
  rw [show (270 : ℝ) * Real.pi / 180 = Real.pi / 2 + Real.pi by ring, Real.cos_add_pi, Real.sin_add_pi, Real.cos_pi_div_two,
    Real.sin_pi_div_two]
  exact ⟨neg_zero, rfl⟩

theorem cast_mirror {n y : Nat} (hy : y < n) : ((n - 1 - y : Nat) : ℝ) = n - 1 - y := by
  rw [Nat.sub_sub, Nat.cast_sub (by omega)]
  push_cast
  ring

/-- All paths of Pillow. -/
theorem pilSource_turns (angle : ℝ) (h w : Nat) : TurnsBy angle h w (pilSource angle h w) := by
  refine TurnsBy.mod (n := ⌊angle / 360⌋) ?_
  unfold pilSource
  dsimp only
  generalize angle - 360 * (⌊angle / 360⌋ : ℝ) = t
  by_cases h0 : t = 0
  · subst h0
    simp only [if_true]
    refine turns_exact (src := fun y x => (y, x)) fun y x hy hx => ⟨hy, hx, ?_, ?_⟩
    · unfold cameFromX; simp
    · unfold cameFromY; simp
  by_cases h1 : t = 180
  · subst h1
    simp only [if_neg h0, if_true]
    refine turns_exact (src := fun y x => (h - 1 - y, w - 1 - x)) fun y x hy hx => ⟨by dsimp only; omega, by dsimp only; omega, ?_, ?_⟩
    · unfold cameFromX
      rw [trig180.1, trig180.2, cast_mirror (by omega)]
      ring
    · unfold cameFromY
      rw [trig180.1, trig180.2, cast_mirror (by omega)]
      ring
  by_cases h2 : t = 90 ∧ w = h
  · obtain ⟨ht, hw⟩ := h2
    subst ht hw
    simp only [if_neg h0, if_neg h1, true_and, if_true]
    refine turns_exact (src := fun y x => (x, w - 1 - y)) fun y x hy hx => ⟨hx, by dsimp only; omega, ?_, ?_⟩
    · unfold cameFromX
      rw [trig90.1, trig90.2, cast_mirror (by omega)]
      ring
    · unfold cameFromY
      rw [trig90.1, trig90.2]
      ring
  by_cases h3 : t = 270 ∧ w = h
  · obtain ⟨ht, hw⟩ := h3
    subst ht hw
    have h2' : ¬ (270 : ℝ) = 90 := by norm_num
    simp only [if_neg h0, if_neg h1, h2', false_and, if_false, and_self, if_true]
    refine turns_exact (src := fun y x => (w - 1 - x, y)) fun y x hy hx => ⟨by dsimp only; omega, hy, ?_, ?_⟩
    · unfold cameFromX
      rw [trig270.1, trig270.2]
      ring
    · unfold cameFromY
      rw [trig270.1, trig270.2, cast_mirror (by omega)]
      ring
  simp only [if_neg h0, if_neg h1, if_neg h2, if_neg h3]
  exact pilAffine_turns t h w

theorem pilRotate_moved (angle : ℝ) (A : Img ℝ) : ∃ B, pilRotate angle A = .ok B ∧ B.SameShape A ∧
    A.MovedBy (pilSource angle A.h A.w) B := by
  refine ⟨_, rfl, ⟨rfl, rfl⟩, ⟨rfl, rfl⟩, fun y x hy hx => ⟨?_, ?_⟩⟩
  · intro r c e
    rw [Img.ofFn_px hy hx, e]
    exact roundSingle_rounded _
  · intro e
    rw [Img.ofFn_px hy hx, e]

/-- The source positions of quarter turns. -/
theorem pilSource_quarter (k : ℤ) (h w y x : Nat) (hk : w = h ∨ k % 2 = 0) : pilSource (90 * k) h w y x =
    some (if k % 4 = 0 then (y, x) else if k % 4 = 1 then (x, w - 1 - y) else if k % 4 = 2 then (h - 1 - y, w - 1 - x)
      else (h - 1 - x, y)) := by
  have e : (90 * (k : ℝ)) - 360 * (⌊90 * (k : ℝ) / 360⌋ : ℝ) = ((90 * (k % 4) : ℤ) : ℝ) := by
    have hf : ⌊90 * (k : ℝ) / 360⌋ = k / 4 := by
      rw [show 90 * (k : ℝ) / 360 = (k : ℝ) / (4 : ℕ) by push_cast; ring, Int.floor_div_natCast, Int.floor_intCast]
      rfl
    rw [hf]
    have h1 : 90 * k - 360 * (k / 4) = 90 * (k % 4) := by omega
    exact_mod_cast h1
  unfold pilSource
  dsimp only
  rw [e]
  rcases (by omega : k % 4 = 0 ∨ k % 4 = 1 ∨ k % 4 = 2 ∨ k % 4 = 3) with hq | hq | hq | hq
  · rw [hq]; norm_num
  · have hw : w = h := by omega
    rw [hq]; norm_num [hw]
  · rw [hq]; norm_num
  · have hw : w = h := by omega
    rw [hq]; norm_num [hw]

end Micropol
