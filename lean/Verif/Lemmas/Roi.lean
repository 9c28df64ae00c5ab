import Verif.Model.Roi
import Verif.Spec.Roi
import Verif.Lemmas.NumPy
import Mathlib.Analysis.SpecialFunctions.Trigonometric.Angle
import Mathlib.Tactic.Linarith
import Mathlib.Tactic.FieldSimp
import Mathlib.Tactic.Ring
import Mathlib.Tactic.NormNum
import Mathlib.Tactic.Positivity

/-! # Auxiliary facts about polar selections -/

set_option autoImplicit false

namespace Micropol

open Real

theorem pyMod_range (a : ℝ) {b : ℝ} (hb : 0 < b) : 0 ≤ pyMod a b ∧ pyMod a b < b := by
  unfold pyMod
  have h1 := Int.floor_le (a / b)
  have h2 := Int.lt_floor_add_one (a / b)
  rw [le_div_iff₀ hb] at h1
  rw [div_lt_iff₀ hb] at h2
  constructor <;> nlinarith

/-- The computed coordinates are polar coordinates. -/
theorem computed_polar (dy dx : ℝ) :
    IsPolar dy dx (Real.sqrt (dx ^ 2 + dy ^ 2)) (pyMod (Complex.arg ⟨dx, dy⟩ * 180 / Real.pi + 360) 360) := by
  have hn : ‖(⟨dx, dy⟩ : ℂ)‖ = Real.sqrt (dx ^ 2 + dy ^ 2) := by
    rw [Complex.norm_def, Complex.normSq_mk]
    congr 1
    ring
  obtain ⟨r1, r2⟩ := pyMod_range (Complex.arg ⟨dx, dy⟩ * 180 / Real.pi + 360) (b := 360) (by norm_num)
  have hang : pyMod (Complex.arg ⟨dx, dy⟩ * 180 / Real.pi + 360) 360 * Real.pi / 180
      = Complex.arg ⟨dx, dy⟩ + ((1 - ⌊(Complex.arg ⟨dx, dy⟩ * 180 / Real.pi + 360) / 360⌋ : ℤ) : ℝ) * (2 * Real.pi) := by
    unfold pyMod
    have := Real.pi_ne_zero
    push_cast
    field_simp
    ring
  refine ⟨Real.sqrt_nonneg _, ?_, ?_, r1, r2, ?_⟩
  · rw [hang, Real.cos_add_int_mul_two_pi, ← hn, Complex.norm_mul_cos_arg]
  · rw [hang, Real.sin_add_int_mul_two_pi, ← hn, Complex.norm_mul_sin_arg]
  · intro h0
    rw [← hn, norm_eq_zero] at h0
    rw [h0, Complex.arg_zero]
    unfold pyMod
    norm_num

theorem polar_unique {dy dx ρ φ ρ' φ' : ℝ} (h : IsPolar dy dx ρ φ) (h' : IsPolar dy dx ρ' φ') : ρ = ρ' ∧ φ = φ' := by
  obtain ⟨h0, h1, h2, h3, h4, h5⟩ := h
  obtain ⟨g0, g1, g2, g3, g4, g5⟩ := h'
  have e1 : ρ ^ 2 = dx ^ 2 + dy ^ 2 := by
    rw [h1, h2]
    have := Real.sin_sq_add_cos_sq (φ * Real.pi / 180)
    nlinarith
  have e2 : ρ' ^ 2 = dx ^ 2 + dy ^ 2 := by
    rw [g1, g2]
    have := Real.sin_sq_add_cos_sq (φ' * Real.pi / 180)
    nlinarith
  have hρ : ρ = ρ' := by
    rw [← e2] at e1
    exact (pow_left_inj₀ h0 g0 (by norm_num)).1 e1
  subst hρ
  refine ⟨rfl, ?_⟩
  by_cases hz : ρ = 0
  · rw [h5 hz, g5 hz]
  · have c : Real.cos (φ * Real.pi / 180) = Real.cos (φ' * Real.pi / 180) := mul_left_cancel₀ hz (h1.symm.trans g1)
    have s : Real.sin (φ * Real.pi / 180) = Real.sin (φ' * Real.pi / 180) := mul_left_cancel₀ hz (h2.symm.trans g2)
    have := Real.Angle.cos_sin_inj c s
    rw [Real.Angle.angle_eq_iff_two_pi_dvd_sub] at this
    obtain ⟨k, hk⟩ := this
    have hpi := Real.pi_pos
    have e : φ - φ' = 360 * k := by
      have : (φ - φ') * Real.pi = (360 * k) * Real.pi := by nlinarith
      exact mul_right_cancel₀ hpi.ne' this
    have k1 : (360 : ℝ) * k < 360 * 1 := by linarith
    have k2 : (360 : ℝ) * (-1) < 360 * k := by linarith
    have k3 : (k : ℝ) < ((1 : ℤ) : ℝ) := by push_cast; exact lt_of_mul_lt_mul_left k1 (by norm_num)
    have k4 : (((-1 : ℤ)) : ℝ) < (k : ℝ) := by push_cast; exact lt_of_mul_lt_mul_left k2 (by norm_num)
    have : k = 0 := by
      have := Int.cast_lt.1 k3
      have := Int.cast_lt.1 k4
      omega
    rw [this] at e
    push_cast at e
    linarith

theorem region_iff (c r t : ℝ × ℝ) (y x : ℝ) :
    InRegion c r t y x ↔
      (Real.sqrt ((x - c.2) ^ 2 + (y - c.1) ^ 2) > r.1 ∧ Real.sqrt ((x - c.2) ^ 2 + (y - c.1) ^ 2) ≤ r.2) ∧
      (pyMod (Complex.arg ⟨x - c.2, y - c.1⟩ * 180 / Real.pi + 360) 360 ≥ t.1 ∧
        pyMod (Complex.arg ⟨x - c.2, y - c.1⟩ * 180 / Real.pi + 360) 360 < t.2) := by
  constructor
  · rintro ⟨ρ, φ, hp, h1, h2, h3, h4⟩
    obtain ⟨e1, e2⟩ := polar_unique hp (computed_polar _ _)
    rw [← e1, ← e2]
    exact ⟨⟨h1, h2⟩, h3, h4⟩
  · rintro ⟨⟨h1, h2⟩, h3, h4⟩
    exact ⟨_, _, computed_polar _ _, h1, h2, h3, h4⟩

theorem roiCondition_px (h w : Nat) (c r t : ℝ × ℝ) {y x : Nat} (hy : y < h) (hx : x < w) :
    (roiCondition h w c r t).px y x = true ↔ InRegion c r t y x := by
  rw [region_iff]
  unfold roiCondition mapPolarCoordinates
  dsimp only
  rw [Img.ofFn_px hy hx, Img.ofFn_px hy hx, Img.ofFn_px hy hx, Bool.and_eq_true, decide_eq_true_iff,
    decide_eq_true_iff]

theorem trunc_unique {x : ℝ} {n m : ℤ} (hn : IsTrunc x n) (hm : IsTrunc x m) : n = m := by
  obtain ⟨h1, h2, h3⟩ := hn
  obtain ⟨g1, g2, g3⟩ := hm
  have e1 : |n| < |m| + 1 := by exact_mod_cast lt_of_le_of_lt h1 g2
  have e2 : |m| < |n| + 1 := by exact_mod_cast lt_of_le_of_lt g1 h2
  have e3 : |n| = |m| := by omega
  rcases abs_eq_abs.1 e3 with h | h
  · exact h
  · by_contra hne
    have hm0 : m ≠ 0 := by rintro rfl; simp at h; exact hne h
    rw [h] at h3
    push_cast at h3
    have h0 : (m : ℝ) * x = 0 := by linarith
    rcases mul_eq_zero.1 h0 with h' | h'
    · exact hm0 (by exact_mod_cast h')
    · rw [h', abs_zero] at g1
      have := abs_eq_zero.1 (le_antisymm g1 (abs_nonneg _))
      exact hm0 (by exact_mod_cast this)

theorem pyInt_trunc (x : ℝ) : IsTrunc x (pyInt x) := by
  unfold pyInt
  split
  · rename_i h
    have h1 := Int.floor_le x
    have h2 := Int.lt_floor_add_one x
    have h3 : (0 : ℝ) ≤ (⌊x⌋ : ℝ) := by exact_mod_cast Int.floor_nonneg.2 h
    refine ⟨?_, ?_, mul_nonneg h3 h⟩
    · rw [abs_of_nonneg h3, abs_of_nonneg h]; exact h1
    · rw [abs_of_nonneg h3, abs_of_nonneg h]; exact h2
  · rename_i h
    push Not at h
    have h1 := Int.le_ceil x
    have h2 := Int.ceil_lt_add_one x
    have h3 : (⌈x⌉ : ℝ) ≤ 0 := by
      have : ⌈x⌉ ≤ 0 := Int.ceil_le.2 (by push_cast; exact h.le)
      exact_mod_cast this
    refine ⟨?_, ?_, mul_nonneg_of_nonpos_of_nonpos h3 h.le⟩
    · rw [abs_of_nonpos h3, abs_of_neg h]; linarith
    · rw [abs_of_nonpos h3, abs_of_neg h]; linarith

theorem npWhere_fill {M : Img Bool} {A : Img ℝ} (fill : ℝ) (hh : M.h = A.h) (hw : M.w = A.w) :
    npWhere M A (Img.const 1 1 fill) = .ok (Img.ofFn A.h A.w (fun y x => if M.px y x then A.px y x else fill)) := by
  have hb : ∀ a, bdim a 1 = .ok a := by
    intro a; unfold bdim; split_ifs <;> simp_all
  unfold npWhere
  rw [show (Img.const 1 1 fill).h = 1 from rfl, show (Img.const 1 1 fill).w = 1 from rfl, hb, hb, Py.ok_bind, Py.ok_bind,
    hh, hw, bdim_self, bdim_self, Py.ok_bind, Py.ok_bind, Py.pure_eq]
  congr 1
  refine Img.ofFn_congr ?_
  intro y x hy hx
  have e : (Img.const 1 1 fill).px (bidx 1 y) (bidx 1 x) = fill := Img.ofFn_px (by simp [bidx]) (by simp [bidx])
  rw [bidx_of_lt hy, bidx_of_lt hx, e]

end Micropol
