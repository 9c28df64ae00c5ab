import Verif.Model.Utils
import Mathlib.Tactic.FieldSimp
import Mathlib.Tactic.Positivity
import Mathlib.Tactic.Linarith

/-!
# C72: shot noise and solar brightness units
-/

set_option autoImplicit false

namespace Micropol

noncomputable section

/-- C72: the noise of a pixel of `x` DN (6.93 electrons per DN) is that of Poisson statistics: the variance in electrons equals the
number of electrons.  Negative pixels have none (NaN). -/
theorem C72_shot_noise (x : ℝ) (hx : 0 ≤ x) : ∃ s, sigmaDN x = .ok s ∧ 0 ≤ s ∧ (6.93 * s) ^ 2 = 6.93 * x := by
  unfold sigmaDN
  dsimp only
  rw [if_neg (by push Not; positivity)]
  refine ⟨_, rfl, by positivity, ?_⟩
  have : (6.93 * (Real.sqrt (693 / 100 * x) / (693 / 100))) = Real.sqrt (693 / 100 * x) := by
    norm_num
    ring
  rw [this, Real.sq_sqrt (by positivity)]
  norm_num

theorem C72_negative (x : ℝ) (hx : x < 0) : sigmaDN x = .error .notFinite := by
  unfold sigmaDN
  dsimp only
  rw [if_pos (by nlinarith)]

/-- C72: brighter pixels are noisier, and relatively less noisy. -/
theorem C72_monotone {x y s t : ℝ} (hx : 0 < x) (hxy : x < y) (hs : sigmaDN x = .ok s) (ht : sigmaDN y = .ok t) :
    s < t ∧ t / y < s / x := by
  obtain ⟨s', h1, h2, h3⟩ := C72_shot_noise x hx.le
  obtain ⟨t', k1, k2, k3⟩ := C72_shot_noise y (hx.trans hxy).le
  rw [hs] at h1
  rw [ht] at k1
  obtain rfl := Except.ok.inj h1
  obtain rfl := Except.ok.inj k1
  have hy := hx.trans hxy
  have e1 : x = 6.93 * s ^ 2 := by nlinarith
  have e2 : y = 6.93 * t ^ 2 := by nlinarith
  have hs0 : 0 < s := by
    rcases h2.lt_or_eq with h | h
    · exact h
    · rw [← h] at e1; norm_num at e1; linarith
  have hst : s < t := by
    by_contra hc
    push Not at hc
    have : t ^ 2 ≤ s ^ 2 := by nlinarith
    linarith
  refine ⟨hst, ?_⟩
  rw [div_lt_div_iff₀ hy hx, e1, e2]
  have ht0 := hs0.trans hst
  have : 0 < s * t * (t - s) := mul_pos (mul_pos hs0 ht0) (sub_pos.2 hst)
  nlinarith

/-- C72: the conversion factor to units of the solar brightness: an image that records the diffuser's signal per unit exposure
comes out as transmittance times solid angle, whatever the exposure times. -/
theorem C72_bsun {diffuser texpImage texpDiffuser : ℝ} (h1 : texpImage ≠ 0) (h2 : texpDiffuser ≠ 0) (h3 : diffuser ≠ 0) :
    ∃ f, getBsunUnits diffuser texpImage texpDiffuser = .ok f ∧
      (diffuser / texpDiffuser * texpImage) * f = 0.28 * (1.083 * 10 ^ (-5 : ℤ)) := by
  unfold getBsunUnits
  dsimp only
  rw [if_neg h1, if_neg h2, if_neg (div_ne_zero h3 h2)]
  refine ⟨_, rfl, ?_⟩
  field_simp
  norm_num

/-- C72: without signal or exposure there is no factor: `ZeroDivisionError`. -/
theorem C72_bsun_zero {diffuser texpImage texpDiffuser : ℝ} (h : texpImage = 0 ∨ texpDiffuser = 0 ∨ diffuser = 0) :
    getBsunUnits diffuser texpImage texpDiffuser = .error .zeroDivisionError := by
  unfold getBsunUnits
  dsimp only
  split_ifs with h1 h2 h3
  · rfl
  · rfl
  · rfl
  · rcases h with h | h | h
    · exact absurd h h1
    · exact absurd h h2
    · exact absurd (by rw [h, zero_div]) h3

/-- The hypotheses are met. -/
example : ∃ f, getBsunUnits 1200 2 (1 / 2) = .ok f ∧ (1200 / (1 / 2) * 2) * f = 0.28 * (1.083 * 10 ^ (-5 : ℤ)) :=
  C72_bsun (by norm_num) (by norm_num) (by norm_num)

end

end Micropol
