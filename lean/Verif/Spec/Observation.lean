import Verif.Basic.Img
import Mathlib.Analysis.SpecialFunctions.Trigonometric.Basic
import Mathlib.Algebra.BigOperators.Fin

/-!
# Specification: what a micropolarizer camera records of a scene
-/

set_option autoImplicit false

namespace Micropol

noncomputable section

/-- Polarized light: intensity `i`, degree of polarization `p`, angle `θ`, as a Stokes vector. -/
def stokesOfLight (i p θ : ℝ) : Fin 3 → ℝ := ![i, i * p * Real.cos (2 * θ), i * p * Real.sin (2 * θ)]

/-- `raw` is an exposure of the scene whose Stokes vector at superpixel `(Y, X)` is `light Y X`: pixel `k` of the superpixel lets the part
`∑ i, R Y X k i * light Y X i` through, which is never negative; the pixel at row `y` and column `x` multiplies it by its gain, and the dark
counts are added. -/
def Exposure (raw dark : Img ℝ) (gain : Nat → Nat → ℝ) (R : Nat → Nat → Fin 4 → Fin 3 → ℝ) (light : Nat → Nat → Fin 3 → ℝ) : Prop :=
  raw.h % 2 = 0 ∧ raw.w % 2 = 0 ∧ dark.h = raw.h ∧ dark.w = raw.w ∧
  ∀ Y X (k : Fin 4), Y < raw.h / 2 → X < raw.w / 2 → 0 ≤ ∑ i, R Y X k i * light Y X i ∧
    raw.px (2 * Y + k.val / 2) (2 * X + k.val % 2) =
      gain (2 * Y + k.val / 2) (2 * X + k.val % 2) * (∑ i, R Y X k i * light Y X i) + dark.px (2 * Y + k.val / 2) (2 * X + k.val % 2)

/-- `flat` is an image of uniform light of any brightness `c > 0`: it shows the gains of the pixels. -/
def FlatOf (flat : Img ℝ) (h w : Nat) (gain : Nat → Nat → ℝ) : Prop :=
  flat.h = h ∧ flat.w = w ∧ ∃ c, 0 < c ∧ ∀ y x, y < h → x < w → flat.px y x = c * gain y x

/-- Mean gain of the pixels. -/
def meanGain (h w : Nat) (gain : Nat → Nat → ℝ) : ℝ := (∑ y ∈ Finset.range h, ∑ x ∈ Finset.range w, gain y x) / ((h * w : Nat) : ℝ)

end

end Micropol
