import Verif.Spec.CalibrationLocal

/-! # Specification of the calibration of a part of the detector -/

set_option autoImplicit false

namespace Micropol

noncomputable section

/-- The part of `h` rows and `w` columns that starts at pixel `(y₀, x₀)`. -/
def window (y₀ x₀ h w : Nat) (A : Img ℝ) : Img ℝ := Img.ofFn h w fun y x => A.px (y₀ + y) (x₀ + x)

/-- The same part of every file. -/
def filesWindow (y₀ x₀ h w : Nat) (fs : Name → Option (Img ℝ)) : Name → Option (Img ℝ) := fun n => (fs n).map (window y₀ x₀ h w)

/-- The same part of the prescribed signal. -/
def signalWindow (y₀ x₀ h w : Nat) : NormArg → NormArg
  | .missing => .missing
  | .number s => .number s
  | .image A => .image (window y₀ x₀ h w A)
  | .series L => .series (L.map (window y₀ x₀ h w))

/-- The arguments for the part of the detector: the occulter counted from its first pixel, and its part of the signal. -/
def argsWindow (y₀ x₀ h w : Nat) (a : CalibArgs) : CalibArgs :=
  { a with occulter := a.occulter.map fun o => (o.1 - y₀, o.2.1 - x₀, o.2.2), normS := signalWindow y₀ x₀ h w a.normS }

/-- The occulter, if there is one, has its centre not above and not left of the part. -/
def CentreWithin (y₀ x₀ : Nat) (a : CalibArgs) : Prop := ∀ oy ox r, a.occulter = some (oy, ox, r) → (y₀ : ℝ) ≤ oy ∧ (x₀ : ℝ) ≤ ox

/-- `maps'` contains at superpixel `(Y', X')` and its four pixels what `maps` contains at `(Y, X)`. -/
structure SameOutcomeAt (maps : CalibMaps) (Y X : Nat) (maps' : CalibMaps) (Y' X' : Nat) : Prop where
  mij : ∀ i j, (maps'.mij i j).px Y' X' = (maps.mij i j).px Y X
  found : maps'.fitFound.px Y' X' = maps.fitFound.px Y X
  tk : ∀ i j, i < 2 → j < 2 → maps'.tk.px (2 * Y' + i) (2 * X' + j) = maps.tk.px (2 * Y + i) (2 * X + j)
  eff : ∀ i j, i < 2 → j < 2 → maps'.eff.px (2 * Y' + i) (2 * X' + j) = maps.eff.px (2 * Y + i) (2 * X + j)
  phase : ∀ i j, i < 2 → j < 2 → maps'.phase.px (2 * Y' + i) (2 * X' + j) = maps.phase.px (2 * Y + i) (2 * X + j)
  cov : ∀ i j, i < 2 → j < 2 → ∀ u v, (maps'.cov u v).px (2 * Y' + i) (2 * X' + j) = (maps.cov u v).px (2 * Y + i) (2 * X + j)
  chisq : ∀ i j, i < 2 → j < 2 → maps'.chisq.px (2 * Y' + i) (2 * X' + j) = maps.chisq.px (2 * Y + i) (2 * X + j)

end

end Micropol
