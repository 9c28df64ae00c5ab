import Verif.Spec.Shape
import Verif.Model.PolFunctions
import Mathlib.Analysis.Calculus.Deriv.Basic

/-!
# Gaussian error propagation
-/

set_option autoImplicit false

namespace Micropol

/-- `f` is the value at a pixel of the map `F` of three Stokes planes, as a function of the three values there. -/
def IsPixelFn (F : (Fin 3 → Img ℝ) → Py (Img ℝ)) (f : ℝ → ℝ → ℝ → ℝ) : Prop :=
  ∀ (S : Fin 3 → Img ℝ) (h w : ℕ), (∀ i, (S i).HasShape h w) → ∃ A, F S = .ok A ∧
    ∀ y x, y < h → x < w → A.px y x = f ((S 0).px y x) ((S 1).px y x) ((S 2).px y x)

/-- `s` is the error of `f(I, Q, U)` for independent errors of the three arguments, by Gaussian propagation:
`s² = Σ (∂f/∂v)² σ_v²`, where the partial derivatives exist. -/
def GaussianError (f : ℝ → ℝ → ℝ → ℝ) (I Q U sI sQ sU s : ℝ) : Prop :=
  0 ≤ s ∧ ∃ dI dQ dU : ℝ, HasDerivAt (fun t => f t Q U) dI I ∧ HasDerivAt (fun t => f I t U) dQ Q ∧
    HasDerivAt (fun t => f I Q t) dU U ∧ s ^ 2 = dI ^ 2 * sI ^ 2 + dQ ^ 2 * sQ ^ 2 + dU ^ 2 * sU ^ 2

end Micropol
