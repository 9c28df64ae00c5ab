import Verif.Spec.Normalisation
import Verif.Spec.Calibration

/-! # Specification of the pixels a superpixel of a calibration depends on -/

set_option autoImplicit false

namespace Micropol

noncomputable section

/-- The two images agree in the block of `2b x 2b` pixels that is binned into superpixel `(Y, X)`. -/
def SameBlock (A B : Img ℝ) (b Y X : Nat) : Prop :=
  ∀ y x, 2 * b * Y ≤ y → y < 2 * b * (Y + 1) → 2 * b * X ≤ x → x < 2 * b * (X + 1) → A.px y x = B.px y x

/-- There is no dark in both cases, or the darks agree in the block. -/
def SameDark (D E : Option (Img ℝ)) (b Y X : Nat) : Prop :=
  (D = none ∧ E = none) ∨ ∃ d e, D = some d ∧ E = some e ∧ SameBlock d e b Y X

/-- The maps agree at superpixel `(Y, X)` and at its four pixels. -/
structure SameOutcome (maps maps' : CalibMaps) (Y X : Nat) : Prop where
  mij : ∀ i j, (maps'.mij i j).px Y X = (maps.mij i j).px Y X
  found : maps'.fitFound.px Y X = maps.fitFound.px Y X
  tk : ∀ i j, i < 2 → j < 2 → maps'.tk.px (2 * Y + i) (2 * X + j) = maps.tk.px (2 * Y + i) (2 * X + j)
  eff : ∀ i j, i < 2 → j < 2 → maps'.eff.px (2 * Y + i) (2 * X + j) = maps.eff.px (2 * Y + i) (2 * X + j)
  phase : ∀ i j, i < 2 → j < 2 → maps'.phase.px (2 * Y + i) (2 * X + j) = maps.phase.px (2 * Y + i) (2 * X + j)
  cov : ∀ i j, i < 2 → j < 2 → ∀ u v, (maps'.cov u v).px (2 * Y + i) (2 * X + j) = (maps.cov u v).px (2 * Y + i) (2 * X + j)
  chisq : ∀ i j, i < 2 → j < 2 → maps'.chisq.px (2 * Y + i) (2 * X + j) = maps.chisq.px (2 * Y + i) (2 * X + j)

/-- Images of `h` rows and `w` columns are cut into `ny x nx` chunks with even sides, and every chunk is processed once. -/
structure EvenChunks (h w ny nx : Nat) (schedule : List Nat) : Prop where
  ny_pos : 0 < ny
  nx_pos : 0 < nx
  even_y : h / ny % 2 = 0
  even_x : w / nx % 2 = 0
  order : schedule.Perm (List.range (ny * nx))

end

end Micropol
