import Verif.Spec.Edit

/-! # Vocabulary for writes into Stokes maps -/

set_option autoImplicit false

namespace Micropol

/-- The calls whose result holds the Stokes maps of the image they are called on: a copy without corrections, and
`rotate`. -/
def Op.sharesMaps : Op → Bool
  | .fromImage _ _ none none _ => true
  | .rotate _ _ => true
  | _ => false

/-- The calls in place that compute new Stokes maps: demosaicing and the dark, flat and IFOV corrections (not the occulter
mask, which writes into the maps there are). -/
def Op.renewsMaps : Op → Bool
  | .demosaic _ _ => true
  | .subtractDark _ _ => true
  | .correctFlat _ _ _ => true
  | .correctIfov _ => true
  | _ => false

/-- From the end of the session `es` on, whatever the user does next, writing into a Stokes map of image `a` leaves those of
image `b` alone, and conversely. -/
def IndependentMaps (es : List Edit) (a b : Nat) : Prop :=
  ∀ (es' : List Edit) (i : Nat) (p : Fin 3) (y x : Int) (v : ℝ),
    ((runEdits (es ++ es')).images[i]? = some a →
      (runEdits (es ++ es' ++ [.writeMap i p y x v])).stokes b = (runEdits (es ++ es')).stokes b) ∧
    ((runEdits (es ++ es')).images[i]? = some b →
      (runEdits (es ++ es' ++ [.writeMap i p y x v])).stokes a = (runEdits (es ++ es')).stokes a)

end Micropol
