import Verif.Spec.Edit

/-! # Vocabulary for writes into demosaiced images -/

set_option autoImplicit false

namespace Micropol

/-- The four demosaiced images of an image, `none` for `None`. -/
noncomputable def State.demosaiced (s : State) (k : Nat) : Option (Fin 4 → Img ℝ) := (s.heap.objs.cell k).demosaicedImages

/-- The calls whose result holds the demosaiced images of the image they are called on: every copy and every operation that
works on a copy, but for demodulation with demosaicing. -/
def Op.sharesDemosaiced : Op → Bool
  | .fromImage _ _ _ _ _ => true
  | .rebin _ _ => true
  | .congrid _ _ _ => true
  | .rotate _ _ => true
  | .demodulate _ _ dem => !dem
  | .shift _ _ _ _ => true
  | .cleanHotPixels _ _ _ => true
  | .arithImage _ _ _ _ => true
  | _ => false

/-- The calls that give the image they are called on demosaiced images of its own. -/
def Op.renewsDemosaiced : Op → Bool
  | .demosaic _ _ => true
  | .maskOcculter _ _ _ _ _ _ => true
  | _ => false

/-- From the end of the session `es` on, whatever the user does next, writing into a demosaiced image of image `a` leaves those
of image `b` alone, and conversely. -/
def IndependentDemosaiced (es : List Edit) (a b : Nat) : Prop :=
  ∀ (es' : List Edit) (i : Nat) (q : Fin 4) (y x : Int) (v : ℝ),
    ((runEdits (es ++ es')).images[i]? = some a →
      (runEdits (es ++ es' ++ [.writeDemosaiced i q y x v])).demosaiced b = (runEdits (es ++ es')).demosaiced b) ∧
    ((runEdits (es ++ es')).images[i]? = some b →
      (runEdits (es ++ es' ++ [.writeDemosaiced i q y x v])).demosaiced a = (runEdits (es ++ es')).demosaiced a)

end Micropol
