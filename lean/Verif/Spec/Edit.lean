import Verif.Model.Edit
import Verif.Spec.Object

/-! # Vocabulary for sessions with writes -/

set_option autoImplicit false

namespace Micropol

/-- The calls that return a copy of an image with the same pixels: a copy without corrections, and `demodulate`. -/
def Op.samePixels : Op → Bool
  | .fromImage _ _ none none _ => true
  | .demodulate _ _ _ => true
  | _ => false

/-- The call `o`, made in the state `s`, raises nothing. -/
def Succeeds (s : State) (o : Op) : Prop := ∃ r, (exec s.images o s.heap).1 = .ok r

/-- The corrections in place of the pixels: dark, flat, IFOV, occulter mask. -/
def Op.correctsPixels (o : Op) : Bool := o.inPlace && o.setsData

/-- The calls that compute pixels and, from them, I, Q and U: rebin, shift, hot pixel cleaning, arithmetic, and the dark,
flat and IFOV corrections (also those asked for when copying). -/
def Op.recomputes : Op → Bool
  | .fromImage _ _ dark flat _ => dark.isSome || flat.isSome
  | .rebin _ _ => true
  | .shift _ _ _ _ => true
  | .cleanHotPixels _ _ _ => true
  | .arithImage _ _ _ _ => true
  | .arithNumber _ _ _ _ => true
  | .subtractDark _ _ => true
  | .correctFlat _ _ _ => true
  | .correctIfov _ => true
  | _ => false

/-- The call `o`, made after the session `es`, returns the new image `n`. -/
def Answers (es : List Edit) (o : Op) (n : Nat) : Prop :=
  (runEdits (es ++ [.call o])).images = (runEdits es).images ++ [n]

/-- From the end of the session `es` on, whatever the user does next, writing pixels of image `a` leaves those of image `b`
alone, and conversely. -/
def Independent (es : List Edit) (a b : Nat) : Prop :=
  ∀ (es' : List Edit) (i : Nat) (y x : Int) (v : ℝ),
    ((runEdits (es ++ es')).images[i]? = some a →
      (runEdits (es ++ es' ++ [.write i y x v])).data b = (runEdits (es ++ es')).data b) ∧
    ((runEdits (es ++ es')).images[i]? = some b →
      (runEdits (es ++ es' ++ [.write i y x v])).data a = (runEdits (es ++ es')).data a)

end Micropol
