import Verif.Spec.Shape
import Verif.Spec.EditDemosaiced

/-! # Vocabulary for calls that raise -/

set_option autoImplicit false

namespace Micropol

/-- Everything a user can read from an image. -/
structure Shown where
  data : Img ℝ
  stokes : Fin 3 → Img ℝ
  header : Header
  dic : AngleDic
  isDemosaiced : Bool
  demosaiced : Option (Fin 4 → Img ℝ)
  isDemodulated : Bool
  darkSubtracted : Bool
  flatSubtracted : Bool

/-- What image `k` shows. -/
noncomputable def State.shown (s : State) (k : Nat) : Shown where
  data := s.data k
  stokes := s.stokes k
  header := s.header k
  dic := s.dic k
  isDemosaiced := s.isDemosaiced k
  demosaiced := s.demosaiced k
  isDemodulated := (s.heap.objs.cell k).isDemodulated
  darkSubtracted := (s.heap.objs.cell k).darkSubtracted
  flatSubtracted := (s.heap.objs.cell k).flatSubtracted

/-- What the images of the session show, in the order in which the calls returned them. -/
noncomputable def State.shows (s : State) : List Shown := s.images.map s.shown

/-- Which images of the session are the same object. -/
def State.sameObjects (s t : State) : Prop :=
  ∀ i j : Nat, (s.images[i]? = s.images[j]? ↔ t.images[i]? = t.images[j]?)

/-- The call `o`, made in the session `s`, raises `e`. -/
def Raises (s : State) (o : Op) (e : PyErr) : Prop := (exec s.images o s.heap).1 = .error e

/-- The calls that write nothing that was there before they can raise:

* `rotate` with a rotation that always returns a plane of the same shape (as PIL's does);
* `congrid` on an image whose Stokes maps have at least two rows and columns;
* the constructor with both a dark and a flat, on an image whose header states its size;
* every other call. -/
def Op.Atomic (s : State) : Op → Prop
  | .rotate _ rot => ∀ A, ∃ B, rot A = .ok B ∧ B.SameShape A
  | .congrid i _ _ => ∀ k, s.images[i]? = some k → ∀ q, 2 ≤ (s.stokes k q).h ∧ 2 ≤ (s.stokes k q).w
  | .fromImage i _ (some _) (some _) _ => ∀ k, s.images[i]? = some k → s.header k = ⟨(s.data k).w, (s.data k).h⟩
  | _ => True

end Micropol
