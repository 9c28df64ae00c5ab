import Verif.Spec.Failed

/-! # Vocabulary for calls made twice -/

set_option autoImplicit false

namespace Micropol

/-- What a user can read from an image, apart from its header.  `stokesIsList`: `Stokes_vec` is a list of three maps (as
`congrid` leaves it), not one array. -/
structure Look where
  data : Img ℝ
  stokes : Fin 3 → Img ℝ
  stokesIsList : Bool
  dic : AngleDic
  isDemosaiced : Bool
  demosaiced : Option (Fin 4 → Img ℝ)
  isDemodulated : Bool
  darkSubtracted : Bool
  flatSubtracted : Bool

/-- What image `k` looks like. -/
noncomputable def State.look (s : State) (k : Nat) : Look where
  data := s.data k
  stokes := s.stokes k
  stokesIsList := (s.heap.stokesOf k).isList
  dic := s.dic k
  isDemosaiced := s.isDemosaiced k
  demosaiced := s.demosaiced k
  isDemodulated := (s.heap.objs.cell k).isDemodulated
  darkSubtracted := (s.heap.objs.cell k).darkSubtracted
  flatSubtracted := (s.heap.objs.cell k).flatSubtracted

/-- What the `i`-th image of the session looks like, if there are so many. -/
noncomputable def State.lookAt (s : State) (i : Nat) : Option Look := (s.images[i]?).map s.look

/-- The images a call is given: the one it is called on and those among its arguments. -/
def Op.operands : Op → List Nat
  | .setDefault _ => []
  | .fromArray _ _ dark flat _ => dark.toList ++ flat.toList
  | .fromImage i _ dark flat _ => i :: (dark.toList ++ flat.toList)
  | .rebin i _ => [i]
  | .congrid i _ _ => [i]
  | .rotate i _ => [i]
  | .demodulate i _ _ => [i]
  | .shift i _ _ _ => [i]
  | .cleanHotPixels i f _ => [i, f]
  | .arithImage _ i j _ => [i, j]
  | .arithNumber _ i _ _ => [i]
  | .demosaic i _ => [i]
  | .subtractDark i d => [i, d]
  | .correctFlat i f _ => [i, f]
  | .correctIfov i => [i]
  | .maskOcculter i _ _ _ _ _ => [i]

/-- An image made of an array without stating its angles gets the default ones. -/
def Op.usesDefault : Op → Bool
  | .fromArray _ none _ _ _ => true
  | _ => false

/-- The call `o` is given images that look the same after the one history and after the other (and the same default angles,
if it uses them). -/
def SameInputs (ops ops' : List Op) (o : Op) : Prop :=
  (∀ i ∈ o.operands, (runOps ops).lookAt i = (runOps ops').lookAt i) ∧
  (o.usesDefault = true → (lastDefault ops).getD polarCamAngles = (lastDefault ops').getD polarCamAngles)

/-- The calls `more`, made after `ops`, leave alone the images `o` is given: none of them is a `rotate` or a mask (which may
overwrite Stokes maps shared with another image), none works in place on such an image, none sets the default angles. -/
def LeavesInputs (ops more : List Op) (o : Op) : Prop :=
  ∀ pre p post, more = pre ++ p :: post →
    (∀ i rot, p ≠ .rotate i rot) ∧ (∀ i y x r over fill, p ≠ .maskOcculter i y x r over fill) ∧ (∀ d, p ≠ .setDefault d) ∧
    ∀ i ∈ o.operands, ∀ k, (runOps ops).images[i]? = some k → ¬ (p.inPlace = true ∧ p.CalledOn (runOps (ops ++ pre)) k)

end Micropol
