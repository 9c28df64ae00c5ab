import Verif.Spec.Stability
import Verif.Props.Stability

/-! # Vocabulary: errors of pixels and of Stokes maps

As in `Spec/Stability`, two sessions make the same calls on arrays that differ a little.  Here `e p` bounds the difference of the pixels
(and of the demosaiced images, if there are any) of the images known under name `p`, and `f p` the difference of their I, Q, U maps.
The maps need a bound of their own as soon as images are demodulated, because demodulation multiplies errors by the rows of the
demodulation matrices, and because `congrid` resamples maps.  `Noisy s e e' f f' o o'` : the same call in both sessions, up to the
array it is given, with bounds `e`, `f` before it and `e'`, `f'` after it. -/

set_option autoImplicit false

namespace Micropol

noncomputable section

/-- What the bounds of all images are after a call that returns a new image with errors `δ` (pixels) and `φ` (maps). -/
structure NewError (s : State) (e e' f f' : Nat → ℝ) (δ φ : ℝ) : Prop where
  pixels : Kept s e e'
  maps : Kept s f f'
  newPixels : δ ≤ e' s.images.length
  newMaps : φ ≤ f' s.images.length

/-- The same for a call in place on image `i`: the errors `δ` and `φ` are those of all names of that image. -/
structure PlaceError (s : State) (e e' f f' : Nat → ℝ) (i : Nat) (δ φ : ℝ) : Prop extends NewError s e e' f f' δ φ where
  names : ∀ p, p < s.images.length → s.images[p]? = s.images[i]? → δ ≤ e' p ∧ φ ≤ f' p

/-- `K` bounds how much multiplying by the demodulation matrices enlarges pixels. -/
def MatrixGain (D : Demodulator ℝ) (K : ℝ) : Prop := ∀ q y x, ∑ c, |(D.mij q c).px y x| ≤ K

/-- All pixels of the image known under name `j` are at most `M` in absolute value. -/
def PxBelow (s : State) (j : Nat) (M : ℝ) : Prop :=
  0 ≤ M ∧ ∀ k, s.images[j]? = some k → ∀ y x, y < (s.data k).h → x < (s.data k).w → |(s.data k).px y x| ≤ M

/-- The flat field known under name `j` is itself uncertain: its error is at most the fraction `ρ` of each of its pixels (and not as large
as their mean, so that the mean cannot vanish); `G` bounds how much dividing by the normalised flat field enlarges pixels. -/
def FlatQuality (s : State) (e : Nat → ℝ) (j : Nat) (G ρ : ℝ) : Prop :=
  0 ≤ G ∧ 0 ≤ ρ ∧ ρ < 1 ∧ ∀ k, s.images[j]? = some k → (e j = 0 ∨ e j < |(s.data k).mean|) ∧
    ∀ y x, y < (s.data k).h → x < (s.data k).w →
      (s.data k).px y x ≠ 0 ∧ |(s.data k).mean| ≤ G * |(s.data k).px y x| ∧ e j ≤ ρ * |(s.data k).px y x|

/-- Error of pixels of size at most `M` with error `ε` after division by such a flat field. -/
def flatResult (G ρ M ε : ℝ) : ℝ := ((G + ρ) * ε + M * (ρ * (G + 1))) / (1 - ρ)

/-- The divisor known under name `j` is itself uncertain, by at most the fraction `ρ` of each of its pixels, none of which is less than
`1 / G` in absolute value. -/
def DivisorQuality (s : State) (e : Nat → ℝ) (j : Nat) (G ρ : ℝ) : Prop :=
  0 ≤ G ∧ 0 ≤ ρ ∧ ρ < 1 ∧ ∀ k, s.images[j]? = some k → ∀ y x, y < (s.data k).h → x < (s.data k).w →
    (s.data k).px y x ≠ 0 ∧ 1 ≤ G * |(s.data k).px y x| ∧ e j ≤ ρ * |(s.data k).px y x|

/-- Error of pixels of size at most `M` with error `ε` after division by such an image. -/
def quotientResult (G ρ M ε : ℝ) : ℝ := G * (ε + M * ρ) / (1 - ρ)

/-- The rotation routine raises the same exception for both arrays, or enlarges the difference by at most the factor `L`. -/
def RotationGain (rot : Img ℝ → Py (Img ℝ)) (L : ℝ) : Prop := ∀ ε A B, 0 ≤ ε → PxWithin ε A B →
  (∀ x, rot A = .error x ↔ rot B = .error x) ∧ ∀ A' B', rot A = .ok A' → rot B = .ok B' → PxWithin (L * ε) A' B'

/-- Error of the pixels after the optional dark frame has been subtracted. -/
def darkError (e : Nat → ℝ) (ε : ℝ) : Option Nat → ℝ
  | none => ε
  | some j => ε + e j

/-- Bound of the pixels, at most `M` in absolute value before, after the optional dark frame (at most `N`) has been subtracted. -/
def darkBound (M N : ℝ) : Option Nat → ℝ
  | none => M
  | some _ => M + N

/-- Error of the pixels, at most `M` in absolute value, after the optional flat field correction. -/
def flatError (G ρ M ε : ℝ) : Option Nat → ℝ
  | none => ε
  | some _ => flatResult G ρ M ε

/-- Error of the pixels after the optional dark frame and flat field of the constructor. -/
def buildError (e : Nat → ℝ) (M N G ρ ε : ℝ) (dark flat : Option Nat) : ℝ :=
  max (darkError e ε dark) (flatError G ρ (darkBound M N dark) (darkError e ε dark) flat)

/-- The dark frame and the flat field given to the constructor: the dark frame is at most `N`. -/
structure BuildQuality (s : State) (e : Nat → ℝ) (dark flat : Option Nat) (N G ρ : ℝ) : Prop where
  dark : ∀ j, dark = some j → PxBelow s j N
  flat : ∀ j, flat = some j → FlatQuality s e j G ρ

/-- The same call in both sessions, and what it does to the errors. -/
inductive Noisy (s : State) (e e' f f' : Nat → ℝ) : Op → Op → Prop
  | setDefault (dic : Option AngleDic) (he : Kept s e e') (hf : Kept s f f') : Noisy s e e' f f' (.setDefault dic) (.setDefault dic)
  | fromArray (d d' : Img ℝ) (dic : Option AngleDic) (dark flat : Option Nat) (junk junk' : Nat → Nat → ℝ) (ε M N G ρ : ℝ) (hε : 0 ≤ ε)
      (hd : PxWithin ε d d') (hM0 : 0 ≤ M) (hM : ∀ y x, y < d.h → x < d.w → |d.px y x| ≤ M) (hG : BuildQuality s e dark flat N G ρ)
      (hn : NewError s e e' f f' (buildError e M N G ρ ε dark flat) (2 * buildError e M N G ρ ε dark flat)) :
      Noisy s e e' f f' (.fromArray d dic dark flat junk) (.fromArray d' dic dark flat junk')
  | copy (i : Nat) (dic : Option AngleDic) (junk junk' : Nat → Nat → ℝ) (hn : NewError s e e' f f' (e i) (f i)) :
      Noisy s e e' f f' (.fromImage i dic none none junk) (.fromImage i dic none none junk')
  | fromImage (i : Nat) (dic : Option AngleDic) (dark flat : Option Nat) (junk junk' : Nat → Nat → ℝ) (M N G ρ : ℝ)
      (hc : dark ≠ none ∨ flat ≠ none) (hM : PxBelow s i M) (hG : BuildQuality s e dark flat N G ρ)
      (hn : NewError s e e' f f' (buildError e M N G ρ (e i) dark flat) (2 * buildError e M N G ρ (e i) dark flat)) :
      Noisy s e e' f f' (.fromImage i dic dark flat junk) (.fromImage i dic dark flat junk')
  | rebin (i : Nat) (b : Int) (hn : NewError s e e' f f' ((b : ℝ) ^ 2 * e i) (2 * ((b : ℝ) ^ 2 * e i))) :
      Noisy s e e' f f' (.rebin i b) (.rebin i b)
  | congrid (i ny nx : Nat) (hn : NewError s e e' f f' (e i) (f i)) : Noisy s e e' f f' (.congrid i ny nx) (.congrid i ny nx)
  | demodulate (i : Nat) (D : Demodulator ℝ) (K : ℝ) (hK : MatrixGain D K)
      (hn : NewError s e e' f f' (e i) (max (K * e i) (f i))) :
      Noisy s e e' f f' (.demodulate i D false) (.demodulate i D false)
  | demodulateDemosaicing (i : Nat) (D : Demodulator ℝ) (K : ℝ) (hK : MatrixGain D K)
      (hn : NewError s e e' f f' (e i) (max (K * e i) (2 * e i))) :
      Noisy s e e' f f' (.demodulate i D true) (.demodulate i D true)
  | shift (i : Nat) (y x : Int) (missing : ℝ) (hn : NewError s e e' f f' (e i) (2 * e i)) :
      Noisy s e e' f f' (.shift i y x missing) (.shift i y x missing)
  | cleanHotPixels (i flags : Nat) (exact : e flags = 0) (hn : NewError s e e' f f' (e i) (2 * e i)) :
      Noisy s e e' f f' (.cleanHotPixels i flags (medianFilter 2)) (.cleanHotPixels i flags (medianFilter 2))
  | sumImages (op : Arith) (hop : op = .add ∨ op = .sub) (i j : Nat) (junk junk' : Nat → Nat → ℝ)
      (hn : NewError s e e' f f' (e i + e j) (2 * (e i + e j))) :
      Noisy s e e' f f' (.arithImage op i j junk) (.arithImage op i j junk')
  | mulImages (i j : Nat) (junk junk' : Nat → Nat → ℝ) (M N : ℝ) (hM : PxBelow s i M) (hN : PxBelow s j N)
      (hn : NewError s e e' f f' (max (e i) (M * e j + N * e i + e i * e j)) (2 * max (e i) (M * e j + N * e i + e i * e j))) :
      Noisy s e e' f f' (.arithImage .mul i j junk) (.arithImage .mul i j junk')
  | divImages (i j : Nat) (junk junk' : Nat → Nat → ℝ) (G ρ M : ℝ) (hG : DivisorQuality s e j G ρ) (hM : PxBelow s i M)
      (hn : NewError s e e' f f' (max (e i) (quotientResult G ρ M (e i))) (2 * max (e i) (quotientResult G ρ M (e i)))) :
      Noisy s e e' f f' (.arithImage .div i j junk) (.arithImage .div i j junk')
  | number (op : Arith) (i : Nat) (c : ℝ) (junk junk' : Nat → Nat → ℝ) (hc : op = .div → c ≠ 0)
      (hn : NewError s e e' f f' (numberFactor op c * e i) (2 * (numberFactor op c * e i))) :
      Noisy s e e' f f' (.arithNumber op i c junk) (.arithNumber op i c junk')
  | demosaic (i : Nat) (mode : String) (hp : PlaceError s e e' f f' i (e i) (2 * e i)) :
      Noisy s e e' f f' (.demosaic i mode) (.demosaic i mode)
  | subtractDark (i dark : Nat) (hp : PlaceError s e e' f f' i (e i + e dark) (2 * (e i + e dark))) :
      Noisy s e e' f f' (.subtractDark i dark) (.subtractDark i dark)
  | correctFlat (i flat : Nat) (junk junk' : Nat → Nat → ℝ) (G ρ M : ℝ) (hG : FlatQuality s e flat G ρ) (hM : PxBelow s i M)
      (hp : PlaceError s e e' f f' i (max (e i) (flatResult G ρ M (e i))) (2 * max (e i) (flatResult G ρ M (e i)))) :
      Noisy s e e' f f' (.correctFlat i flat junk) (.correctFlat i flat junk')
  | correctIfov (i : Nat) (hp : PlaceError s e e' f f' i (e i) (2 * e i)) : Noisy s e e' f f' (.correctIfov i) (.correctIfov i)
  | maskOcculter (i : Nat) (y x r over fill : ℝ) (he : Kept s e e') (hf : Kept s f f') :
      Noisy s e e' f f' (.maskOcculter i y x r over fill) (.maskOcculter i y x r over fill)
  /-- Rotation writes into the maps of the receiver and of all images that share them. -/
  | rotate (i : Nat) (rot : Img ℝ → Py (Img ℝ)) (L : ℝ) (hL : 1 ≤ L) (hrot : RotationGain rot L) (he : Kept s e e')
      (hf : ∀ p, p < s.images.length → L * f p ≤ f' p) (hd : L * e i ≤ e' s.images.length) (hφ : L * f i ≤ f' s.images.length) :
      Noisy s e e' f f' (.rotate i rot) (.rotate i rot)

/-- Two sessions, call by call, with the bounds `e k` and `f k` before call number `k`. -/
def NoisySession (e f : Nat → Nat → ℝ) (l : List (Op × Op)) : Prop :=
  (∀ k p, 0 ≤ e k p) ∧
  ∀ k o o', l[k]? = some (o, o') →
    Noisy (runOps ((l.take k).map Prod.fst)) (e k) (e (k + 1)) (f k) (f (k + 1)) o o'

/-- Both have the four demosaiced images, or none has. -/
def DemosaicedWithin (ε : ℝ) : Option (Fin 4 → Img ℝ) → Option (Fin 4 → Img ℝ) → Prop
  | none, none => True
  | some s, some t => ∀ c, PxWithin ε (s c) (t c)
  | _, _ => False

end

end Micropol
